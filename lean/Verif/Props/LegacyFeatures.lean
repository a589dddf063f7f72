import Verif.Model.LegacyFeatures
import Verif.Props.Keys
import Verif.Py.DictLemmas

/-!
# C144: materialized columns and meta features
-/

namespace TFMA
namespace LegacyFeatures

variable {A : Type}

/-! ### specification -/

/-- The three dictionaries a model was evaluated on. -/
def Standard (p : Name) : Prop := p = "features".toList ∨ p = "predictions".toList ∨ p = "labels".toList

/-- The column of the value called `n` among the values called `p`. -/
inductive Column (p n : Name) : Name → Prop
  | whole : n = p ∨ n = "__".toList ++ p → Column p n p
  | part : ¬ (n = p ∨ n = "__".toList ++ p) → Standard p → Column p n (Keys.compoundKey [p, n])
  | extra : ¬ (n = p ∨ n = "__".toList ++ p) → ¬ Standard p → Column p n (p ++ "__".toList ++ n)

/-- What a column shows of a value: the values of a sparse tensor, otherwise the first row. -/
inductive Shown : Item A → ColV A → Prop
  | sparse (i : Item A) (a : A) : i = .plain (.sparse a) ∨ i = .node (.sparse a) → Shown i (.val a)
  | first (i : Item A) (a : A) (rest : List A) : i = .plain (.rows (a :: rest)) ∨ i = .node (.rows (a :: rest)) → Shown i (.val a)
  | empty (i : Item A) : i = .plain (.rows []) ∨ i = .node (.rows []) → Shown i .empty

/-- `i` is a value among `d` that is not excluded, and `c` its column. -/
def Entry (excl : List Name) (p : Name) (d : Dict Name (Item A)) (c : Name) (i : Item A) : Prop :=
  ∃ n, (n, i) ∈ d ∧ n ∉ excl ∧ Column p n c

/-- Which values are to be shown: those of the additional extracts, and features, predictions and labels. -/
inductive Source (e : Extr A) (add : List Name) : Name → Dict Name (Item A) → Prop
  | additional (p d) : p ∈ add → Dict.get? e p = some (.data d) → Source e add p d
  | features (f) : Dict.get? e "_fpl".toList = some (.fpl f) → Source e add "features".toList f.features
  | predictions (f) : Dict.get? e "_fpl".toList = some (.fpl f) → Source e add "predictions".toList f.predictions
  | labels (f) : Dict.get? e "_fpl".toList = some (.fpl f) → Source e add "labels".toList f.labels

/-! ### lemmas -/

theorem colName_iff (p n c : Name) : colName p n = c ↔ Column p n c := by
  unfold colName
  have hs : (p ≠ featuresKey ∧ p ≠ predictionsKey ∧ p ≠ labelsKey) ↔ ¬ Standard p := by
    unfold Standard featuresKey predictionsKey labelsKey; tauto
  have hu : (n = p ∨ n = '_' :: '_' :: p) ↔ (n = p ∨ n = "__".toList ++ p) := Iff.rfl
  by_cases h1 : n = p ∨ n = '_' :: '_' :: p
  · rw [if_pos h1]
    constructor
    · rintro rfl; exact .whole h1
    · intro h
      cases h with
      | whole _ => rfl
      | part h _ => exact absurd h1 h
      | extra h _ => exact absurd h1 h
  · rw [if_neg h1]
    by_cases h2 : p ≠ featuresKey ∧ p ≠ predictionsKey ∧ p ≠ labelsKey
    · rw [if_pos h2]
      have he : p ++ '_' :: '_' :: n = p ++ "__".toList ++ n := by simp
      constructor
      · rintro rfl; rw [he]; exact .extra h1 (hs.1 h2)
      · intro h
        cases h with
        | whole h => exact absurd h h1
        | part _ h => exact absurd h (hs.1 h2)
        | extra _ _ => exact he
    · rw [if_neg h2]
      constructor
      · rintro rfl; exact .part h1 (by by_contra h; exact h2 (hs.2 h))
      · intro h
        cases h with
        | whole h => exact absurd h h1
        | part _ h => rfl
        | extra _ h => exact absurd (hs.2 h) h2

/-- Columns of the entries `S` are written, nothing else is. -/
def Effect (S : Name → Item A → Prop) (r0 r : Extr A) : Prop :=
  (∀ k, (∀ i, ¬ S k i) → Dict.get? r k = Dict.get? r0 k) ∧
  ∀ c i, S c i → ∃ i' v, S c i' ∧ Shown i' v ∧ Dict.get? r c = some (.column c v)

theorem Effect.trans {S T : Name → Item A → Prop} {r0 r1 r2 : Extr A} (h1 : Effect S r0 r1) (h2 : Effect T r1 r2) :
    Effect (fun c i => S c i ∨ T c i) r0 r2 := by
  constructor
  · intro k hk
    rw [h2.1 k fun i hi => hk i (.inr hi), h1.1 k fun i hi => hk i (.inl hi)]
  · intro c i hi
    by_cases ht : ∃ j, T c j
    · obtain ⟨j, hj⟩ := ht
      obtain ⟨i', v, h3, h4, h5⟩ := h2.2 c j hj
      exact ⟨i', v, .inr h3, h4, h5⟩
    · rcases hi with hi | hi
      · obtain ⟨i', v, h3, h4, h5⟩ := h1.2 c i hi
        exact ⟨i', v, .inl h3, h4, by rw [h2.1 c fun j hj => ht ⟨j, hj⟩, h5]⟩
      · exact absurd ⟨i, hi⟩ ht

theorem Effect.congr {S T : Name → Item A → Prop} {r0 r : Extr A} (h : Effect S r0 r) (hst : ∀ c i, S c i ↔ T c i) : Effect T r0 r := by
  have : S = T := by funext c i; exact propext (hst c i)
  exact this ▸ h

theorem effect_one (c : Name) (i : Item A) (v : ColV A) (hv : Shown i v) (r : Extr A) :
    Effect (fun c' i' => c' = c ∧ i' = i) r (Dict.set r c (.column c v)) := by
  constructor
  · intro k hk
    exact Dict.get?_set_ne _ _ fun h => hk i ⟨h.symm, rfl⟩
  · rintro c' i' ⟨rfl, rfl⟩
    exact ⟨i', v, ⟨rfl, rfl⟩, hv, Dict.get?_set_self ..⟩

theorem augment_effect (p : Name) (ex : Option (List Name)) (d : Dict Name (Item A)) (r0 r : Extr A) (h : augment p ex d r0 = .ok r) :
    Effect (Entry (ex.getD []) p d) r0 r := by
  induction d generalizing r0 with
  | nil =>
    cases h
    exact ⟨fun _ _ => rfl, by rintro c i ⟨n, hn, -⟩; cases hn⟩
  | cons x d ih =>
    obtain ⟨n, i⟩ := x
    unfold augment at h
    by_cases hx : n ∈ ex.getD []
    · rw [if_pos hx] at h
      refine (ih r0 h).congr fun c j => ?_
      constructor
      · rintro ⟨m, h1, h2⟩; exact ⟨m, by simp [h1], h2⟩
      · rintro ⟨m, h1, h2, h3⟩
        rcases List.mem_cons.1 h1 with h1 | h1
        · cases h1; exact absurd hx h2
        · exact ⟨m, h1, h2, h3⟩
    · rw [if_neg hx] at h
      have key : ∀ v, Shown i v → augment p ex d (Dict.set r0 (colName p n) (.column (colName p n) v)) = .ok r →
          Effect (Entry (ex.getD []) p ((n, i) :: d)) r0 r := by
        intro v hv ha
        refine ((effect_one _ i v hv r0).trans (ih _ ha)).congr fun c j => ?_
        constructor
        · rintro (⟨rfl, rfl⟩ | ⟨m, h1, h2⟩)
          · exact ⟨n, by simp, hx, (colName_iff _ _ _).1 rfl⟩
          · exact ⟨m, by simp [h1], h2⟩
        · rintro ⟨m, h1, h2, h3⟩
          rcases List.mem_cons.1 h1 with h1 | h1
          · cases h1; exact .inl ⟨((colName_iff _ _ _).2 h3).symm, rfl⟩
          · exact .inr ⟨m, h1, h2, h3⟩
      cases i with
      | plain v =>
        cases v with
        | sparse a => exact key _ (.sparse _ a (.inl rfl)) h
        | rows l =>
          cases l with
          | nil => exact key _ (.empty _ (.inl rfl)) h
          | cons a l => exact key _ (.first _ a l (.inl rfl)) h
        | other => cases h
      | node v =>
        cases v with
        | sparse a => exact key _ (.sparse _ a (.inr rfl)) h
        | rows l =>
          cases l with
          | nil => exact key _ (.empty _ (.inr rfl)) h
          | cons a l => exact key _ (.first _ a l (.inr rfl)) h
        | other => cases h

/-- A value no column can be made of. -/
def Unfit (excl : List Name) (d : Dict Name (Item A)) : Prop := ∃ n i, (n, i) ∈ d ∧ n ∉ excl ∧ ∀ v, ¬ Shown i v

theorem augment_error (p : Name) (ex : Option (List Name)) (d : Dict Name (Item A)) (r0 : Extr A) :
    (Unfit (ex.getD []) d → augment p ex d r0 = .error .typeError) ∧ (¬ Unfit (ex.getD []) d → ∃ r, augment p ex d r0 = .ok r) := by
  induction d generalizing r0 with
  | nil => exact ⟨by rintro ⟨n, i, hn, -⟩; (cases hn), fun _ => ⟨r0, rfl⟩⟩
  | cons x d ih =>
    obtain ⟨n, i⟩ := x
    unfold augment
    by_cases hx : n ∈ ex.getD []
    · have : Unfit (ex.getD []) ((n, i) :: d) ↔ Unfit (ex.getD []) d := by
        constructor
        · rintro ⟨m, j, h1, h2, h3⟩
          rcases List.mem_cons.1 h1 with h1 | h1
          · cases h1; exact absurd hx h2
          · exact ⟨m, j, h1, h2, h3⟩
        · rintro ⟨m, j, h1, h2⟩; exact ⟨m, j, by simp [h1], h2⟩
      rw [if_pos hx, this]
      exact ih r0
    · rw [if_neg hx]
      have fit : ∀ v, Shown i v → (Unfit (ex.getD []) ((n, i) :: d) ↔ Unfit (ex.getD []) d) := by
        intro v hv
        constructor
        · rintro ⟨m, j, h1, h2, h3⟩
          rcases List.mem_cons.1 h1 with h1 | h1
          · cases h1; exact absurd hv (h3 v)
          · exact ⟨m, j, h1, h2, h3⟩
        · rintro ⟨m, j, h1, h2⟩; exact ⟨m, j, by simp [h1], h2⟩
      have unfit : (i = .plain .other ∨ i = .node .other) → Unfit (ex.getD []) ((n, i) :: d) := by
        intro hi
        refine ⟨n, i, by simp, hx, ?_⟩
        rintro v hv
        cases hv with
        | sparse a h => rcases hi with rfl | rfl <;> simp at h
        | first a l h => rcases hi with rfl | rfl <;> simp at h
        | empty h => rcases hi with rfl | rfl <;> simp at h
      cases i with
      | plain v =>
        cases v with
        | sparse a => rw [fit _ (.sparse _ a (.inl rfl))]; exact ih _
        | rows l =>
          cases l with
          | nil => rw [fit _ (.empty _ (.inl rfl))]; exact ih _
          | cons a l => rw [fit _ (.first _ a l (.inl rfl))]; exact ih _
        | other => exact ⟨fun _ => rfl, fun h => absurd (unfit (.inl rfl)) h⟩
      | node v =>
        cases v with
        | sparse a => rw [fit _ (.sparse _ a (.inr rfl))]; exact ih _
        | rows l =>
          cases l with
          | nil => rw [fit _ (.empty _ (.inr rfl))]; exact ih _
          | cons a l => rw [fit _ (.first _ a l (.inr rfl))]; exact ih _
        | other => exact ⟨fun _ => rfl, fun h => absurd (unfit (.inr rfl)) h⟩

theorem additional_effect (ex : Option (List Name)) (ks : List Name) (r0 r : Extr A) (h : additional ex ks r0 = .ok r)
    (hfree : ∀ p ∈ ks, ∀ d, Dict.get? r0 p = some (.data d) → ∀ c i, Entry (ex.getD []) p d c i → c ∉ ks) :
    Effect (fun c i => ∃ p ∈ ks, ∃ d, Dict.get? r0 p = some (.data d) ∧ Entry (ex.getD []) p d c i) r0 r := by
  induction ks generalizing r0 with
  | nil => cases h; exact ⟨fun _ _ => rfl, by rintro c i ⟨p, hp, -⟩; cases hp⟩
  | cons k ks ih =>
    unfold additional at h
    cases hg : Dict.get? r0 k with
    | none =>
      rw [hg] at h
      refine (ih r0 h fun p hp d hd c i he hc => hfree p (by simp [hp]) d hd c i he (by simp [hc])).congr fun c i => ?_
      constructor
      · rintro ⟨p, hp, h⟩; exact ⟨p, by simp [hp], h⟩
      · rintro ⟨p, hp, d, hd, he⟩
        rcases List.mem_cons.1 hp with rfl | hp
        · rw [hg] at hd; cases hd
        · exact ⟨p, hp, d, hd, he⟩
    | some s =>
      rw [hg] at h
      cases s with
      | data d =>
        simp only at h
        cases ha : augment k ex d r0 with
        | error e => rw [ha] at h; cases h
        | ok r1 =>
          simp only [ha] at h
          have h1 := augment_effect k ex d r0 r1 ha
          have hsame : ∀ p ∈ k :: ks, Dict.get? r1 p = Dict.get? r0 p :=
            fun p hp => h1.1 p fun i hi => hfree k (by simp) d hg p i hi hp
          have h2 := ih r1 h (by
            intro p hp d' hd' c i he hc
            rw [hsame p (by simp [hp])] at hd'
            exact hfree p (by simp [hp]) d' hd' c i he (by simp [hc]))
          refine (h1.trans h2).congr fun c i => ?_
          constructor
          · rintro (he | ⟨p, hp, d', hd', he⟩)
            · exact ⟨k, by simp, d, hg, he⟩
            · rw [hsame p (by simp [hp])] at hd'
              exact ⟨p, by simp [hp], d', hd', he⟩
          · rintro ⟨p, hp, d', hd', he⟩
            rcases List.mem_cons.1 hp with rfl | hp'
            · rw [hg] at hd'; cases hd'; exact .inl he
            · exact .inr ⟨p, hp', d', by rw [hsame p hp]; exact hd', he⟩
      | _ => cases h

/-! ### theorems -/

/-- **C144** (what is written): unless a column has the name of one of the extracts that are read, each value to be shown has a column, a
column shows one of the values it is for, and nothing else changes. -/
theorem C144_columns (add excl : Option (List Name)) (dest : Name) (e r : Extr A)
    (h : materialize add excl "_fpl".toList dest e = .ok r)
    (hfree : ∀ p ∈ add.getD [], ∀ d, Dict.get? e p = some (.data d) → ∀ c i, Entry (excl.getD []) p d c i →
      c ∉ add.getD [] ∧ c ≠ "_fpl".toList) :
    (∀ p d c i, Source e (add.getD []) p d → Entry (excl.getD []) p d c i →
      ∃ p' d' i' v, Source e (add.getD []) p' d' ∧ Entry (excl.getD []) p' d' c i' ∧ Shown i' v ∧
        Dict.get? r c = some (.column c v)) ∧
    ∀ k, (∀ p d i, Source e (add.getD []) p d → ¬ Entry (excl.getD []) p d k i) → Dict.get? r k = Dict.get? e k := by
  unfold materialize at h
  cases ha : additional excl (add.getD []) e with
  | error x => rw [ha] at h; cases h
  | ok r0 =>
    simp only [ha] at h
    have h0 := additional_effect excl _ e r0 ha fun p hp d hd c i he => (hfree p hp d hd c i he).1
    have hfpl : Dict.get? r0 fplKey = Dict.get? e fplKey :=
      h0.1 _ (by rintro i ⟨p, hp, d, hd, he⟩; exact (hfree p hp d hd _ i he).2 rfl)
    rw [if_pos (show "_fpl".toList = fplKey from rfl), hfpl] at h
    cases hg : Dict.get? e fplKey with
    | none => rw [hg] at h; cases h
    | some s =>
      simp only [hg] at h
      split at h
      · cases h
      · cases s with
        | fpl f =>
          simp only at h
          cases h1 : augment featuresKey excl f.features r0 with
          | error x => rw [h1] at h; cases h
          | ok r1 =>
            simp only [h1] at h
            cases h2 : augment predictionsKey excl f.predictions r1 with
            | error x => rw [h2] at h; cases h
            | ok r2 =>
              simp only [h2] at h
              have hall := ((h0.trans (augment_effect _ _ _ _ _ h1)).trans (augment_effect _ _ _ _ _ h2)).trans
                (augment_effect _ _ _ _ _ h)
              have hiff : ∀ c i, (((∃ p ∈ add.getD [], ∃ d, Dict.get? e p = some (.data d) ∧ Entry (excl.getD []) p d c i) ∨
                  Entry (excl.getD []) featuresKey f.features c i) ∨ Entry (excl.getD []) predictionsKey f.predictions c i) ∨
                  Entry (excl.getD []) labelsKey f.labels c i ↔
                  ∃ p d, Source e (add.getD []) p d ∧ Entry (excl.getD []) p d c i := by
                intro c i
                constructor
                · rintro (((⟨p, hp, d, hd, he⟩ | he) | he) | he)
                  · exact ⟨p, d, .additional p d hp hd, he⟩
                  · exact ⟨_, _, .features f hg, he⟩
                  · exact ⟨_, _, .predictions f hg, he⟩
                  · exact ⟨_, _, .labels f hg, he⟩
                · rintro ⟨p, d, hs, he⟩
                  have hf : ∀ f', Dict.get? e "_fpl".toList = some (.fpl f') → f' = f := by
                    intro f' h'
                    rw [show "_fpl".toList = fplKey from rfl, hg] at h'
                    cases h'; rfl
                  cases hs with
                  | additional _ _ hp hd => exact .inl (.inl (.inl ⟨p, hp, d, hd, he⟩))
                  | features f' h' => obtain rfl := hf f' h'; exact .inl (.inl (.inr he))
                  | predictions f' h' => obtain rfl := hf f' h'; exact .inl (.inr he)
                  | labels f' h' => obtain rfl := hf f' h'; exact .inr he
              have hall := hall.congr hiff
              refine ⟨fun p d c i hs he => ?_, fun k hk => hall.1 k ?_⟩
              · obtain ⟨i', v, ⟨p', d', h1, h2⟩, h3, h4⟩ := hall.2 c i ⟨p, d, hs, he⟩
                exact ⟨p', d', i', v, h1, h2, h3, h4⟩
              · rintro i ⟨p, d, h1, h2⟩; exact hk p d i h1 h2
        | _ => cases h

/-- the column names of features, predictions and labels start with these words. -/
private theorem column_prefix (p n c : Name) (hs : Standard p) (h : Column p n c) : ∃ t, c = p ++ t := by
  cases h with
  | whole _ => exact ⟨[], by simp⟩
  | part _ _ =>
    refine ⟨'_' :: '_' :: Keys.escape n, ?_⟩
    rcases hs with rfl | rfl | rfl <;> rfl
  | extra _ h => exact absurd hs h

private theorem column_inj (p n n' c : Name) (hs : Standard p) (h : Column p n c) (h' : Column p n' c) :
    n = n' ∨ ((n = p ∨ n = "__".toList ++ p) ∧ (n' = p ∨ n' = "__".toList ++ p)) := by
  have ne : ∀ m, Keys.compoundKey [p, m] ≠ p := by
    intro m hm
    have := congrArg List.length hm
    rcases hs with rfl | rfl | rfl <;> simp [Keys.compoundKey, Keys.joinSep, Keys.escape] at this
  have inv : ∀ m, Column p m c → ((m = p ∨ m = "__".toList ++ p) ∧ c = p) ∨ c = Keys.compoundKey [p, m] := by
    intro m hm
    clear h h'
    cases hm with
    | whole h => exact .inl ⟨h, rfl⟩
    | part _ _ => exact .inr rfl
    | extra _ h => exact absurd hs h
  rcases inv n h with ⟨h1, h2⟩ | h1 <;> rcases inv n' h' with ⟨h3, h4⟩ | h3
  · exact .inr ⟨h1, h3⟩
  · exact absurd (h3.symm.trans h2) (ne n')
  · exact absurd (h1.symm.trans h4) (ne n)
  · left
    have hc := h1.symm.trans h3
    have : Keys.escape n ++ [] = Keys.escape n' ++ [] := by
      simp only [Keys.compoundKey, List.map_cons, List.map_nil, Keys.joinSep] at hc
      have := List.append_cancel_left hc
      simpa using this
    exact (Keys.escape_append_inj n n' [] [] (.inl rfl) (.inl rfl) this).1

/-- **C144**: every feature, prediction and label which is not excluded has a column of its own showing its own value, as long as not both
"labels" and "__labels" (or the like) are among them.  Missing: that case (`C144_collision_fails`). -/
theorem C144_own_partial (excl : Option (List Name)) (dest : Name) (e r : Extr A) (f : Fpl A)
    (h : materialize none excl "_fpl".toList dest e = .ok r) (hf : Dict.get? e "_fpl".toList = some (.fpl f))
    (p : Name) (d : Dict Name (Item A))
    (hp : (p = "features".toList ∧ d = f.features) ∨ (p = "predictions".toList ∧ d = f.predictions) ∨ (p = "labels".toList ∧ d = f.labels))
    (hd : Dict.WF d) (n : Name) (i : Item A) (hn : (n, i) ∈ d) (hx : n ∉ excl.getD [])
    (hone : ¬ (p ∈ Dict.keys d ∧ p ∉ excl.getD [] ∧ "__".toList ++ p ∈ Dict.keys d ∧ "__".toList ++ p ∉ excl.getD [])) :
    ∃ c v, Column p n c ∧ Shown i v ∧ Dict.get? r c = some (.column c v) := by
  have hs : Standard p := by rcases hp with ⟨rfl, -⟩ | ⟨rfl, -⟩ | ⟨rfl, -⟩ <;> simp [Standard]
  have hsrc : Source e [] p d := by
    rcases hp with ⟨rfl, rfl⟩ | ⟨rfl, rfl⟩ | ⟨rfl, rfl⟩
    · exact .features f hf
    · exact .predictions f hf
    · exact .labels f hf
  obtain ⟨p', d', i', v, h1, ⟨n', h2, h3, h4⟩, h5, h6⟩ := (C144_columns none excl dest e r h (by simp)).1 p d (colName p n) i hsrc
    ⟨n, hn, hx, (colName_iff _ _ _).1 rfl⟩
  refine ⟨colName p n, v, (colName_iff _ _ _).1 rfl, ?_, h6⟩
  have hc := (colName_iff p n _).1 rfl
  have hs' : Standard p' := by cases h1 <;> simp_all [Standard]
  have hpp : p' = p := by
    obtain ⟨t, ht⟩ := column_prefix _ _ _ hs hc
    obtain ⟨t', ht'⟩ := column_prefix _ _ _ hs' h4
    rw [ht] at ht'
    rcases hs with rfl | rfl | rfl <;> rcases hs' with rfl | rfl | rfl <;> first | rfl | (simp at ht')
  subst hpp
  have hdd : d' = d := by
    have huniq : ∀ f', Dict.get? e "_fpl".toList = some (.fpl f') → f' = f := by
      intro f' h'; rw [hf] at h'; cases h'; rfl
    generalize hq : p' = q at h1
    cases h1 with
    | additional _ _ h _ => simp at h
    | features f' h' =>
      obtain rfl := huniq f' h'
      rcases hp with ⟨_, rfl⟩ | ⟨h, _⟩ | ⟨h, _⟩
      · rfl
      · exact absurd (hq.symm.trans h) (by decide)
      · exact absurd (hq.symm.trans h) (by decide)
    | predictions f' h' =>
      obtain rfl := huniq f' h'
      rcases hp with ⟨h, _⟩ | ⟨_, rfl⟩ | ⟨h, _⟩
      · exact absurd (hq.symm.trans h) (by decide)
      · rfl
      · exact absurd (hq.symm.trans h) (by decide)
    | labels f' h' =>
      obtain rfl := huniq f' h'
      rcases hp with ⟨h, _⟩ | ⟨h, _⟩ | ⟨_, rfl⟩
      · exact absurd (hq.symm.trans h) (by decide)
      · exact absurd (hq.symm.trans h) (by decide)
      · rfl
  subst hdd
  have hnn : n' = n := by
    rcases column_inj p' n' n _ hs h4 hc with h | ⟨g1, g2⟩
    · exact h
    · have key : ∀ m j, (m, j) ∈ d' → m ∈ Dict.keys d' := fun m j hm => List.mem_map_of_mem hm (f := Prod.fst)
      rcases g1 with rfl | rfl <;> rcases g2 with rfl | rfl
      · rfl
      · exact absurd ⟨key _ _ h2, h3, key _ _ hn, hx⟩ hone
      · exact absurd ⟨key _ _ hn, hx, key _ _ h2, h3⟩ hone
      · rfl
  subst hnn
  have : i' = i := by
    have e1 := Dict.get?_of_mem hd h2
    rw [Dict.get?_of_mem hd hn] at e1
    cases e1; rfl
  exact this ▸ h5

/-- **C144** (false of the code): of values called "labels" and "__labels" only the later one is shown. -/
theorem C144_collision_fails (a b : A) (dest : Name) :
    let e : Extr A := [("_fpl".toList, .fpl ⟨[], [], [("labels".toList, .node (.rows [a])), ("__labels".toList, .node (.rows [b]))]⟩)]
    ∃ r, materialize none none "_fpl".toList dest e = .ok r ∧ Dict.get? r "labels".toList = some (.column "labels".toList (.val b)) ∧
      ∀ k v, Dict.get? r k = some (.column k v) → v = .val b := by
  refine ⟨_, rfl, rfl, ?_⟩
  intro k v h
  have h' := Dict.mem_of_get? h
  change (k, Slot.column k v) ∈ [(_, Slot.fpl _), (_, Slot.column _ (.val b))] at h'
  simp only [List.mem_cons, Prod.mk.injEq, List.not_mem_nil, or_false, reduceCtorEq, and_false, false_or, Slot.column.injEq] at h'
  exact h'.2.2

/-- **C144** (refused): without additional extracts, columns are refused with TypeError exactly if there is no column for some value that
is not excluded; a missing FPL is a RuntimeError, and so is an unknown source. -/
theorem C144_refused (excl : Option (List Name)) (dest : Name) (e : Extr A) :
    (∀ f, Dict.get? e "_fpl".toList = some (.fpl f) →
      (materialize none excl "_fpl".toList dest e = .error .typeError ↔
        Unfit (excl.getD []) f.features ∨ Unfit (excl.getD []) f.predictions ∨ Unfit (excl.getD []) f.labels) ∧
      ((∃ r, materialize none excl "_fpl".toList dest e = .ok r) ↔
        ¬ (Unfit (excl.getD []) f.features ∨ Unfit (excl.getD []) f.predictions ∨ Unfit (excl.getD []) f.labels))) ∧
    (Dict.get? e "_fpl".toList = none → materialize none excl "_fpl".toList dest e = .error .runtimeError) ∧
    (Dict.get? e "input".toList = none → materialize none excl "input".toList dest e = .error .runtimeError) ∧
    ∀ source, source ≠ "_fpl".toList → source ≠ "input".toList → materialize none excl source dest e = .error .runtimeError := by
  refine ⟨fun f hf => ?_, fun h => ?_, fun h => ?_, fun s h1 h2 => ?_⟩
  · have hm : materialize none excl "_fpl".toList dest e = (match augment featuresKey excl f.features e with
            | .error e => .error e
            | .ok r1 => match augment predictionsKey excl f.predictions r1 with
              | .error e => .error e
              | .ok r2 => augment labelsKey excl f.labels r2) := by
      unfold materialize
      simp only [additional, Option.getD_none]
      rw [if_pos (show "_fpl".toList = fplKey from rfl), show fplKey = "_fpl".toList from rfl, hf]
      rfl
    rw [hm]
    by_cases h1 : Unfit (excl.getD []) f.features
    · simp [(augment_error featuresKey excl f.features e).1 h1, h1]
    · obtain ⟨r1, e1⟩ := (augment_error featuresKey excl f.features e).2 h1
      rw [e1]
      simp only
      by_cases h2 : Unfit (excl.getD []) f.predictions
      · simp [(augment_error predictionsKey excl f.predictions r1).1 h2, h2]
      · obtain ⟨r2, e2⟩ := (augment_error predictionsKey excl f.predictions r1).2 h2
        rw [e2]
        simp only
        by_cases h3 : Unfit (excl.getD []) f.labels
        · simp [(augment_error labelsKey excl f.labels r2).1 h3, h3]
        · obtain ⟨r3, e3⟩ := (augment_error labelsKey excl f.labels r2).2 h3
          simp [e3, h1, h2, h3]
  · unfold materialize
    simp only [additional, Option.getD_none]
    rw [if_pos (show "_fpl".toList = fplKey from rfl), show fplKey = "_fpl".toList from rfl, h]
  · unfold materialize
    simp only [additional, Option.getD_none]
    rw [if_neg (by decide), if_pos (show "input".toList = inputKey from rfl), show inputKey = "input".toList from rfl, h]
  · unfold materialize
    simp only [additional, Option.getD_none]
    rw [if_neg (show ¬ s = fplKey from h1), if_neg (show ¬ s = inputKey from h2)]

/-- **C144** (nothing given): an empty dictionary or another empty value in place of the FPL or the input counts as missing. -/
theorem C144_empty_refused (fn : Fpl A → Except Err (Dict Name (New A))) (excl : Option (List Name)) (dest source : Name) (e : Extr A)
    (hs : source = "_fpl".toList ∨ source = "input".toList) (h : Dict.get? e source = some (.data []) ∨ Dict.get? e source = some .falsy) :
    materialize none excl source dest e = .error .runtimeError ∧
    (source = "_fpl".toList → metaFeature fn e = .error .runtimeError) := by
  constructor
  · unfold materialize
    simp only [additional, Option.getD_none]
    rcases hs with rfl | rfl
    · rw [if_pos (show "_fpl".toList = fplKey from rfl), show fplKey = "_fpl".toList from rfl]
      rcases h with h | h <;> rw [h] <;> rfl
    · rw [if_neg (by decide), if_pos (show "input".toList = inputKey from rfl), show inputKey = "input".toList from rfl]
      rcases h with h | h <;> rw [h] <;> rfl
  · rintro rfl
    unfold metaFeature
    rw [show fplKey = "_fpl".toList from rfl]
    rcases h with h | h <;> rw [h] <;> rfl

example : Dict.get? ([("_fpl".toList, .data [])] : Extr ℕ) "_fpl".toList = some (.data []) := by rfl

/-! ### features of the serialized example -/

private theorem ck_inj (n n' : Name) (h : Keys.compoundKey [featuresKey, n] = Keys.compoundKey [featuresKey, n']) : n = n' := by
  have : Keys.escape n ++ [] = Keys.escape n' ++ [] := by
    simp only [Keys.compoundKey, List.map_cons, List.map_nil, Keys.joinSep] at h
    have := List.append_cancel_left h
    simpa using this
  exact (Keys.escape_append_inj n n' [] [] (.inl rfl) (.inl rfl) this).1

private theorem ck_ne (n : Name) : Keys.compoundKey [featuresKey, n] ≠ fplKey := by
  intro h
  have he : Keys.compoundKey [featuresKey, n] = "features".toList ++ '_' :: '_' :: Keys.escape n := rfl
  rw [he] at h
  have hh : 'f' = '_' := (List.cons.inj h).1
  exact absurd hh (by decide)

theorem parseLoop_spec (m : Bool) (es : Dict Name (Option A)) (hw : Dict.WF es) (hk : ∀ x ∈ es, x.2.isSome) (last : Option A)
    (fs : Dict Name (Item A)) (r : Extr A) :
    ∃ fs' r', parseLoop m es last fs r = .ok (fs', r') ∧
      (∀ n v, (n, some v) ∈ es → Dict.get? fs' n = some ((Dict.get? fs n).getD (.node (.rows [v])))) ∧
      (∀ n, n ∉ Dict.keys es → Dict.get? fs' n = Dict.get? fs n) ∧
      (∀ n v, (n, some v) ∈ es → m = true →
        Dict.get? r' (Keys.compoundKey [featuresKey, n]) = some (.column (Keys.compoundKey [featuresKey, n]) (.val v))) ∧
      ∀ k, (m = false ∨ ∀ n ∈ Dict.keys es, Keys.compoundKey [featuresKey, n] ≠ k) → Dict.get? r' k = Dict.get? r k := by
  induction es generalizing last fs r with
  | nil => exact ⟨fs, r, rfl, by simp, fun _ _ => rfl, by simp, fun _ _ => rfl⟩
  | cons x es ih =>
    obtain ⟨n, kind⟩ := x
    obtain ⟨v, rfl⟩ : ∃ v, kind = some v := by
      have := hk (n, kind) (by simp)
      exact Option.isSome_iff_exists.1 this
    have hw' : Dict.WF es := (List.nodup_cons.1 hw).2
    have hn : n ∉ Dict.keys es := (List.nodup_cons.1 hw).1
    have hne : ∀ k w, (k, some w) ∈ es → k ≠ n := by
      rintro k w h rfl
      exact hn (List.mem_map_of_mem (f := Prod.fst) h)
    have hk' : ∀ x ∈ es, x.2.isSome := fun x hx => hk x (by simp [hx])
    unfold parseLoop
    by_cases hc : m = true ∨ ¬ Dict.has fs n
    · rw [if_pos hc]
      simp only [Option.some_or]
      obtain ⟨fs', r', h1, h2, h3, h4, h5⟩ := ih hw' hk' (some v)
        (if Dict.has fs n then fs else Dict.set fs n (.node (.rows [v])))
        (if m then Dict.set r (Keys.compoundKey [featuresKey, n]) (.column (Keys.compoundKey [featuresKey, n]) (.val v)) else r)
      have hgo : ∀ k, k ≠ n → Dict.get? (if Dict.has fs n then fs else Dict.set fs n (.node (.rows [v]))) k = Dict.get? fs k := by
        intro k hkn
        by_cases hh : Dict.has fs n = true
        · rw [if_pos hh]
        · rw [if_neg hh, Dict.get?_set_ne _ _ (Ne.symm hkn)]
      refine ⟨fs', r', h1, ?_, ?_, ?_, ?_⟩
      · intro k w hkw
        rcases List.mem_cons.1 hkw with he | he
        · cases he
          rw [h3 n hn]
          by_cases hh : Dict.has fs n = true
          · rw [if_pos hh]
            obtain ⟨y, hy⟩ := Option.isSome_iff_exists.1 hh
            rw [hy]; rfl
          · rw [if_neg hh, Dict.get?_set_self]
            have : Dict.get? fs n = none := by
              cases hg : Dict.get? fs n with
              | none => rfl
              | some y => exact absurd (by simp [Dict.has, hg]) hh
            rw [this]; rfl
        · rw [h2 k w he, hgo k (hne k w he)]
      · intro k hk
        have hk : k ≠ n ∧ k ∉ Dict.keys es := by simpa [Dict.keys] using hk
        rw [h3 k hk.2, hgo k hk.1]
      · intro k w hkw hm
        rcases List.mem_cons.1 hkw with he | he
        · cases he
          rw [h5 _ (.inr fun k' hk' he => hn ((ck_inj k' n he) ▸ hk')), if_pos hm, Dict.get?_set_self]
        · exact h4 k w he hm
      · intro k hk
        rw [h5 k (hk.imp id fun h n' hn' => h n' (by simp [Dict.keys] at hn' ⊢; exact .inr hn'))]
        rcases hk with hm | hk
        · rw [hm]; rfl
        · by_cases hm : m = true
          · rw [if_pos hm, Dict.get?_set_ne _ _ (hk n (by simp [Dict.keys]))]
          · rw [if_neg hm]
    · rw [if_neg hc]
      push Not at hc
      obtain ⟨hm, hh⟩ := hc
      obtain ⟨fs', r', h1, h2, h3, h4, h5⟩ := ih hw' hk' last fs r
      refine ⟨fs', r', h1, ?_, ?_, fun _ _ _ h => absurd h hm, fun k hk => h5 k (.inl (by simpa using hm))⟩
      · intro k w hkw
        rcases List.mem_cons.1 hkw with he | he
        · cases he
          rw [h3 n hn]
          obtain ⟨y, hy⟩ := Option.isSome_iff_exists.1 hh
          rw [hy]; rfl
        · exact h2 k w he
      · intro k hk
        have hk : k ≠ n ∧ k ∉ Dict.keys es := by simpa [Dict.keys] using hk
        exact h3 k hk.2

/-- **C144** (serialized example): with every feature of the example having values, the columns "features__name" hold the values (if asked
for), and the features of the FPL are completed by those of the example without changing any; nothing else changes.  Missing: features
without values (`C144_stale_fails`), and extracts without FPL (`C144_lost_fails`). -/
theorem C144_example_partial (excl : Option (List Name)) (dest : Name) (e : Extr A) (es : Dict Name (Option A)) (hw : Dict.WF es)
    (hi : Dict.get? e "input".toList = some (.example (some es))) (hk : ∀ x ∈ es, x.2.isSome)
    (hf : ∀ s, Dict.get? e "_fpl".toList = some s → ∃ f, s = .fpl f) :
    ∃ r, materialize none excl "input".toList dest e = .ok r ∧
      (dest = "materialize".toList → ∀ n v, (n, some v) ∈ es →
        Dict.get? r (Keys.compoundKey ["features".toList, n]) = some (.column (Keys.compoundKey ["features".toList, n]) (.val v))) ∧
      (∀ k, k ≠ "_fpl".toList → (dest ≠ "materialize".toList ∨ ∀ n ∈ Dict.keys es, Keys.compoundKey ["features".toList, n] ≠ k) →
        Dict.get? r k = Dict.get? e k) ∧
      (Dict.get? e "_fpl".toList = none → Dict.get? r "_fpl".toList = none) ∧
      ∀ f, Dict.get? e "_fpl".toList = some (.fpl f) → ∃ f', Dict.get? r "_fpl".toList = some (.fpl f') ∧
        f'.predictions = f.predictions ∧ f'.labels = f.labels ∧
        (∀ n x, Dict.get? f.features n = some x → Dict.get? f'.features n = some x) ∧
        (∀ n v, (n, some v) ∈ es → Dict.get? f.features n = none → Dict.get? f'.features n = some (.node (.rows [v]))) ∧
        ∀ n, Dict.get? f.features n = none → n ∉ Dict.keys es → Dict.get? f'.features n = none := by
  have hm : materialize none excl "input".toList dest e =
      parseExample (decide (dest = materializeColumns)) (.example (some es)) e := by
    unfold materialize
    simp only [additional, Option.getD_none]
    rw [if_neg (by decide), if_pos (show "input".toList = inputKey from rfl), show inputKey = "input".toList from rfl, hi]
    rfl
  have hdest : dest ≠ "materialize".toList → decide (dest = materializeColumns) = false := fun h => decide_eq_false h
  rw [hm]
  unfold parseExample
  cases hg : Dict.get? e fplKey with
  | none =>
    obtain ⟨fs', r', h1, h2, h3, h4, h5⟩ := parseLoop_spec (decide (dest = materializeColumns)) es hw hk none [] e
    simp only [parsed, h1]
    refine ⟨r', rfl, fun hd n v hnv => h4 n v hnv (decide_eq_true hd), fun k _ hk' => h5 k (hk'.imp hdest id), fun _ => ?_, ?_⟩
    · exact (h5 fplKey (.inr fun n _ => ck_ne n)).trans hg
    · intro f hf'
      rw [show "_fpl".toList = fplKey from rfl, hg] at hf'; cases hf'
  | some s =>
    obtain ⟨f, rfl⟩ := hf s hg
    obtain ⟨fs', r', h1, h2, h3, h4, h5⟩ := parseLoop_spec (decide (dest = materializeColumns)) es hw hk none f.features e
    simp only [parsed, h1]
    refine ⟨_, rfl, fun hd n v hnv => ?_, fun k hkf hk' => ?_, fun h => ?_, ?_⟩
    · exact (Dict.get?_set_ne _ _ (Ne.symm (ck_ne n))).trans (h4 n v hnv (decide_eq_true hd))
    · exact (Dict.get?_set_ne _ _ (Ne.symm hkf)).trans (h5 k (hk'.imp hdest id))
    · rw [show "_fpl".toList = fplKey from rfl, hg] at h; cases h
    · intro f' hf'
      rw [show "_fpl".toList = fplKey from rfl, hg] at hf'
      cases hf'
      refine ⟨_, Dict.get?_set_self .., rfl, rfl, ?_, ?_, ?_⟩
      · intro n x hx
        by_cases hn : n ∈ Dict.keys es
        · obtain ⟨⟨n', w⟩, hn', rfl⟩ := List.mem_map.1 hn
          obtain ⟨v, rfl⟩ := Option.isSome_iff_exists.1 (hk _ hn')
          rw [h2 n' v hn', hx]; rfl
        · rw [h3 n hn, hx]
      · intro n v hnv hx
        rw [h2 n v hnv, hx]; rfl
      · intro n hx hn
        rw [h3 n hn, hx]

/-- **C144** (false of the code): a feature of the example without values is given those of the feature before it. -/
theorem C144_stale_fails (m n : Name) (v : A) :
    ∃ r, materialize none none "input".toList "materialize".toList
        [("input".toList, Slot.example (some [(m, some v), (n, none)]))] = .ok r ∧
      Dict.get? r (Keys.compoundKey ["features".toList, n]) = some (.column (Keys.compoundKey ["features".toList, n]) (.val v)) := by
  refine ⟨_, rfl, ?_⟩
  exact Dict.get?_set_self ..

/-- **C144** (false of the code): without FPL, features of the example asked for among the features of the FPL are lost; the extracts are
returned as they came, without any error. -/
theorem C144_lost_fails (excl : Option (List Name)) (dest : Name) (e : Extr A) (es : Dict Name (Option A)) (hw : Dict.WF es)
    (hi : Dict.get? e "input".toList = some (.example (some es))) (hk : ∀ x ∈ es, x.2.isSome)
    (hf : Dict.get? e "_fpl".toList = none) (hd : dest ≠ "materialize".toList) :
    ∃ r, materialize none excl "input".toList dest e = .ok r ∧ ∀ k, Dict.get? r k = Dict.get? e k := by
  obtain ⟨r, h1, -, h3, h4, -⟩ := C144_example_partial excl dest e es hw hi hk (by rw [hf]; intro s hs; cases hs)
  refine ⟨r, h1, fun k => ?_⟩
  by_cases hk : k = "_fpl".toList
  · rw [hk, h4 hf, hf]
  · exact h3 k hk (.inl hd)

/-! ### meta features -/

/-- How a new feature is stored: arrays and sparse tensors as they are, other values as an array of one element. -/
inductive Stores : New A → Item A → Prop
  | value (v : Val A) : Stores (.value v) (.node v)
  | single (a : A) : Stores (.single a) (.node (.rows [a]))

theorem updateFeatures_spec (fs : Dict Name (Item A)) (new : Dict Name (New A)) (hw : Dict.WF new) :
    ((∃ k ∈ Dict.keys new, k ∈ Dict.keys fs) → updateFeatures fs new = .error .valueError) ∧
    ((∀ k ∈ Dict.keys new, k ∉ Dict.keys fs) → ∃ fs', updateFeatures fs new = .ok fs' ∧
      (∀ k v, (k, v) ∈ new → Dict.get? fs' k = some v.stored) ∧ ∀ k, k ∉ Dict.keys new → Dict.get? fs' k = Dict.get? fs k) := by
  induction new generalizing fs with
  | nil => exact ⟨by rintro ⟨k, hk, -⟩; (cases hk), fun _ => ⟨fs, rfl, by simp, fun _ _ => rfl⟩⟩
  | cons x new ih =>
    obtain ⟨k, v⟩ := x
    have hw' : Dict.WF new := (List.nodup_cons.1 hw).2
    have hn : k ∉ Dict.keys new := (List.nodup_cons.1 hw).1
    unfold updateFeatures
    by_cases hh : Dict.has fs k = true
    · rw [if_pos hh]
      refine ⟨fun _ => rfl, fun h => absurd ((Dict.has_iff fs k).1 hh) (h k (by simp [Dict.keys]))⟩
    · rw [if_neg hh]
      have hk : k ∉ Dict.keys fs := fun h => hh ((Dict.has_iff fs k).2 h)
      obtain ⟨ih1, ih2⟩ := ih (Dict.set fs k v.stored) hw'
      have hkeys : ∀ k', k' ≠ k → (k' ∈ Dict.keys (Dict.set fs k v.stored) ↔ k' ∈ Dict.keys fs) := by
        intro k' hne
        rw [Dict.mem_keys_iff, Dict.mem_keys_iff, Dict.get?_set_ne _ _ (Ne.symm hne)]
      refine ⟨?_, fun h => ?_⟩
      · rintro ⟨k', h1, h2⟩
        have h1' : k' = k ∨ k' ∈ Dict.keys new := by simpa [Dict.keys] using h1
        rcases h1' with rfl | h1'
        · exact absurd h2 hk
        · exact ih1 ⟨k', h1', (hkeys k' fun h => hn (h ▸ h1')).2 h2⟩
      · obtain ⟨fs', h1, h2, h3⟩ := ih2 fun k' hk' hk'' => h k' (by simp [Dict.keys] at hk' ⊢; exact .inr hk')
          ((hkeys k' fun h => hn (h ▸ hk')).1 hk'')
        refine ⟨fs', h1, fun k' v' hm => ?_, fun k' hk' => ?_⟩
        · rcases List.mem_cons.1 hm with he | he
          · cases he
            rw [h3 k hn, Dict.get?_set_self]
          · exact h2 k' v' he
        · have hk'' : k' ≠ k ∧ k' ∉ Dict.keys new := by simpa [Dict.keys] using hk'
          rw [h3 k' hk''.2, Dict.get?_set_ne _ _ (Ne.symm hk''.1)]

/-- **C144** (meta features): new features are added beside the existing ones, which do not change, and nothing else changes; a name that
exists already is refused with ValueError; without FPL there is RuntimeError. -/
theorem C144_meta (fn : Fpl A → Except Err (Dict Name (New A))) (e : Extr A) :
    (Dict.get? e "_fpl".toList = none → metaFeature fn e = .error .runtimeError) ∧
    ∀ f new, Dict.get? e "_fpl".toList = some (.fpl f) → fn f = .ok new → Dict.WF new →
      ((∃ k ∈ Dict.keys new, k ∈ Dict.keys f.features) → metaFeature fn e = .error .valueError) ∧
      ((∀ k ∈ Dict.keys new, k ∉ Dict.keys f.features) → ∃ r f', metaFeature fn e = .ok r ∧
        Dict.get? r "_fpl".toList = some (.fpl f') ∧ f'.predictions = f.predictions ∧ f'.labels = f.labels ∧
        (∀ k v, (k, v) ∈ new → ∃ i, Stores v i ∧ Dict.get? f'.features k = some i) ∧
        (∀ k, k ∉ Dict.keys new → Dict.get? f'.features k = Dict.get? f.features k) ∧
        ∀ k, k ≠ "_fpl".toList → Dict.get? r k = Dict.get? e k) := by
  constructor
  · intro h
    unfold metaFeature
    rw [show fplKey = "_fpl".toList from rfl, h]
  · intro f new hf hnew hw
    have hm : metaFeature fn e = match updateFeatures f.features new with
        | .error x => .error x
        | .ok fs => .ok (Dict.set e fplKey (.fpl { f with features := fs })) := by
      unfold metaFeature
      rw [show fplKey = "_fpl".toList from rfl, hf]
      simp only [Slot.truthy, Bool.true_eq_false, if_false, hnew]
      rfl
    obtain ⟨h1, h2⟩ := updateFeatures_spec f.features new hw
    constructor
    · intro h; rw [hm, h1 h]
    · intro h
      obtain ⟨fs', h3, h4, h5⟩ := h2 h
      rw [h3] at hm
      refine ⟨_, _, hm, Dict.get?_set_self .., rfl, rfl, fun k v hkv => ⟨_, ?_, h4 k v hkv⟩, h5, fun k hk => Dict.get?_set_ne _ _ (Ne.symm hk)⟩
      cases v with
      | value v => exact .value v
      | single a => exact .single a

/-- the hypotheses of `C144_columns` and `C144_own_partial`, with an excluded feature, additional extracts and a default label name. -/
example : ∃ r : Extr ℕ, materialize (some ["more".toList]) (some ["s".toList]) "_fpl".toList "materialize".toList
      [("_fpl".toList, .fpl ⟨[("s".toList, .node (.sparse 1)), ("a__b".toList, .node (.sparse 2))], [("p".toList, .plain (.rows []))],
        [("__labels".toList, .node (.rows [3, 4]))]⟩), ("more".toList, .data [("x".toList, .plain (.rows [5]))])] = .ok r ∧
    Dict.get? r "features__a____b".toList = some (.column "features__a____b".toList (.val 2)) ∧
    Dict.get? r "features__s".toList = none ∧
    Dict.get? r "predictions__p".toList = some (.column "predictions__p".toList .empty) ∧
    Dict.get? r "labels".toList = some (.column "labels".toList (.val 3)) ∧
    Dict.get? r "more__x".toList = some (.column "more__x".toList (.val 5)) := ⟨_, rfl, by decide +kernel⟩

/-- the hypotheses of `C144_example_partial`. -/
example : ∃ r : Extr ℕ, materialize none none "input".toList "materialize".toList
      [("input".toList, .example (some [("a".toList, some 1), ("b".toList, some 2)])), ("_fpl".toList, .fpl ⟨[("a".toList, .node (.rows [7]))], [], []⟩)] = .ok r ∧
    Dict.get? r "features__a".toList = some (.column "features__a".toList (.val 1)) ∧
    Dict.get? r "_fpl".toList = some (.fpl ⟨[("a".toList, .node (.rows [7])), ("b".toList, .node (.rows [2]))], [], []⟩) :=
  ⟨_, rfl, by decide +kernel⟩

/-- the hypotheses of `C144_meta`; a value that is no array. -/
example : metaFeature (fun _ => .ok [("n".toList, New.single 3)]) ([("_fpl".toList, .fpl ⟨[("a".toList, .node (.rows [7]))], [], []⟩)] : Extr ℕ) =
      .ok [("_fpl".toList, .fpl ⟨[("a".toList, .node (.rows [7])), ("n".toList, .node (.rows [3]))], [], []⟩)] ∧
    metaFeature (fun _ => .ok [("a".toList, New.single 3)]) ([("_fpl".toList, .fpl ⟨[("a".toList, .node (.rows [7]))], [], []⟩)] : Extr ℕ) =
      .error .valueError := ⟨rfl, rfl⟩

end LegacyFeatures
end TFMA
