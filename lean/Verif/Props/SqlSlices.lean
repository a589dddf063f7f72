import Verif.Model.SqlSlices
import Verif.Props.Slicer
import Verif.Props.VarLen
import Verif.Py.DictLemmas

/-!
# C123: slice keys from SQL statements
-/

namespace TFMA.SqlSlices
open TFMA Slicer VarLen

variable {ε : Type}

/-! ## Specification -/

/-- The tables of transformed features that count, the first model first. -/
def tables (models : List String) (b : Batch ε) : List Columns :=
  match b.transformed with
  | none => []
  | some t => if models.length = 1 then t.map Prod.snd else models.filterMap t.get?

/-- The value of a feature a statement sees for an example: the transformed feature of the first
model that has it, else the feature itself. -/
def Seen (models : List String) (b : Batch ε) (i : ℕ) (name : String) : Option (List RawVal) :=
  (((tables models b).findSome? fun d => d.get? name).or (b.features.get? name)).bind fun col => col[i]?

/-- Where slicing by features looks for the features of an example. -/
def view (models : List String) (b : Batch ε) (i : ℕ) : Accessor :=
  ⟨(tables models b).map fun d => row d i, row b.features i⟩

/-- The example is in the slice: a slicing spec describes it, or there is no spec and the slice is
the overall one, or a statement returns it for the example. A spec that has only a statement
describes the overall slice. -/
def InSlice (c : NumCodec) (specs : List SlicingSpec) (models : List String) (b : Batch ε) (i : ℕ)
    (k : SliceKey) : Prop :=
  (∃ s ∈ specs, ∃ sp, mkSpec c s.columns s.features = .ok sp ∧
    ∃ k', Describes c sp.columns sp.features (view models b i) k' ∧ SameKey k k') ∨
  (specs = [] ∧ k = []) ∨
  (∃ s ∈ specs, ∃ q, s.sql = some q ∧ ∃ k' ∈ q.run (Seen models b i), SameKey k k')

/-- A batch as the extractors make it: columns have distinct names and a value for each example, and
with one model there is one table. -/
structure Shaped (models : List String) (b : Batch ε) : Prop where
  one : ∀ t, b.transformed = some t → models.length = 1 → t.length = 1
  names : ∀ d ∈ tables models b, Dict.WF d
  complete : ∀ d ∈ tables models b, ∀ name col, d.get? name = some col → col.length = b.examples.length

/-! ## Lemmas -/

private theorem get?_update {V : Type} (d e : Dict String V) (he : Dict.WF e) (k : String) :
    Dict.get? (Dict.update d e) k = (Dict.get? e k).or (Dict.get? d k) := by
  induction e generalizing d with
  | nil => simp [Dict.update, Dict.get?]
  | cons p e ih =>
    obtain ⟨a, v⟩ := p
    have hw : Dict.WF e := (List.nodup_cons.mp he).2
    have hn : a ∉ Dict.keys e := (List.nodup_cons.mp he).1
    have : Dict.update d ((a, v) :: e) = Dict.update (Dict.set d a v) e := rfl
    rw [this, ih _ hw, Dict.get?_set]
    by_cases hk : a = k
    · subst hk
      have : Dict.get? e a = none := by
        cases h : Dict.get? e a with
        | none => rfl
        | some x => exact absurd ((Dict.mem_keys_iff e a).mpr ⟨x, h⟩) hn
      simp [this, Dict.get?]
    · simp [hk, Dict.get?]

private theorem row_get? (d : Columns) (i : ℕ) (name : String) :
    Dict.get? (row d i) name = (Dict.get? d name).map fun col => col[i]? := by
  induction d with
  | nil => rfl
  | cons p d ih =>
    obtain ⟨a, v⟩ := p
    have ih : Dict.get? (List.map (fun e => (e.1, e.2[i]?)) d) name = (Dict.get? d name).map fun col => col[i]? := ih
    by_cases h : a = name
    · simp [row, Dict.get?, h]
    · simp [row, Dict.get?, h, ih]

private theorem foldr_get? (t : Dict String Columns) (f : Columns) (name : String) :
    ∀ models : List String, (∀ d ∈ models.filterMap t.get?, Dict.WF d) →
      Dict.get? (models.foldr (fun n f =>
        match t.get? n with
        | some d => Dict.update f d
        | none => f) f) name =
      ((models.filterMap t.get?).findSome? fun d => Dict.get? d name).or (Dict.get? f name)
  | [], _ => by simp
  | n :: models, h => by
    have ih := foldr_get? t f name models fun d hd => h d (by
      rw [List.filterMap_cons]; split
      · exact hd
      · exact List.mem_cons_of_mem _ hd)
    rw [List.foldr_cons, List.filterMap_cons]
    cases hn : t.get? n with
    | none => simpa only [hn] using ih
    | some d =>
      simp only [hn]
      rw [get?_update _ _ (h d (by simp [List.filterMap_cons, hn])), ih, List.findSome?_cons]
      cases Dict.get? d name <;> simp

private theorem merged_get? {models : List String} {b : Batch ε} (hb : Shaped models b) (name : String) :
    Dict.get? (merged models b) name =
      ((tables models b).findSome? fun d => Dict.get? d name).or (Dict.get? b.features name) := by
  have hn := hb.names
  unfold merged
  unfold tables at hn ⊢
  cases ht : b.transformed with
  | none => simp
  | some t =>
    rw [ht] at hn
    simp only at hn ⊢
    by_cases h1 : models.length = 1
    · rw [if_pos h1] at hn
      rw [if_pos h1, if_pos h1]
      have hl := hb.one t ht h1
      match t, hl, hn with
      | [e], _, hn =>
        simp only [List.map_cons, List.map_nil, List.foldl_cons, List.foldl_nil]
        rw [get?_update _ _ (hn e.2 (by simp)), List.findSome?_cons]
        cases Dict.get? e.2 name <;> simp
    · rw [if_neg h1] at hn
      rw [if_neg h1, if_neg h1, List.foldl_reverse]
      exact foldr_get? t b.features name models hn

private theorem accessor_eq (models : List String) (b : Batch ε) (f : Columns) (i : ℕ) :
    accessor models b.transformed f i = ⟨(tables models b).map fun d => row d i, row f i⟩ := by
  unfold accessor tables
  cases b.transformed with
  | none => simp
  | some t =>
    by_cases h1 : models.length = 1
    · simp [h1]
    · simp only [h1, if_false, List.map_filterMap]

private theorem collect_some (k : String) : ∀ (ds : List Features) (v : List RawVal), collect k ds (some v) ≠ none
  | [], v => by simp [collect]
  | d :: ds, v => by
    unfold collect
    split
    · exact collect_some k ds _
    · exact collect_some k ds _

private theorem collect_none (k : String) : ∀ ds : List Features, collect k ds none = none →
    ∀ d ∈ ds, ∀ v, Dict.get? d k ≠ some (some v)
  | [], _ => by simp
  | d :: ds, h => by
    unfold collect at h
    split at h
    · exact absurd h (collect_some k ds _)
    · rename_i hd
      intro d' hd' v hv
      rcases List.mem_cons.mp hd' with rfl | hd'
      · exact hd v hv
      · exact collect_none k ds h d' hd' v hv

private theorem accessor_same {ds : List Features} {f g : Features}
    (h : ∀ k, (∀ d ∈ ds, ∀ v, Dict.get? d k ≠ some (some v)) → Dict.get? f k = Dict.get? g k) (k : String) :
    Accessor.hasKey ⟨ds, f⟩ k = Accessor.hasKey ⟨ds, g⟩ k ∧ Accessor.get ⟨ds, f⟩ k = Accessor.get ⟨ds, g⟩ k := by
  by_cases hd : ∀ d ∈ ds, ∀ v, Dict.get? d k ≠ some (some v)
  · simp [Accessor.hasKey, Accessor.get, h k hd]
  · constructor
    · simp only [not_forall, ne_eq, not_not] at hd
      obtain ⟨d, hd, v, hv⟩ := hd
      have (f : Features) : Accessor.hasKey ⟨ds, f⟩ k = true := by
        unfold Accessor.hasKey
        rw [Bool.or_eq_true]
        exact .inl (List.any_eq_true.mpr ⟨d, hd, by simp [hv]⟩)
      rw [this, this]
    · have : collect k ds none ≠ none := fun h => hd (collect_none k ds h)
      obtain ⟨v, hv⟩ := Option.ne_none_iff_exists'.mp this
      simp [Accessor.get, hv]

private theorem checkFeatures_congr (c : NumCodec) {a a' : Accessor}
    (h : ∀ k, a.hasKey k = a'.hasKey k ∧ a.get k = a'.get k) : ∀ l, checkFeatures c a l = checkFeatures c a' l
  | [] => rfl
  | (k, v) :: l => by
    simp only [checkFeatures, (h k).1, (h k).2, checkFeatures_congr c h l]

private theorem columnMatches_congr {a a' : Accessor}
    (h : ∀ k, a.hasKey k = a'.hasKey k ∧ a.get k = a'.get k) : ∀ l, columnMatches a l = columnMatches a' l
  | [] => rfl
  | k :: l => by
    simp only [columnMatches, (h k).1, (h k).2, columnMatches_congr h l]

private theorem getSlices_congr (c : NumCodec) {a a' : Accessor}
    (h : ∀ k, a.hasKey k = a'.hasKey k ∧ a.get k = a'.get k) : ∀ l, getSlices c a l = getSlices c a' l
  | [] => rfl
  | s :: l => by
    simp only [getSlices, Spec.generateSlices, checkFeatures_congr c h, columnMatches_congr h, getSlices_congr c h l]

/-- Slicing by features is not changed by the transformed features put over the features. -/
private theorem fanoutOne_merged {models : List String} {b : Batch ε} (hb : Shaped models b) {i : ℕ}
    (hi : i < b.examples.length) (c : NumCodec) (ss : List Spec) (ks : List SliceKey) (ex : ε) :
    fanoutOne c ss ks (accessor models b.transformed (merged models b) i) ex = fanoutOne c ss ks (view models b i) ex := by
  rw [accessor_eq]
  unfold fanoutOne view
  rw [getSlices_congr c (accessor_same ?_) ss]
  intro k hk
  rw [row_get?, row_get?, merged_get? hb]
  have : (tables models b).findSome? (fun d => Dict.get? d k) = none := by
    rw [List.findSome?_eq_none_iff]
    intro d hd
    cases hg : Dict.get? d k with
    | none => rfl
    | some col =>
      refine absurd ?_ (hk (row d i) (List.mem_map_of_mem hd) (col[i]'(by rw [hb.complete d hd k col hg]; exact hi)))
      rw [row_get?, hg]
      simp
  rw [this, Option.none_or]

private theorem fanoutRows_spec {c : NumCodec} {ss : List Spec} {models : List String}
    {tr : Option (Dict String Columns)} {f : Columns} {keys : List (List SliceKey)} :
    ∀ (l : List ε) (i : ℕ) (out : List (SliceKey × ε)), fanoutRows c ss models tr f keys i l = .ok out →
      ∃ outs : List (List (SliceKey × ε)), out = outs.flatten ∧ outs.length = l.length ∧
        ∀ j ex o, l[j]? = some ex → outs[j]? = some o →
          fanoutOne c ss (keys.getD (i + j) []) (accessor models tr f (i + j)) ex = .ok o
  | [], _, out, h => by
    simp only [fanoutRows, Except.ok.injEq] at h
    exact ⟨[], by simp [← h], rfl, by simp⟩
  | x :: l, i, out, h => by
    unfold fanoutRows at h
    split at h
    · cases h
    · rename_i ps hps
      split at h
      · cases h
      · rename_i qs hqs
        cases h
        obtain ⟨outs, rfl, hlen, hall⟩ := fanoutRows_spec l (i + 1) qs hqs
        refine ⟨ps :: outs, rfl, by simp [hlen], ?_⟩
        intro j ex o hj ho
        cases j with
        | zero =>
          simp only [List.getElem?_cons_zero, Option.some.injEq] at hj ho
          subst hj ho
          simpa using hps
        | succ j =>
          have := hall j ex o (by simpa using hj) (by simpa using ho)
          rwa [show i + 1 + j = i + (j + 1) by omega] at this

private theorem mapE_mem {α β : Type} {f : α → Except Err β} : ∀ {l : List α} {r : List β}, mapE f l = .ok r →
    (∀ y ∈ r, ∃ x ∈ l, f x = .ok y) ∧ (∀ x ∈ l, ∃ y ∈ r, f x = .ok y) ∧ r.length = l.length
  | [], r, h => by
    simp only [mapE, Except.ok.injEq] at h
    subst h; simp
  | x :: l, r, h => by
    unfold mapE at h
    split at h
    · cases h
    · rename_i y hy
      split at h
      · cases h
      · rename_i ys hys
        cases h
        obtain ⟨h1, h2, h3⟩ := mapE_mem hys
        refine ⟨?_, ?_, by simp [h3]⟩
        · intro z hz
          rcases List.mem_cons.mp hz with rfl | hz
          · exact ⟨x, by simp, hy⟩
          · obtain ⟨w, hw, e⟩ := h1 z hz
            exact ⟨w, by simp [hw], e⟩
        · intro z hz
          rcases List.mem_cons.mp hz with rfl | hz
          · exact ⟨y, by simp, hy⟩
          · obtain ⟨w, hw, e⟩ := h2 z hz
            exact ⟨w, by simp [hw], e⟩

private theorem sliceSpecs_ok {c : NumCodec} {specs : List SlicingSpec} {ss : List Spec}
    (h : sliceSpecs c specs = .ok ss) :
    Constructed c ss ∧ (specs = [] → ss = [⟨[], []⟩]) ∧
    (specs ≠ [] → (∀ y ∈ ss, ∃ s ∈ specs, mkSpec c s.columns s.features = .ok y) ∧
      ∀ s ∈ specs, ∃ y ∈ ss, mkSpec c s.columns s.features = .ok y) := by
  unfold sliceSpecs at h
  cases hm : mapE (fun s : SlicingSpec => mkSpec c s.columns s.features) specs with
  | error e => rw [hm] at h; cases h
  | ok l =>
    rw [hm] at h
    obtain ⟨h1, h2, h3⟩ := mapE_mem hm
    cases specs with
    | nil =>
      have : l = [] := by simpa using h3
      subst this
      simp only [List.isEmpty_nil, if_true, Except.ok.injEq] at h
      subst h
      refine ⟨?_, fun _ => rfl, fun h => absurd rfl h⟩
      intro s hs
      rw [List.mem_singleton] at hs
      subst hs
      exact ⟨[], [], rfl⟩
    | cons s specs =>
      have hl : l.isEmpty = false := by
        cases l with
        | nil => simp at h3
        | cons => rfl
      simp only [hl, Bool.false_eq_true, if_false, Except.ok.injEq] at h
      subst h
      refine ⟨?_, (fun h => by cases h), fun _ => ⟨h1, h2⟩⟩
      intro y hy
      obtain ⟨s, -, e⟩ := h1 y hy
      exact ⟨_, _, e⟩

/-- The slice keys of a row, whether or not any row has some. -/
private theorem keys_read {rows : List (List SliceKey)} {t : VarLenTensorValue SliceKey} {keys : List (List SliceKey)}
    (h1 : fromDenseRows (rows.map fun r => (⟨1, r⟩ : Row SliceKey)) = .ok t) (h2 : denseRows t = .ok keys) (i : ℕ) :
    keys.getD i [] = rows.getD i [] := by
  by_cases he : ∀ r ∈ rows, r = []
  · obtain ⟨t', e1, -, e2⟩ := C14_all_empty_lost (rows.map fun r => (⟨1, r⟩ : Row SliceKey)) (by
      intro r hr
      obtain ⟨x, hx, rfl⟩ := List.mem_map.mp hr
      exact he x hx)
    rw [h1] at e1
    cases e1
    rw [h2] at e2
    cases e2
    cases hi : rows[i]? with
    | none => simp [List.getD, hi]
    | some r => simp [List.getD, hi, he r (List.mem_of_getElem? hi)]
  · simp only [not_forall] at he
    obtain ⟨r, hr, hne⟩ := he
    obtain ⟨t', e1, e2⟩ := C14_round_trip_partial (rows.map fun r => (⟨1, r⟩ : Row SliceKey)) (by
      intro x hx
      obtain ⟨y, -, rfl⟩ := List.mem_map.mp hx
      exact .inr (le_refl 1)) ⟨⟨1, r⟩, List.mem_map_of_mem hr, hne⟩
    rw [h1] at e1
    cases e1
    rw [h2] at e2
    cases e2
    rw [List.map_map, show (Row.data ∘ fun r : List SliceKey => (⟨1, r⟩ : Row SliceKey)) = id from rfl, List.map_id]

/-! ## Theorems -/

open Classical in
/-- Every example of a batch is put, exactly once, into each slice it is in, and into no other: the
slices the specs describe and those the statements return for its own features, where statements see
the transformed features of the first model that has them. What the other examples of the batch
are, or whether any of them is in a slice of a statement, makes no difference. -/
theorem C123_slices (c : NumCodec) (specs : List SlicingSpec) (models : List String) (b : Batch ε)
    (hb : Shaped models b) (out : List (SliceKey × ε)) (h : sliceBatch c specs models b = .ok out) :
    ∃ outs : List (List (SliceKey × ε)), out = outs.flatten ∧ outs.length = b.examples.length ∧
      ∀ i ex o, b.examples[i]? = some ex → outs[i]? = some o →
        (∀ p ∈ o, p.2 = ex) ∧
        ∀ k, o.countP (fun p => decide (SameKey k p.1)) = if InSlice c specs models b i k then 1 else 0 := by
  unfold sliceBatch at h
  cases hs : sliceSpecs c specs with
  | error e => rw [hs] at h; cases h
  | ok ss =>
    rw [hs] at h
    simp only at h
    obtain ⟨hcon, hempty, hfull⟩ := sliceSpecs_ok hs
    have key : ∃ outs : List (List (SliceKey × ε)), out = outs.flatten ∧ outs.length = b.examples.length ∧
        ∀ i ex o, b.examples[i]? = some ex → outs[i]? = some o →
          fanoutOne c ss ((queries specs).flatMap fun q => q.run (Seen models b i)) (view models b i) ex = .ok o := by
      by_cases hq : (queries specs).isEmpty = true
      · rw [if_pos hq] at h
        obtain ⟨outs, e, hlen, hall⟩ := fanoutRows_spec _ _ _ h
        refine ⟨outs, e, hlen, fun i ex o h1 h2 => ?_⟩
        have := hall i ex o h1 h2
        rw [List.isEmpty_iff] at hq
        rw [accessor_eq] at this
        simpa [hq, view] using this
      · rw [if_neg hq] at h
        unfold process at h
        by_cases hc : (queries specs).any (fun q => !q.compiles (merged models b).keys) = true
        · simp only [hc, if_true] at h; cases h
        · simp only [hc, if_false] at h
          generalize hr : ((List.range b.examples.length).map fun i =>
            (queries specs).flatMap fun q => q.run fun name => (Dict.get? (row (merged models b) i) name).join) = rows at h
          cases hf : fromDenseRows (rows.map fun r => (⟨1, r⟩ : Row SliceKey)) with
          | error e => simp [hf] at h
          | ok t =>
            cases hd : denseRows t with
            | error e => simp [hf, hd] at h
            | ok keys =>
              simp [hf, hd] at h
              obtain ⟨outs, e, hlen, hall⟩ := fanoutRows_spec _ _ _ h
              refine ⟨outs, e, hlen, fun i ex o h1 h2 => ?_⟩
              have hi : i < b.examples.length := (List.getElem?_eq_some_iff.mp h1).1
              have := hall i ex o h1 h2
              rw [Nat.zero_add, fanoutOne_merged hb hi, keys_read hf hd] at this
              have hrow : rows.getD i [] = (queries specs).flatMap fun q => q.run (Seen models b i) := by
                have hseen : (fun name => (Dict.get? (row (merged models b) i) name).join) = Seen models b i := by
                  funext name
                  rw [row_get?, merged_get? hb]
                  unfold Seen
                  cases (List.findSome? (fun d => Dict.get? d name) (tables models b)).or (Dict.get? b.features name) <;> rfl
                rw [← hr, List.getD_eq_getElem?_getD, List.getElem?_map, List.getElem?_range hi]
                simp [hseen]
              rw [hrow] at this
              exact this
    obtain ⟨outs, e, hlen, hall⟩ := key
    refine ⟨outs, e, hlen, fun i ex o h1 h2 => ?_⟩
    have hone := hall i ex o h1 h2
    constructor
    · unfold fanoutOne at hone
      split at hone
      · cases hone
      · cases hone
        intro p hp
        obtain ⟨k, -, rfl⟩ := List.mem_map.mp hp
        rfl
    · intro k
      rw [C04_once_per_slice c ss hcon _ _ ex o hone k]
      refine if_congr ?_ rfl rfl
      unfold Belongs InSlice
      have hsql : (∃ k' ∈ (queries specs).flatMap fun q => q.run (Seen models b i), SameKey k k') ↔
          ∃ s ∈ specs, ∃ q, s.sql = some q ∧ ∃ k' ∈ q.run (Seen models b i), SameKey k k' := by
        simp only [queries, List.mem_flatMap, List.mem_filterMap]
        constructor
        · rintro ⟨k', ⟨q, ⟨s, hs, hq⟩, hk'⟩, hk⟩
          exact ⟨s, hs, q, hq, k', hk', hk⟩
        · rintro ⟨s, hs, q, hq, k', hk', hk⟩
          exact ⟨k', ⟨q, ⟨s, hs, hq⟩, hk'⟩, hk⟩
      rw [hsql, ← or_assoc]
      refine or_congr ?_ Iff.rfl
      by_cases hn : specs = []
      · subst hn
        rw [hempty rfl]
        simp only [List.mem_singleton, exists_eq_left, List.not_mem_nil, false_and, exists_false, false_or, true_and]
        constructor
        · rintro ⟨k', ⟨-, ch, -, hp, -⟩, hk⟩
          have : k' = [] := by simpa using hp
          subst this
          simpa [SameKey] using hk
        · rintro rfl
          exact ⟨[], ⟨by simp, fun _ => .int 0, by simp, by simp, by simp [Ascending]⟩, rfl⟩
      · obtain ⟨f1, f2⟩ := hfull hn
        simp only [hn, false_and, or_false]
        constructor
        · rintro ⟨y, hy, hd⟩
          obtain ⟨s, hsm, hmk⟩ := f1 y hy
          exact ⟨s, hsm, y, hmk, hd⟩
        · rintro ⟨s, hsm, sp, hmk, hd⟩
          obtain ⟨y, hy, hmk'⟩ := f2 s hsm
          rw [hmk] at hmk'
          cases hmk'
          exact ⟨sp, hy, hd⟩

/-- A statement that does not compile for the columns of a batch stops the evaluation, before any
example of the batch is put into a slice. -/
theorem C123_refused (c : NumCodec) (specs : List SlicingSpec) (ss : List Spec) (hs : sliceSpecs c specs = .ok ss)
    (models : List String) (b : Batch ε) (s : SlicingSpec) (hm : s ∈ specs) (q : Query) (hq : s.sql = some q)
    (hc : q.compiles (merged models b).keys = false) : sliceBatch c specs models b = .error .runtimeError := by
  have hmem : q ∈ queries specs := List.mem_filterMap.mpr ⟨s, hm, hq⟩
  have hne : (queries specs).isEmpty = false := by
    cases h : queries specs with
    | nil => rw [h] at hmem; cases hmem
    | cons => rfl
  have hany : (queries specs).any (fun q => !q.compiles (merged models b).keys) = true :=
    List.any_eq_true.mpr ⟨q, hmem, by simp [hc]⟩
  unfold sliceBatch process
  simp [hs, hne, hany]

/-- Where two models transform a feature, a statement sees what the model listed first makes of it. -/
theorem C123_first_model (m₁ m₂ : String) (rest : List String) (b : Batch ε) (t : Dict String Columns)
    (ht : b.transformed = some t) (d₁ : Columns) (h₁ : t.get? m₁ = some d₁) (name : String) (col : List (List RawVal))
    (hcol : d₁.get? name = some col) (i : ℕ) : Seen (m₁ :: m₂ :: rest) b i name = col[i]? := by
  unfold Seen tables
  rw [ht]
  simp [h₁, hcol]

/-! ## Where the code differs from its description -/

/-- The statement `SELECT STRUCT(gender) FROM example.gender`. -/
def genderQuery : Query where
  compiles names := names.contains "gender"
  run f := ((f "gender").getD []).filterMap fun
    | .str s => some [("gender", .str s)]
    | _ => none

/-- The statement `SELECT STRUCT(gender, country) FROM example.gender, example.country`, for rows
with one value of each. -/
def pairQuery : Query where
  compiles names := names.contains "gender" && names.contains "country"
  run f :=
    match f "gender", f "country" with
    | some [.str g], some [.str k] => [[("gender", .str g), ("country", .str k)]]
    | _, _ => []

/-- Two examples. -/
def demoBatch : Batch ℕ :=
  ⟨[7, 8], [("gender", [[.str "f"], [.str "m"]]), ("country", [[.str "USA"], [.str "UK"]])], none⟩

private theorem demo_shaped (models : List String) : Shaped models demoBatch :=
  ⟨by simp [demoBatch], by simp [tables, demoBatch], by simp [tables, demoBatch]⟩

private theorem sliceBatch_gender : sliceBatch demoCodec [⟨["gender"], [], none⟩] ["m"] demoBatch =
    .ok [([("gender", .str "f")], 7), ([("gender", .str "m")], 8)] := by
  simp [sliceBatch, sliceSpecs, mapE, mkSpec, frozensetE, List.eraseDups_cons, queries, fanoutRows, fanoutOne,
    getSlices, Spec.generateSlices, checkFeatures, columnMatches, product, sortEntries, keySet, keyEq, demoBatch,
    accessor, row, Accessor.hasKey, Accessor.get, collect, Dict.get?, columnValue]

private theorem sliceBatch_sql : sliceBatch demoCodec [⟨[], [], some genderQuery⟩] ["m"] demoBatch =
    .ok [([], 7), ([("gender", .str "f")], 7), ([], 8), ([("gender", .str "m")], 8)] := by
  have hf : process [⟨[], [], some genderQuery⟩] ["m"] demoBatch =
      .ok (demoBatch.features, ⟨[[("gender", .str "f")], [("gender", .str "m")]], [(0, 0), (1, 0)], [2, 1]⟩) := by
    decide +kernel
  have hd : denseRows (⟨[[("gender", .str "f")], [("gender", .str "m")]], [(0, 0), (1, 0)], [2, 1]⟩ :
      VarLenTensorValue SliceKey) = .ok [[[("gender", .str "f")]], [[("gender", .str "m")]]] := by decide +kernel
  have hq : (queries [⟨[], [], some genderQuery⟩]).isEmpty = false := rfl
  unfold sliceBatch
  simp only [hf, hd, hq]
  simp [sliceSpecs, mapE, mkSpec, frozensetE, fanoutRows, fanoutOne,
    getSlices, Spec.generateSlices, checkFeatures, columnMatches, product, sortEntries, keySet, keyEq, canonE,
    demoBatch]

private theorem sliceBatch_pair : sliceBatch demoCodec [⟨[], [], some pairQuery⟩] ["m"] demoBatch =
    .ok [([], 7), ([("gender", .str "f"), ("country", .str "USA")], 7), ([], 8),
      ([("gender", .str "m"), ("country", .str "UK")], 8)] := by
  have hf : process [⟨[], [], some pairQuery⟩] ["m"] demoBatch =
      .ok (demoBatch.features, ⟨[[("gender", .str "f"), ("country", .str "USA")],
        [("gender", .str "m"), ("country", .str "UK")]], [(0, 0), (1, 0)], [2, 1]⟩) := by
    decide +kernel
  have hd : denseRows (⟨[[("gender", .str "f"), ("country", .str "USA")],
      [("gender", .str "m"), ("country", .str "UK")]], [(0, 0), (1, 0)], [2, 1]⟩ : VarLenTensorValue SliceKey) =
      .ok [[[("gender", .str "f"), ("country", .str "USA")]], [[("gender", .str "m"), ("country", .str "UK")]]] := by
    decide +kernel
  have hq : (queries [⟨[], [], some pairQuery⟩]).isEmpty = false := rfl
  unfold sliceBatch
  simp only [hf, hd, hq]
  simp [sliceSpecs, mapE, mkSpec, frozensetE, fanoutRows, fanoutOne,
    getSlices, Spec.generateSlices, checkFeatures, columnMatches, product, sortEntries, keySet, keyEq, canonE,
    demoBatch]

private theorem name_le {a b : Entry} (h : rank a ≤ rank b) : a.1 ≤ b.1 := by
  have key (e : Entry) : (ofLex (rank e)).1 = e.1 := by
    unfold rank
    split <;> rfl
  rw [← key a, ← key b]
  rcases (Prod.Lex.le_iff).mp h with h | ⟨h, -⟩
  · exact h.le
  · exact h.le

/-- The comment of `slice_keys_sql` says that `SELECT STRUCT(gender) FROM example.gender` equals the config
`feature_keys=[gender]`. It does not: the spec that has only the statement also puts each
example into the overall slice. -/
theorem C123_overall_fails :
    ¬ ∀ (c : NumCodec) (models : List String) (b : Batch ℕ), Shaped models b →
      ∀ out out', sliceBatch c [⟨["gender"], [], none⟩] models b = .ok out →
        sliceBatch c [⟨[], [], some genderQuery⟩] models b = .ok out' → ∀ p, p ∈ out ↔ p ∈ out' := by
  intro h
  have := (h demoCodec ["m"] demoBatch (demo_shaped _) _ _ sliceBatch_gender sliceBatch_sql ([], 7)).mpr (by simp)
  simp at this

/-- The second config the comment calls equal gives other slice keys as well: a statement's keys keep the order of
its columns, while the keys of a spec are sorted. -/
theorem C123_order_fails :
    (∃ out, sliceBatch demoCodec [⟨[], [], some pairQuery⟩] ["m"] demoBatch = .ok out ∧
      ([("gender", .str "f"), ("country", .str "USA")], 7) ∈ out) ∧
    ∀ (c : NumCodec) (models : List String) (b : Batch ℕ), Shaped models b →
      ∀ out, sliceBatch c [⟨["gender", "country"], [], none⟩] models b = .ok out →
        ∀ p ∈ out, p.1.map Prod.fst = ["country", "gender"] := by
  refine ⟨⟨_, sliceBatch_pair, by simp⟩, ?_⟩
  intro c models b hb out h p hp
  classical
  obtain ⟨outs, rfl, hlen, hall⟩ := C123_slices c _ models b hb out h
  obtain ⟨o, ho, hpo⟩ := List.mem_flatten.mp hp
  obtain ⟨i, hi, rfl⟩ := List.mem_iff_getElem.mp ho
  have hib : i < b.examples.length := hlen ▸ hi
  have hcount := (hall i b.examples[i] outs[i] (List.getElem?_eq_getElem hib) (List.getElem?_eq_getElem hi)).2 p.1
  have hin : InSlice c [⟨["gender", "country"], [], none⟩] models b i p.1 := by
    by_contra hn
    rw [if_neg hn, List.countP_eq_zero] at hcount
    exact hcount p hpo (by simp [SameKey])
  rcases hin with ⟨s, hs, sp, hmk, k', ⟨-, ch, -, hperm, hasc⟩, hsame⟩ | ⟨h, -⟩ | ⟨s, hs, q, hq, -⟩
  · rw [List.mem_singleton] at hs
    subst hs
    simp [mkSpec, frozensetE, List.eraseDups_cons] at hmk
    subst hmk
    have hnames : p.1.map Prod.fst = k'.map Prod.fst := by
      have := congrArg (List.map Prod.fst) hsame
      simpa [List.map_map, Function.comp_def, canonE] using this
    rw [hnames]
    have hperm : k'.Perm [("gender", ch "gender"), ("country", ch "country")] := hperm
    match k', hperm.length_eq with
    | [x, y], _ =>
      have hasc : rank x ≤ rank y := (List.pairwise_cons.mp hasc).1 y (by simp)
      have hx : x = ("gender", ch "gender") ∨ x = ("country", ch "country") := by
        simpa using hperm.mem_iff.mp (by simp : x ∈ [x, y])
      rcases hx with rfl | rfl
      · have hy : y = ("country", ch "country") := by
          simpa using (List.perm_cons _).mp hperm
        subst hy
        have : "gender" ≤ "country" := name_le hasc
        exact absurd this (by decide +kernel)
      · have hy : y = ("gender", ch "gender") := by
          simpa using (List.perm_cons _).mp (hperm.trans (List.Perm.swap _ _ _))
        subst hy
        rfl
  · cases h
  · rw [List.mem_singleton] at hs
    subst hs
    cases hq

/-! ## Examples -/

/-- Two models: a statement sees what the first one made of `gender`. -/
example : Seen ["a", "b"] (⟨[7], [("gender", [[.str "raw"]])],
    some [("b", [("gender", [[.str "of b"]])]), ("a", [("gender", [[.str "of a"]])])]⟩ : Batch ℕ) 0 "gender" =
    some [.str "of a"] := by decide +kernel

/-- The features of a batch are written over: afterwards the feature is that of the first model. -/
example : merged ["a", "b"] (⟨[7], [("gender", [[.str "raw"]]), ("age", [[.int 3]])],
    some [("b", [("gender", [[.str "of b"]]), ("zip", [[.int 1]])]), ("a", [("gender", [[.str "of a"]])])]⟩ : Batch ℕ) =
    [("gender", [[.str "of a"]]), ("age", [[.int 3]]), ("zip", [[.int 1]])] := by decide +kernel

example : Shaped ["a", "b"] (⟨[7], [("gender", [[.str "raw"]])],
    some [("b", [("gender", [[.str "of b"]])]), ("a", [("gender", [[.str "of a"]])])]⟩ : Batch ℕ) := by
  refine ⟨by simp, ?_, ?_⟩ <;> simp [tables, Dict.get?, Dict.WF, Dict.keys]

/-- A batch in which no example is in a slice of the statement. -/
example : (process [⟨[], [], some pairQuery⟩] ["m"]
    (⟨[7, 8], [("gender", [[], []]), ("country", [[], []])], none⟩ : Batch ℕ)).map Prod.snd =
    .ok ⟨[], [], [2, 0]⟩ := by decide +kernel

/-- A statement that names a column the batch does not have. -/
example : sliceBatch demoCodec [⟨[], [], some genderQuery⟩] ["m"] (⟨[7], [("age", [[.int 3]])], none⟩ : Batch ℕ) =
    .error .runtimeError :=
  C123_refused demoCodec _ [⟨[], []⟩] (by simp [sliceSpecs, mapE, mkSpec, frozensetE]) _ _
    ⟨[], [], some genderQuery⟩ (by simp) genderQuery rfl
    (by decide +kernel)

end TFMA.SqlSlices
