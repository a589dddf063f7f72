import Verif.Model.SliceKeys
import Verif.Lemmas.SlicerGen
import Verif.Lemmas.SingleRounding
import Mathlib.Data.List.Perm.Basic
import Mathlib.Tactic.NormNum
import Mathlib.Tactic.Linarith
import Mathlib.Algebra.Order.Field.Rat
import Mathlib.Algebra.Order.Field.Power
import Mathlib.Tactic.FieldSimp
import Mathlib.Tactic.Ring
import Mathlib.Tactic.Positivity

/-!
# C05 minimum slice size, C06 classification of keys, C07 serialization of keys
-/

namespace TFMA
namespace Slicer

/-! ### C05 -/

theorem flatMapE_ok {α β : Type} {f : α → Except Err (List β)} {g : α → List β} {l : List α}
    (h : ∀ x ∈ l, f x = .ok (g x)) : flatMapE f l = .ok (l.flatMap g) := by
  induction l with
  | nil => rfl
  | cons x xs ih =>
    unfold flatMapE
    rw [h x (by simp), ih fun y hy => h y (List.mem_cons_of_mem _ hy)]
    rfl

theorem flatMapE_error {α β : Type} {f : α → Except Err (List β)} {l : List α} {err : Err}
    (hall : ∀ x ∈ l, ∀ e, f x = .error e → e = err) (x : α) (hx : x ∈ l) (he : f x = .error err) :
    flatMapE f l = .error err := by
  induction l with
  | nil => cases hx
  | cons y ys ih =>
    unfold flatMapE
    rcases hy : f y with e | v
    · rw [hall y (by simp) e hy]
    · have hx' : x ∈ ys := by
        rcases List.mem_cons.mp hx with rfl | h
        · rw [hy] at he; cases he
        · exact h
      rw [ih (fun z hz => hall z (List.mem_cons_of_mem _ hz)) hx']

theorem valuesAt_of_nodup {V : Type} {l : List (SKey × V)} (hn : (l.map Prod.fst).Nodup) {k v}
    (h : (k, v) ∈ l) : valuesAt l k = [v] := by
  induction l with
  | nil => cases h
  | cons p l ih =>
    rw [List.map_cons, List.nodup_cons] at hn
    have hnone : ∀ q ∈ l, q.1 = p.1 → False := fun q hq e =>
      hn.1 (e ▸ List.mem_map_of_mem hq)
    rcases List.mem_cons.mp h with rfl | h
    · unfold valuesAt
      rw [List.filter_cons_of_pos (by simp)]
      have : l.filter (fun p => decide (p.1 = k)) = [] := by
        rw [List.filter_eq_nil_iff]
        intro q hq; simpa using hnone q hq
      rw [this]; rfl
    · have hne : p.1 ≠ k := fun e => hnone _ h (by simp [e])
      unfold valuesAt
      rw [List.filter_cons_of_neg (by simpa using hne)]
      exact ih hn.2 h

theorem valuesAt_of_not_mem {V : Type} {l : List (SKey × V)} {k} (h : k ∉ l.map Prod.fst) :
    valuesAt l k = [] := by
  unfold valuesAt
  have : l.filter (fun p => decide (p.1 = k)) = [] := by
    rw [List.filter_eq_nil_iff]
    intro q hq; simp only [decide_eq_true_eq]
    rintro rfl; exact h (List.mem_map_of_mem hq)
  rw [this]; rfl

theorem countPerKey_fst (l : List SKey) : (countPerKey l).map Prod.fst = l.dedup := by
  simp [countPerKey, List.map_map, Function.comp_def]

theorem valuesAt_countPerKey {l : List SKey} {k : SKey} (h : k ∈ l) :
    valuesAt (countPerKey l) k = [l.count k] := by
  apply valuesAt_of_nodup
  · rw [countPerKey_fst]; exact List.nodup_dedup l
  · exact List.mem_map.mpr ⟨k, List.mem_dedup.mpr h, rfl⟩

/-- What should be reported for a slice holding `n` examples. -/
def expectedOut {M : Type} (minSize : ℕ) (fannedOut : List SKey) (p : SKey × M) : SKey × SliceOut M :=
  (p.1, if p.1 = .ordinary [] ∨ minSize ≤ fannedOut.count p.1 then .metrics p.2 else .tooSmall)

/-- **C05** (ordinary slices).  If every slice with metrics is the overall slice or received at least one
example (true of ordinary slices: their metrics come from the fanned out examples), the stage reports each
slice exactly once: its metrics unchanged if it is the overall slice or holds enough examples, the error
entry otherwise.  `_partial`: cross-slice keys do not meet the hypothesis, see
`C05_cross_slice_crash`. -/
theorem C05_min_size_partial {M : Type} (minSize : ℕ) (values : List (SKey × M)) (fannedOut : List SKey)
    (hn : (values.map Prod.fst).Nodup)
    (hv : ∀ p ∈ values, p.1 = .ordinary [] ∨ p.1 ∈ fannedOut) :
    ∃ out, minSizeStage minSize values fannedOut = .ok out ∧
      out.Perm (values.map (expectedOut minSize fannedOut)) := by
  unfold minSizeStage
  by_cases hm : minSize > 1
  · rw [if_pos hm]
    let g : SKey → List (SKey × SliceOut M) := fun k =>
      (valuesAt values k).map (fun m => expectedOut minSize fannedOut (k, m))
    have hf : ∀ k ∈ (values.map Prod.fst ++ (countPerKey fannedOut).map Prod.fst).dedup,
        filterOne minSize k (valuesAt values k) (valuesAt (countPerKey fannedOut) k) = .ok (g k) := by
      intro k _
      by_cases hk : k ∈ values.map Prod.fst
      · obtain ⟨⟨k', m⟩, hp, rfl⟩ := List.mem_map.mp hk
        simp only [g, valuesAt_of_nodup hn hp, filterOne, List.map_cons, List.map_nil]
        rcases hv _ hp with h0 | h0
        · simp only at h0
          subst h0
          simp [SKey.falsy, expectedOut]
        · by_cases hfalsy : k' = .ordinary []
          · subst hfalsy; simp [SKey.falsy, expectedOut]
          · have hf2 : k'.falsy = false := by
              cases k' with
              | ordinary l =>
                cases l with
                | nil => exact absurd rfl hfalsy
                | cons a l => rfl
              | cross b c => rfl
            rw [hf2, valuesAt_countPerKey h0]
            simp only [expectedOut, hfalsy, false_or]
            by_cases hc : minSize ≤ fannedOut.count k'
            · simp [hc]
            · simp [hc]
      · simp [g, valuesAt_of_not_mem hk, filterOne]
    refine ⟨_, flatMapE_ok hf, ?_⟩
    -- group by key
    rw [countPerKey_fst]
    have hg0 : ∀ k, k ∉ values.map Prod.fst → g k = [] := by
      intro k hk; simp [g, valuesAt_of_not_mem hk]
    have h1 : ((values.map Prod.fst ++ fannedOut.dedup).dedup.flatMap g).Perm
        ((values.map Prod.fst).flatMap g) := by
      have hsplit : ∀ (L : List SKey), L.flatMap g =
          (L.filter (fun k => decide (k ∈ values.map Prod.fst))).flatMap g := by
        intro L
        induction L with
        | nil => rfl
        | cons k L ih =>
          by_cases hk : k ∈ values.map Prod.fst
          · rw [List.filter_cons_of_pos (by simpa using hk), List.flatMap_cons, List.flatMap_cons, ih]
          · rw [List.filter_cons_of_neg (by simpa using hk), List.flatMap_cons, hg0 k hk,
              List.nil_append, ih]
      rw [hsplit]
      refine List.Perm.flatMap_right g ?_
      rw [List.perm_ext_iff_of_nodup ((List.nodup_dedup _).filter _) hn]
      intro k
      simp only [List.mem_filter, List.mem_dedup, List.mem_append, decide_eq_true_eq]
      constructor
      · exact fun h => h.2
      · exact fun h => ⟨Or.inl h, h⟩
    refine h1.trans ?_
    have h2 : ∀ (L : List (SKey × M)), (∀ p ∈ L, p ∈ values) →
        (L.map Prod.fst).flatMap g = L.map (expectedOut minSize fannedOut) := by
      intro L
      induction L with
      | nil => intro _; rfl
      | cons p L ih =>
        intro hL
        rw [List.map_cons, List.flatMap_cons, ih fun q hq => hL q (List.mem_cons_of_mem _ hq),
          List.map_cons]
        have : g p.1 = [expectedOut minSize fannedOut p] := by
          obtain ⟨k, m⟩ := p
          simp [g, valuesAt_of_nodup hn (hL (k, m) (by simp))]
        rw [this]; rfl
    rw [h2 values (fun _ h => h)]
  · rw [if_neg hm]
    refine ⟨_, rfl, ?_⟩
    refine List.Perm.of_eq (List.map_congr_left ?_)
    intro p hp
    simp only [expectedOut, Prod.mk.injEq, true_and]
    rcases hv p hp with h | h
    · simp [h]
    · have : 0 < fannedOut.count p.1 := List.count_pos_iff.mpr h
      rw [if_pos]
      right; omega

/-- **C05 fails for cross-slice keys**: with a minimum size above 1 a single cross-slice result makes the
stage raise IndexError, because the counts only contain ordinary slices. -/
theorem C05_cross_slice_crash {M : Type} (minSize : ℕ) (hm : minSize > 1) (values : List (SKey × M))
    (fannedOut : List SKey) (hord : ∀ k ∈ fannedOut, ∃ l, k = .ordinary l)
    (b c : List (String × CVal)) (m : M) (hx : (SKey.cross b c, m) ∈ values) :
    minSizeStage minSize values fannedOut = .error .indexError := by
  unfold minSizeStage
  rw [if_pos hm]
  apply flatMapE_error (x := SKey.cross b c)
  · intro k _ e he
    unfold filterOne at he
    split at he
    · cases he
    · split at he
      · cases he
      · split at he
        · cases he; rfl
        · split at he <;> cases he
  · rw [List.mem_dedup, List.mem_append]
    exact Or.inl (List.mem_map_of_mem (f := Prod.fst) hx)
  · have hvals : ∃ v vs, valuesAt values (.cross b c) = v :: vs := by
      have : m ∈ valuesAt values (.cross b c) :=
        List.mem_map.mpr ⟨(.cross b c, m), List.mem_filter.mpr ⟨hx, by simp⟩, rfl⟩
      cases h : valuesAt values (.cross b c) with
      | nil => rw [h] at this; cases this
      | cons v vs => exact ⟨v, vs, rfl⟩
    obtain ⟨v, vs, hvs⟩ := hvals
    have hc : valuesAt (countPerKey fannedOut) (.cross b c) = [] := by
      apply valuesAt_of_not_mem
      rw [countPerKey_fst, List.mem_dedup]
      intro h
      obtain ⟨l, hl⟩ := hord _ h
      cases hl
    simp [filterOne, hvs, hc, SKey.falsy]

example : ∃ out, minSizeStage 2 [(.ordinary [], 10), (.ordinary [("a", .num 1)], 3)]
      [.ordinary [], .ordinary [], .ordinary [("a", .num 1)]] = .ok out ∧
      out.Perm [(.ordinary [], .metrics 10), (.ordinary [("a", .num 1)], .tooSmall)] := by
  have := C05_min_size_partial 2 [(SKey.ordinary [], 10), (.ordinary [("a", .num 1)], 3)]
    [.ordinary [], .ordinary [], .ordinary [("a", .num 1)]] (by decide) (by decide)
  simpa [expectedOut] using this

example : minSizeStage 2 [(SKey.ordinary [], 10), (.cross [] [("a", .num 1)], 3)]
    [.ordinary [], .ordinary []] = .error .indexError :=
  C05_cross_slice_crash 2 (by decide) _ _ (by simp) [] [("a", .num 1)] 3 (by simp)

/-! ### C06 -/

/-- A text: a python `str` or `bytes`. -/
inductive Text : PyObj → Prop where
  | str (s : String) : Text (.str s)
  | bytes (b : List UInt8) : Text (.bytes b)

/-- A value of a slice: a text, an integer or a float. -/
inductive Scalar : PyObj → Prop where
  | str (s : String) : Scalar (.str s)
  | bytes (b : List UInt8) : Scalar (.bytes b)
  | int (i : Int) : Scalar (.int i)
  | flt (q : ℚ) : Scalar (.flt q)

/-- The objects python takes for false. -/
def Falsy (x : PyObj) : Prop :=
  x = .none ∨ x = .str "" ∨ x = .bytes [] ∨ x = .int 0 ∨ x = .flt 0 ∨ x = .tuple []

theorem isText_iff (x : PyObj) : x.isText = true ↔ Text x := by
  cases x with
  | str s => exact ⟨fun _ => .str s, fun _ => rfl⟩
  | bytes b => exact ⟨fun _ => .bytes b, fun _ => rfl⟩
  | _ => exact ⟨nofun, nofun⟩

theorem isScalar_iff (x : PyObj) : x.isScalar = true ↔ Scalar x := by
  cases x with
  | str s => exact ⟨fun _ => .str s, fun _ => rfl⟩
  | bytes b => exact ⟨fun _ => .bytes b, fun _ => rfl⟩
  | int b => exact ⟨fun _ => .int b, fun _ => rfl⟩
  | flt b => exact ⟨fun _ => .flt b, fun _ => rfl⟩
  | _ => exact ⟨nofun, nofun⟩

theorem truthy_iff (x : PyObj) : x.truthy = false ↔ Falsy x := by
  cases x <;> simp [PyObj.truthy, Falsy]

/-- A well formed entry of an ordinary key: a (column, value) pair with text column and text, integer or
float value. -/
inductive WFEntry : PyObj → Prop where
  | pair {c v : PyObj} (hc : Text c) (hv : Scalar v) : WFEntry (.tuple [c, v])

/-- A well formed ordinary key: a tuple of such pairs. -/
def WFKey (x : PyObj) : Prop := ∃ l, x = .tuple l ∧ ∀ e ∈ l, WFEntry e

/-- An entry that is a two character text; it unpacks like a pair. -/
def TwoChars (x : PyObj) : Prop := ∃ s, x = .str s ∧ s.toList.length = 2

/-- What the classifier accepts as an ordinary key: a falsy object, or a tuple whose entries are pairs or
two character texts. -/
def Accepted (x : PyObj) : Prop :=
  Falsy x ∨ ∃ l, x = .tuple l ∧ ∀ e ∈ l, WFEntry e ∨ TwoChars e

theorem isSingleton_iff (x : PyObj) : x.isSingleton = .ok true ↔ WFEntry x ∨ TwoChars x := by
  unfold PyObj.isSingleton PyObj.unpack2
  cases x with
  | none => simp [PyObj.iter]; exact ⟨nofun, fun ⟨_, h, _⟩ => nomatch h⟩
  | int i => simp [PyObj.iter]; exact ⟨nofun, fun ⟨_, h, _⟩ => nomatch h⟩
  | flt i => simp [PyObj.iter]; exact ⟨nofun, fun ⟨_, h, _⟩ => nomatch h⟩
  | str s =>
    constructor
    · intro h
      right
      refine ⟨s, rfl, ?_⟩
      simp only [PyObj.iter] at h
      rcases hl : s.toList with _ | ⟨a, _ | ⟨b, _ | ⟨d, r⟩⟩⟩ <;> rw [hl] at h <;> simp at h ⊢
    · rintro (h | ⟨s', hs, hl⟩)
      · cases h
      · cases hs
        simp only [PyObj.iter]
        rcases hl' : s.toList with _ | ⟨a, _ | ⟨b, _ | ⟨d, r⟩⟩⟩ <;> rw [hl'] at hl <;> simp at hl
        simp [PyObj.isText, PyObj.isScalar]
  | bytes b =>
    constructor
    · intro h
      simp only [PyObj.iter] at h
      rcases b with _ | ⟨x, _ | ⟨y, _ | ⟨z, r⟩⟩⟩ <;> simp [PyObj.isText] at h
    · rintro (h | ⟨s', hs, hl⟩)
      · cases h
      · cases hs
  | tuple l =>
    constructor
    · intro h
      simp only [PyObj.iter] at h
      rcases l with _ | ⟨x, _ | ⟨y, _ | ⟨z, r⟩⟩⟩ <;> simp at h
      exact Or.inl (WFEntry.pair ((isText_iff _).mp h.1) ((isScalar_iff _).mp h.2))
    · rintro (h | ⟨s', hs, hl⟩)
      · cases h with
        | pair hc hv => simp [PyObj.iter, (isText_iff _).mpr hc, (isScalar_iff _).mpr hv]
      · cases hs

theorem isSingleton_err (x : PyObj) (e : Err) (h : x.isSingleton = .error e) : e = .typeError := by
  unfold PyObj.isSingleton PyObj.unpack2 at h
  cases x with
  | none => simp [PyObj.iter] at h; exact h.symm
  | int i => simp [PyObj.iter] at h; exact h.symm
  | flt i => simp [PyObj.iter] at h; exact h.symm
  | str s =>
    simp only [PyObj.iter] at h
    rcases hl : s.toList with _ | ⟨a, _ | ⟨b, _ | ⟨d, r⟩⟩⟩ <;> rw [hl] at h <;> simp at h
  | bytes b =>
    simp only [PyObj.iter] at h
    rcases b with _ | ⟨x, _ | ⟨y, _ | ⟨z, r⟩⟩⟩ <;> simp at h
  | tuple l =>
    simp only [PyObj.iter] at h
    rcases l with _ | ⟨x, _ | ⟨y, _ | ⟨z, r⟩⟩⟩ <;> simp at h

theorem allSingleton_iff (l : List PyObj) :
    PyObj.allSingleton l = .ok true ↔ ∀ e ∈ l, WFEntry e ∨ TwoChars e := by
  induction l with
  | nil => simp [PyObj.allSingleton]
  | cons x xs ih =>
    unfold PyObj.allSingleton
    rw [List.forall_mem_cons, ← ih, ← isSingleton_iff]
    rcases h : x.isSingleton with e | (_ | _) <;> simp

theorem allSingleton_err (l : List PyObj) (e : Err) (h : PyObj.allSingleton l = .error e) :
    e = .typeError := by
  induction l with
  | nil => simp [PyObj.allSingleton] at h
  | cons x xs ih =>
    unfold PyObj.allSingleton at h
    rcases h' : x.isSingleton with e' | (_ | _)
    · rw [h'] at h; cases h; exact isSingleton_err x _ h'
    · rw [h'] at h; cases h
    · rw [h'] at h; exact ih h

theorem isSliceKey_iff (x : PyObj) : x.isSliceKey = .ok true ↔ Accepted x := by
  unfold PyObj.isSliceKey Accepted
  rw [← truthy_iff]
  by_cases ht : x.truthy = true
  · rw [ht]
    simp only [Bool.not_true, Bool.false_eq_true, if_false, Bool.true_eq_false, false_or]
    cases x with
    | none => simp [PyObj.truthy] at ht
    | int i => simp [PyObj.iter]
    | flt i => simp [PyObj.iter]
    | str s =>
      simp only [PyObj.iter, allSingleton_iff]
      constructor
      · intro h
        have hne : s.toList ≠ [] := by
          simpa [PyObj.truthy] using ht
        obtain ⟨a, r, har⟩ := List.exists_cons_of_ne_nil hne
        have h1 := h (.str (String.singleton a)) (by rw [har]; simp)
        rcases h1 with h1 | ⟨s', hs, hl⟩
        · cases h1
        · cases hs; simp at hl
      · rintro ⟨l, hl, _⟩; cases hl
    | bytes b =>
      simp only [PyObj.iter, allSingleton_iff]
      constructor
      · intro h
        have hne : b ≠ [] := by simpa [PyObj.truthy] using ht
        obtain ⟨a, r, har⟩ := List.exists_cons_of_ne_nil hne
        have h1 := h (.int a.toNat) (by rw [har]; simp)
        rcases h1 with h1 | ⟨s', hs, hl⟩
        · cases h1
        · cases hs
      · rintro ⟨l, hl, _⟩; cases hl
    | tuple l =>
      simp only [PyObj.iter, allSingleton_iff]
      constructor
      · intro h; exact ⟨l, rfl, h⟩
      · rintro ⟨l', hl, h⟩; cases hl; exact h
  · have ht' : x.truthy = false := by simpa using ht
    simp [ht']

theorem isSliceKey_err (x : PyObj) (e : Err) (h : x.isSliceKey = .error e) : e = .typeError := by
  unfold PyObj.isSliceKey at h
  split at h
  · cases h
  · cases x with
    | none => simp [PyObj.iter] at h; exact h.symm
    | int i => simp [PyObj.iter] at h; exact h.symm
    | flt i => simp [PyObj.iter] at h; exact h.symm
    | str s => exact allSingleton_err _ _ h
    | bytes b => exact allSingleton_err _ _ h
    | tuple l => exact allSingleton_err _ _ h

theorem bool_cases (r : Except Err Bool) : r = .ok true ∨ r = .ok false ∨ ∃ e, r = .error e := by
  rcases r with e | (_ | _)
  · exact Or.inr (Or.inr ⟨e, rfl⟩)
  · exact Or.inr (Or.inl rfl)
  · exact Or.inl rfl

/-- Objects that can be iterated. -/
def IsSequence : PyObj → Prop
  | .str _ => True
  | .bytes _ => True
  | .tuple _ => True
  | _ => False

theorem isSingleton_seq (x : PyObj) (hx : IsSequence x) (e : Err) : x.isSingleton ≠ .error e := by
  unfold PyObj.isSingleton PyObj.unpack2
  cases x with
  | none => cases hx
  | int i => cases hx
  | flt i => cases hx
  | str s =>
    simp only [PyObj.iter]
    rcases hl : s.toList with _ | ⟨a, _ | ⟨b, _ | ⟨d, r⟩⟩⟩ <;> simp
  | bytes b =>
    simp only [PyObj.iter]
    rcases b with _ | ⟨x, _ | ⟨y, _ | ⟨z, r⟩⟩⟩ <;> simp
  | tuple l =>
    simp only [PyObj.iter]
    rcases l with _ | ⟨x, _ | ⟨y, _ | ⟨z, r⟩⟩⟩ <;> simp

theorem allSingleton_seq (l : List PyObj) (h : ∀ x ∈ l, IsSequence x) (e : Err) :
    PyObj.allSingleton l ≠ .error e := by
  induction l with
  | nil => simp [PyObj.allSingleton]
  | cons x xs ih =>
    unfold PyObj.allSingleton
    rcases h' : x.isSingleton with e' | (_ | _)
    · exact absurd h' (isSingleton_seq x (h x (by simp)) e')
    · simp
    · simpa using ih fun y hy => h y (List.mem_cons_of_mem _ hy)

theorem isSliceKey_not {x : PyObj} (h : ¬ Accepted x) :
    x.isSliceKey = .ok false ∨ x.isSliceKey = .error .typeError := by
  rcases bool_cases x.isSliceKey with h1 | h1 | ⟨e, h1⟩
  · exact absurd ((isSliceKey_iff x).mp h1) h
  · exact Or.inl h1
  · rw [isSliceKey_err x e h1] at h1; exact Or.inr h1

/-- What the classifier accepts as a cross-slice key: a tuple of two accepted keys (the second may even be
None or 0 unless the first looks like an entry). -/
def AcceptedCross (x : PyObj) : Prop :=
  ∃ b c, x = .tuple [b, c] ∧ Accepted b ∧ Accepted c ∧ IsSequence b ∧ (WFEntry b → IsSequence c)

/-- **C06** (exact behaviour for every python object): the object is an ordinary key exactly when it is
`Accepted`, a cross-slice key exactly when it is not but is `AcceptedCross`, and everything else raises
TypeError. -/
theorem C06_exact (x : PyObj) :
    (Accepted x → sliceKeyType x = .ok .ordinary) ∧
    (¬ Accepted x → AcceptedCross x → sliceKeyType x = .ok .cross) ∧
    (¬ Accepted x → ¬ AcceptedCross x → sliceKeyType x = .error .typeError) := by
  have htwo : ∀ b, Accepted b → ¬ TwoChars b := by
    rintro b (h | ⟨l, rfl, _⟩) ⟨s, hs, hl⟩
    · subst hs
      have h : s = "" := by simpa [Falsy] using h
      subst h; simp at hl
    · cases hs
  refine ⟨?_, ?_, ?_⟩
  · intro h
    unfold sliceKeyType
    rw [(isSliceKey_iff x).mpr h]
  · rintro h ⟨b, c, rfl, hb, hc, hsb, hsc⟩
    unfold sliceKeyType
    rcases isSliceKey_not h with h1 | h1
    · rw [h1]
      simp only [PyObj.unpack2, PyObj.iter, (isSliceKey_iff b).mpr hb, (isSliceKey_iff c).mpr hc]
    · exfalso
      have h1 : PyObj.allSingleton [b, c] = .error .typeError := h1
      by_cases hw : WFEntry b
      · refine allSingleton_seq [b, c] ?_ .typeError h1
        intro x hx
        simp only [List.mem_cons, List.not_mem_nil, or_false] at hx
        rcases hx with rfl | rfl
        · exact hsb
        · exact hsc hw
      · unfold PyObj.allSingleton at h1
        rcases hbs : b.isSingleton with e' | (_ | _)
        · exact isSingleton_seq b hsb e' hbs
        · rw [hbs] at h1; cases h1
        · rcases (isSingleton_iff b).mp hbs with h2 | h2
          · exact hw h2
          · exact htwo b hb h2
  · intro h hn
    unfold sliceKeyType
    rcases isSliceKey_not h with h1 | h1
    · rw [h1]
      simp only
      cases x with
      | none => rfl
      | int i => rfl
      | flt q => rfl
      | str s =>
        simp only [PyObj.unpack2, PyObj.iter]
        rcases hl : s.toList with _ | ⟨a, _ | ⟨b, _ | ⟨d, r⟩⟩⟩
        · simp
        · simp
        · simp only [List.map_cons, List.map_nil]
          have : ¬ Accepted (.str (String.singleton a)) := by
            rintro (h | ⟨l, h, _⟩)
            · simp [Falsy] at h
            · cases h
          rcases isSliceKey_not this with h2 | h2 <;> simp [h2]
        · simp
      | bytes b =>
        simp only [PyObj.unpack2, PyObj.iter]
        rcases b with _ | ⟨a, _ | ⟨b, _ | ⟨d, r⟩⟩⟩
        · simp
        · simp
        · exfalso
          have h1 : PyObj.allSingleton [.int a.toNat, .int b.toNat] = .ok false := h1
          simp [PyObj.allSingleton, PyObj.isSingleton, PyObj.unpack2, PyObj.iter] at h1
        · simp
      | tuple l =>
        simp only [PyObj.unpack2, PyObj.iter]
        rcases l with _ | ⟨b, _ | ⟨c, _ | ⟨d, r⟩⟩⟩
        · simp
        · simp
        · simp only
          by_cases hb : Accepted b
          · rw [(isSliceKey_iff b).mpr hb]
            simp only
            by_cases hc : Accepted c
            · exfalso
              have h1 : PyObj.allSingleton [b, c] = .ok false := h1
              -- an unpackable first/second element
              have hsb : IsSequence b := by
                by_contra hsb
                have : b.isSingleton = .error .typeError := by
                  cases b <;> simp_all [IsSequence, PyObj.isSingleton, PyObj.unpack2, PyObj.iter]
                simp [PyObj.allSingleton, this] at h1
              refine hn ⟨b, c, rfl, hb, hc, hsb, fun hw => ?_⟩
              by_contra hsc
              have : c.isSingleton = .error .typeError := by
                cases c <;> simp_all [IsSequence, PyObj.isSingleton, PyObj.unpack2, PyObj.iter]
              simp [PyObj.allSingleton, this, (isSingleton_iff b).mpr (Or.inl hw)] at h1
            · rcases isSliceKey_not hc with h2 | h2 <;> simp [h2]
          · rcases isSliceKey_not hb with h2 | h2 <;> simp [h2]
        · simp
    · rw [h1]

/-- **C06** (ordinary keys): a well formed ordinary key is never taken for a cross-slice key. -/
theorem C06_ordinary (x : PyObj) (h : WFKey x) : isCrossSliceKey x = .ok false := by
  obtain ⟨l, rfl, hl⟩ := h
  have : Accepted (.tuple l) := Or.inr ⟨l, rfl, fun e he => Or.inl (hl e he)⟩
  unfold isCrossSliceKey
  rw [(C06_exact _).1 this]
  rfl

/-- **C06** (cross keys): a pair of well formed ordinary keys is always taken for a cross-slice key. -/
theorem C06_cross (b c : PyObj) (hb : WFKey b) (hc : WFKey c) :
    isCrossSliceKey (.tuple [b, c]) = .ok true := by
  obtain ⟨lb, rfl, hlb⟩ := hb
  obtain ⟨lc, rfl, hlc⟩ := hc
  have hnot : ¬ Accepted (.tuple [.tuple lb, .tuple lc]) := by
    rintro (h | ⟨l, h, hl⟩)
    · simp [Falsy] at h
    · cases h
      rcases hl (.tuple lb) (by simp) with h | ⟨s, hs, _⟩
      · cases h with
        | pair h1 h2 =>
          have := hlb _ (List.mem_cons_self)
          cases this
          cases h1
      · cases hs
  have : AcceptedCross (.tuple [.tuple lb, .tuple lc]) :=
    ⟨_, _, rfl, Or.inr ⟨lb, rfl, fun e he => Or.inl (hlb e he)⟩,
      Or.inr ⟨lc, rfl, fun e he => Or.inl (hlc e he)⟩, trivial, fun _ => trivial⟩
  unfold isCrossSliceKey
  rw [(C06_exact _).2.1 hnot this]
  rfl

/-- A tuple of tuples; if it has exactly two components, these contain no two character text as direct
entries (they would be read as a (column, value) pair). -/
def KeyShaped (x : PyObj) : Prop :=
  ∃ l, x = .tuple l ∧ (∀ e ∈ l, ∃ l', e = .tuple l') ∧
    (l.length = 2 → ∀ l', .tuple l' ∈ l → ∀ e' ∈ l', ¬ TwoChars e')

/-- **C06** (everything else).  Among key shaped objects whatever is neither a well formed key nor a pair
of well formed keys is rejected with TypeError.  `_partial`: without the shape restriction the claim is
false, see `C06_two_char_text_accepted`. -/
theorem C06_rejects_partial (x : PyObj) (hs : KeyShaped x) (h1 : ¬ WFKey x)
    (h2 : ¬ ∃ b c, x = .tuple [b, c] ∧ WFKey b ∧ WFKey c) :
    isCrossSliceKey x = .error .typeError := by
  obtain ⟨l, rfl, hl, hl2⟩ := hs
  have hnot : ¬ Accepted (.tuple l) := by
    rintro (h | ⟨l', h, hl'⟩)
    · have : l = [] := by simpa [Falsy] using h
      subst this
      exact h1 ⟨[], rfl, by simp⟩
    · cases h
      refine h1 ⟨l, rfl, fun e he => ?_⟩
      rcases hl' e he with h | ⟨s, hs, _⟩
      · exact h
      · obtain ⟨l', hl'⟩ := hl e he
        rw [hl'] at hs; cases hs
  have hnot2 : ¬ AcceptedCross (.tuple l) := by
    rintro ⟨b, c, hx, hb, hc, _, _⟩
    cases hx
    have conv : ∀ e ∈ [b, c], Accepted e → WFKey e := by
      intro e he ha
      obtain ⟨l', rfl⟩ := hl e he
      rcases ha with h | ⟨l'', h, hl''⟩
      · have : l' = [] := by simpa [Falsy] using h
        subst this
        exact ⟨[], rfl, by simp⟩
      · cases h
        refine ⟨l', rfl, fun e' he' => ?_⟩
        rcases hl'' e' he' with h | h
        · exact h
        · exact absurd h (hl2 rfl l' he e' he')
    exact h2 ⟨b, c, rfl, conv b (by simp) hb, conv c (by simp) hc⟩
  unfold isCrossSliceKey
  rw [(C06_exact _).2.2 hnot hnot2]

/-- **C06 fails for two character texts**: the malformed key `("ab",)` is accepted as an ordinary key. -/
theorem C06_two_char_text_accepted :
    ¬ WFKey (.tuple [.str "ab"]) ∧ isCrossSliceKey (.tuple [.str "ab"]) = .ok false := by
  constructor
  · rintro ⟨l, h, hl⟩
    cases h
    have := hl (.str "ab") (by simp)
    cases this
  · have : Accepted (.tuple [.str "ab"]) :=
      Or.inr ⟨_, rfl, fun e he => Or.inr (by simp at he; subst he; exact ⟨"ab", rfl, by decide⟩)⟩
    unfold isCrossSliceKey
    rw [(C06_exact _).1 this]
    rfl

example : WFKey (.tuple [.tuple [.str "age", .int 5], .tuple [.bytes [1], .flt (1 / 2)]]) :=
  ⟨_, rfl, by
    intro e he
    simp only [List.mem_cons, List.not_mem_nil, or_false] at he
    rcases he with rfl | rfl <;> constructor <;> constructor⟩

/-- the pair of two overall keys is a cross-slice key. -/
example : isCrossSliceKey (.tuple [.tuple [], .tuple []]) = .ok true :=
  C06_cross _ _ ⟨[], rfl, by simp⟩ ⟨[], rfl, by simp⟩

/-- three entries, one of them not a pair: rejected. -/
example : isCrossSliceKey (.tuple [.tuple [.str "a", .int 1], .tuple [.int 1, .int 1], .tuple []]) =
    .error .typeError := by
  apply C06_rejects_partial
  · exact ⟨_, rfl, by simp, by simp⟩
  · rintro ⟨l, h, hl⟩
    cases h
    have := hl (.tuple []) (by simp)
    cases this
  · rintro ⟨b, c, h, _⟩
    cases h

/-! ### C07 -/

/-- Values that the protobuf fields can hold: integers within int64, floats within single precision. -/
def Storable : Val → Prop
  | .str _ => True
  | .int i => -2 ^ 63 ≤ i ∧ i < 2 ^ 63
  | .flt q => Single q

theorem entry_roundtrip (R : SingleRounding) (e : Entry) (h : Storable e.2) :
    ∃ p, serializeEntry R e = .ok p ∧ deserializeEntry p = .ok e := by
  obtain ⟨k, v⟩ := e
  cases v with
  | str s =>
    refine ⟨_, rfl, ?_⟩
    have : String.fromUTF8? s.toByteArray = some s := by
      unfold String.fromUTF8?
      rw [dif_pos s.isValidUTF8]
      rfl
    simp [deserializeEntry, this]
  | int i =>
    have h : -2 ^ 63 ≤ i ∧ i < 2 ^ 63 := h
    exact ⟨⟨k, some (.int64Value i)⟩, by simp only [serializeEntry]; rw [if_pos h], rfl⟩
  | flt q => exact ⟨_, rfl, by simp [deserializeEntry, R.fix q h]⟩

/-- **C07** (round trip).  `_partial`: holds for keys whose integers fit into int64 and whose floats are
single precision numbers; `C07_float_not_preserved` and `C07_float_collision` show that the restriction on
floats is necessary. -/
theorem C07_roundtrip_partial (R : SingleRounding) (k : SliceKey) (h : ∀ e ∈ k, Storable e.2) :
    ∃ p, serializeKey R k = .ok p ∧ deserializeKey p = .ok k := by
  induction k with
  | nil => exact ⟨[], rfl, rfl⟩
  | cons e k ih =>
    obtain ⟨p, hp, hd⟩ := entry_roundtrip R e (h e (by simp))
    obtain ⟨ps, hps, hds⟩ := ih fun e he => h e (List.mem_cons_of_mem _ he)
    refine ⟨p :: ps, ?_, ?_⟩
    · rw [serializeKey, mapE_ok_iff] at *
      exact List.Forall₂.cons hp hps
    · rw [deserializeKey, mapE_ok_iff] at *
      exact List.Forall₂.cons hd hds

/-- **C07** (cross-slice keys). -/
theorem C07_cross_roundtrip_partial (R : SingleRounding) (b c : SliceKey)
    (hb : ∀ e ∈ b, Storable e.2) (hc : ∀ e ∈ c, Storable e.2) :
    ∃ p, serializeCross R (b, c) = .ok p ∧ deserializeCross p = .ok (b, c) := by
  obtain ⟨p, hp, hdp⟩ := C07_roundtrip_partial R b hb
  obtain ⟨q, hq, hdq⟩ := C07_roundtrip_partial R c hc
  refine ⟨⟨p, q⟩, ?_, ?_⟩
  · simp [serializeCross, hp, hq]
  · simp [deserializeCross, hdp, hdq]

/-- **C07** (distinct slices are stored under distinct keys, within the storable values). -/
theorem C07_injective_partial (R : SingleRounding) (k k' : SliceKey) (h : ∀ e ∈ k, Storable e.2)
    (h' : ∀ e ∈ k', Storable e.2) (he : serializeKey R k = serializeKey R k') : k = k' := by
  obtain ⟨p, hp, hdp⟩ := C07_roundtrip_partial R k h
  obtain ⟨q, hq, hdq⟩ := C07_roundtrip_partial R k' h'
  rw [hp, hq] at he
  cases he
  rw [hdp] at hdq
  cases hdq; rfl

/-- **C07** (the order and the column names always survive, also for values that are rounded). -/
theorem C07_columns_survive (R : SingleRounding) (k : SliceKey) (p : SliceKeyProto) (k' : SliceKey)
    (hs : serializeKey R k = .ok p) (hd : deserializeKey p = .ok k') :
    k'.map Prod.fst = k.map Prod.fst := by
  induction k generalizing p k' with
  | nil =>
    simp [serializeKey, mapE] at hs; subst hs
    simp [deserializeKey, mapE] at hd; subst hd
    rfl
  | cons e k ih =>
    rw [serializeKey, mapE_ok_iff] at hs
    cases hs with
    | @cons _ p1 _ ps h1 h2 =>
      rw [deserializeKey, mapE_ok_iff] at hd
      cases hd with
      | @cons _ e1 _ k1 g1 g2 =>
        have hrest := ih ps k1 ((mapE_ok_iff _ _ _).mpr h2) ((mapE_ok_iff _ _ _).mpr g2)
        have hcol : e1.1 = e.1 := by
          obtain ⟨c, v⟩ := e
          cases v with
          | str s =>
            simp [serializeEntry] at h1; subst h1
            simp only [deserializeEntry] at g1
            split at g1 <;> cases g1
            rfl
          | int i =>
            simp only [serializeEntry] at h1
            split at h1 <;> cases h1
            simp [deserializeEntry] at g1; subst g1; rfl
          | flt q =>
            simp [serializeEntry] at h1; subst h1
            simp [deserializeEntry] at g1; subst g1; rfl
        simp [hcol, hrest]

/-- **C07 fails for other floats**: a float that is not a single precision number never comes back. -/
theorem C07_float_not_preserved (R : SingleRounding) (col : String) (q : ℚ) (hq : ¬ Single q) :
    ∃ p, serializeKey R [(col, .flt q)] = .ok p ∧ ∃ k', deserializeKey p = .ok k' ∧
      k' ≠ [(col, .flt q)] := by
  refine ⟨_, rfl, _, rfl, ?_⟩
  intro h
  simp at h
  exact hq (h ▸ R.single q)

/-- There is no single precision number strictly between 1 and 1 + 2^-23. -/
theorem no_single_between {q : ℚ} (h : Single q) (h1 : 1 ≤ q) (h2 : q ≤ 1 + 1 / 2 ^ 23) :
    q = 1 ∨ q = 1 + 1 / 2 ^ 23 := by
  obtain ⟨m, e, hm, rfl⟩ := h
  have hpos : (0 : ℚ) < (2 : ℚ) ^ e := by positivity
  -- the exponent is at least -23
  have he : -23 ≤ e := by
    by_contra hlt
    have hle : e ≤ -24 := by omega
    have hp : (2 : ℚ) ^ e ≤ (2 : ℚ) ^ (-24 : ℤ) := zpow_le_zpow_right₀ (by norm_num) hle
    have hm' : (m : ℚ) < 2 ^ 24 := by
      have := (abs_lt.mp hm).2
      exact_mod_cast this
    have hm0 : (0 : ℚ) < m := by
      by_contra hneg
      have : (m : ℚ) * 2 ^ e ≤ 0 := mul_nonpos_of_nonpos_of_nonneg (by linarith) hpos.le
      linarith
    have : (m : ℚ) * 2 ^ e < 2 ^ 24 * (2 : ℚ) ^ (-24 : ℤ) := by
      calc (m : ℚ) * 2 ^ e < 2 ^ 24 * 2 ^ e := by
            exact mul_lt_mul_of_pos_right hm' hpos
        _ ≤ 2 ^ 24 * (2 : ℚ) ^ (-24 : ℤ) := by
            exact mul_le_mul_of_nonneg_left hp (by positivity)
    have h3 : (2 : ℚ) ^ 24 * (2 : ℚ) ^ (-24 : ℤ) = 1 := by norm_num
    rw [h3] at this
    linarith
  -- so q * 2^23 is an integer
  obtain ⟨n, hn⟩ : ∃ n : ℤ, (m : ℚ) * 2 ^ e = n / 2 ^ 23 := by
    obtain ⟨d, hd⟩ : ∃ d : ℕ, e = -23 + d := ⟨(e + 23).toNat, by omega⟩
    refine ⟨m * 2 ^ d, ?_⟩
    rw [hd, zpow_add₀ (by norm_num), zpow_natCast]
    push_cast
    norm_num
    ring
  rw [hn] at h1 h2 ⊢
  have h1' : (2 : ℚ) ^ 23 ≤ n := by
    rw [le_div_iff₀ (by positivity)] at h1; linarith
  have h2' : (n : ℚ) ≤ 2 ^ 23 + 1 := by
    rw [div_le_iff₀ (by positivity)] at h2
    have : (1 + 1 / 2 ^ 23 : ℚ) * 2 ^ 23 = 2 ^ 23 + 1 := by norm_num
    linarith
  have h1i : (2 : ℤ) ^ 23 ≤ n := by exact_mod_cast h1'
  have h2i : n ≤ 2 ^ 23 + 1 := by exact_mod_cast h2'
  have : n = 2 ^ 23 ∨ n = 2 ^ 23 + 1 := by omega
  rcases this with rfl | rfl
  · left; norm_num
  · right; norm_num

/-- **C07 fails for other floats**: whatever monotone rounding the float field uses, two different slices
are stored under the same key. -/
theorem C07_float_collision (R : SingleRounding) (col : String) :
    ∃ q q' : ℚ, q ≠ q' ∧ serializeKey R [(col, .flt q)] = serializeKey R [(col, .flt q')] := by
  have single1 : Single 1 := ⟨1, 0, by norm_num, by norm_num⟩
  have single2 : Single (1 + 1 / 2 ^ 23) := ⟨2 ^ 23 + 1, -23, by norm_num, by norm_num⟩
  have hr : ∀ q : ℚ, 1 ≤ q → q ≤ 1 + 1 / 2 ^ 23 → R.round q = 1 ∨ R.round q = 1 + 1 / 2 ^ 23 := by
    intro q h1 h2
    apply no_single_between (R.single q)
    · rw [← R.fix 1 single1]; exact R.mono _ _ h1
    · rw [← R.fix _ single2]; exact R.mono _ _ h2
  have ser : ∀ q q' : ℚ, R.round q = R.round q' →
      serializeKey R [(col, .flt q)] = serializeKey R [(col, .flt q')] := by
    intro q q' h
    simp [serializeKey, mapE, serializeEntry, h]
  have hmid := hr (1 + 1 / 2 ^ 24) (by norm_num) (by norm_num)
  rcases hmid with h | h
  · exact ⟨1 + 1 / 2 ^ 24, 1, by norm_num, ser _ _ (by rw [h, R.fix 1 single1])⟩
  · exact ⟨1 + 1 / 2 ^ 24, 1 + 1 / 2 ^ 23, by norm_num, ser _ _ (by rw [h, R.fix _ single2])⟩

/-- non-vacuity of the storable keys: a key with text, integer and float values. -/
example : ∀ e ∈ ([("a", .str "x"), ("b", .int (-7)), ("c", .flt (3 / 2))] : SliceKey),
    Storable e.2 := by
  intro e he
  simp only [List.mem_cons, List.not_mem_nil, or_false] at he
  rcases he with rfl | rfl | rfl
  · trivial
  · exact ⟨by norm_num, by norm_num⟩
  · exact ⟨3, -1, by norm_num, by norm_num⟩

/-- roundings exist, so the theorems of this section are not vacuous. -/
example : ∃ p, serializeKey truncRounding [("c", .flt (3 / 2))] = .ok p ∧
    deserializeKey p = .ok [("c", .flt (3 / 2))] :=
  C07_roundtrip_partial truncRounding _ (by
    intro e he
    simp only [List.mem_cons, List.not_mem_nil, or_false] at he
    subst he
    exact ⟨3, -1, by norm_num, by norm_num⟩)

end Slicer
end TFMA
