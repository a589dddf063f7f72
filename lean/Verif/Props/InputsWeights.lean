import Verif.Props.InputsFlow

/-!
# C59–C61: class weights, completeness, isolation of models and outputs
-/

namespace TFMA
namespace Inputs

open MetricKeys

variable {α : Type} {part : ℕ → List Fl → List ℕ}

/-! ### Lists of examples of one value -/

/-- Examples of one value each. -/
def triples (ls : List ℚ) (ps : List Fl) (ws : List ℚ) : List Item :=
  List.zipWith (fun (l : ℚ) (pw : Fl × ℚ) => ⟨one l, one pw.1, one pw.2⟩) ls (ps.zip ws)

private theorem zip3_eq (ls : List ℚ) (ps : List Fl) (ws : List ℚ) : zip3 ls ps ws = triples ls ps ws := by
  induction ls generalizing ps ws with
  | nil => cases ps <;> cases ws <;> simp [zip3, triples]
  | cons l ls ih =>
    cases ps with
    | nil => simp [zip3, triples]
    | cons p ps =>
      cases ws with
      | nil => simp [zip3, triples]
      | cons w ws =>
        simp only [zip3, triples, List.zip_cons_cons, List.zipWith_cons_cons]
        rw [ih]
        rfl

private theorem triples_data (ls : List ℚ) (ps : List Fl) (ws : List ℚ) (h1 : ls.length = ps.length)
    (h2 : ps.length = ws.length) :
    ((triples ls ps ws).flatMap fun x => x.label.data) = ls ∧
    ((triples ls ps ws).flatMap fun x => x.prediction.data) = ps ∧
    ((triples ls ps ws).flatMap fun x => x.weight.data) = ws := by
  induction ls generalizing ps ws with
  | nil =>
    have : ps = [] := List.length_eq_zero_iff.1 h1.symm
    subst this
    have : ws = [] := List.length_eq_zero_iff.1 h2.symm
    subst this
    simp [triples]
  | cons l ls ih =>
    cases ps with
    | nil => simp at h1
    | cons p ps =>
      cases ws with
      | nil => simp at h2
      | cons w ws =>
        obtain ⟨a, b, c⟩ := ih ps ws (by simpa using h1) (by simpa using h2)
        simp only [triples, List.zip_cons_cons, List.zipWith_cons_cons, List.flatMap_cons, one] at a b c ⊢
        rw [a, b, c]
        simp

/-! ### C60 -/

private theorem squeeze_data (a : Arr α) : (squeeze a).data = a.data := by
  unfold squeeze
  split
  · rfl
  · simp only; split <;> rfl

private theorem zipWith_label (l : Arr ℚ) (ps : List Fl) (ws : List ℚ) (h : ps.length = ws.length) :
    ((List.zipWith (fun x y => (⟨l, one x, one y⟩ : Item)) ps ws).flatMap fun x => x.prediction.data) = ps ∧
    ((List.zipWith (fun x y => (⟨l, one x, one y⟩ : Item)) ps ws).flatMap fun x => x.weight.data) = ws := by
  induction ps generalizing ws with
  | nil => have : ws = [] := List.length_eq_zero_iff.1 h.symm
           subst this; simp
  | cons p ps ih =>
    cases ws with
    | nil => simp at h
    | cons w ws =>
      obtain ⟨a, b⟩ := ih ws (by simpa using h)
      simp only [List.zipWith_cons_cons, List.flatMap_cons, one] at a b ⊢
      rw [a, b]; simp

private theorem zipWith_pred (p : Arr Fl) (ls : List ℚ) (ws : List ℚ) (h : ls.length = ws.length) :
    ((List.zipWith (fun x y => (⟨one x, p, one y⟩ : Item)) ls ws).flatMap fun x => x.label.data) = ls ∧
    ((List.zipWith (fun x y => (⟨one x, p, one y⟩ : Item)) ls ws).flatMap fun x => x.weight.data) = ws := by
  induction ls generalizing ws with
  | nil => have : ws = [] := List.length_eq_zero_iff.1 h.symm
           subst this; simp
  | cons p ps ih =>
    cases ws with
    | nil => simp at h
    | cons w ws =>
      obtain ⟨a, b⟩ := ih ws (by simpa using h)
      simp only [List.zipWith_cons_cons, List.flatMap_cons, one] at a b ⊢
      rw [a, b]; simp

private theorem oneHot_size (t : Arr ℚ) (s : List ℕ) (r : Arr ℚ) (h : oneHot t s = .ok r) : r.data.length = s.prod := by
  unfold oneHot at h
  split at h
  · cases h
  · split at h
    · cases h
    · unfold Arr.reshape at h
      split at h
      · rename_i h'
        cases h
        exact h'
      · cases h

private theorem yield_complete (sq : Bool) (l : Arr ℚ) (p : Arr Fl) (w : Arr ℚ) (hp : p.WF)
    (hw : w.data.length = if p.size = 0 then l.size else p.size) (items : List Item)
    (h : yieldResults true sq l p w = .ok items) :
    (p.size ≠ 0 → (items.flatMap fun x => x.prediction.data) = p.data) ∧
    (l.size ≠ 0 → (p.size = 0 ∨ l.size = p.size) → (items.flatMap fun x => x.label.data) = l.data) ∧
    (items.flatMap fun x => x.weight.data) = w.data := by
  unfold yieldResults at h
  split at h
  · split at h <;> cases h <;> simp [squeeze_data]
  · split at h
    · rename_i h0 h1
      have hp0 : p.size ≠ 0 := by
        intro h2
        apply h0
        simp [h1, h2]
      rw [if_neg hp0] at hw
      cases h
      have := zipWith_label l p.data w.data hw.symm
      refine ⟨fun _ => this.1, fun h => absurd h1 h, this.2⟩
    · split at h
      · rename_i h0 h1 h2
        rw [if_pos h2] at hw
        cases h
        have := zipWith_pred p l.data w.data hw.symm
        exact ⟨fun h => absurd h2 h, fun _ _ => this.1, this.2⟩
      · split at h
        · rename_i h0 h1 h2 h3
          cases h
          rw [zip3_eq]
          have := triples_data l.data p.data w.data h3.1 (by have := h3.1; have := h3.2; simp only [Arr.size] at *; omega)
          exact ⟨fun _ => this.2.1, fun _ _ => this.1, this.2.2⟩
        · split at h
          · rename_i h0 h1 h2 h3 h4
            cases hq : oneHot l p.shape with
            | error e => rw [hq] at h; cases h
            | ok r =>
              rw [hq] at h
              cases h
              rw [zip3_eq]
              have hr := oneHot_size l p.shape r hq
              unfold Arr.WF at hp
              have := triples_data r.data p.data w.data (by rw [hr, hp]) h4.2
              refine ⟨fun _ => this.2.1, fun _ h5 => ?_, this.2.2⟩
              exfalso
              rcases h5 with h5 | h5
              · exact h2 h5
              · exact h3 ⟨h5, by have := h4.2; omega⟩
          · cases h

/-- One weight per value: a single weight counts for every value. -/
def spread (w : List ℚ) (n : ℕ) : List ℚ := match w with
  | [x] => List.replicate n x
  | w => w

private theorem atLeast1_WF (a : Arr α) (h : a.WF) : (atLeast1 a).WF := by
  unfold atLeast1
  split
  · rename_i h0; unfold Arr.WF at h ⊢; simpa [h0] using h
  · exact h

private theorem flattenWeights_spec (n : ℕ) (w v : Arr ℚ) (h : flattenWeights n w = .ok v) :
    v.data = spread w.data n ∧ v.data.length = n := by
  unfold flattenWeights at h
  split at h
  · rename_i x hx
    cases h
    simp [spread, hx]
  · rename_i d hd
    split at h
    · cases h
    · rename_i hl
      cases h
      refine ⟨?_, by simpa using hl⟩
      unfold spread
      split
      · rename_i x hx
        exact absurd hx (hd x)
      · rfl

/-- C60: flattening never drops, repeats or reorders anything.  For every successful call without sub key and class
weights the predictions of the tuples are the given predictions, the labels are the given labels (if there is one for
each prediction, or no prediction at all), and the weights are the given weights, one per value. -/
theorem C60_complete (a : Args) (hs : a.specs = []) (hm : a.model = "") (ho : a.output = "")
    (he : a.exampleWeighted = true) (hf : a.flatten = true) (hk : a.subKey = none) (hr : a.fractional = false)
    (hsw : a.singleWeight = false) (hc : a.classWeights = []) (l : Arr ℚ) (p : Arr Fl) (w : Arr ℚ) (hp : p.WF)
    (items : List Item) (h : toLabelPredictionWeight part a (raw l p w) = .ok items) :
    (p.size ≠ 0 → (items.flatMap fun x => x.prediction.data) = p.data) ∧
    (l.size ≠ 0 → (p.size = 0 ∨ l.size = p.size) → (items.flatMap fun x => x.label.data) = l.data) ∧
    (items.flatMap fun x => x.weight.data) = spread w.data (if p.size = 0 then l.size else p.size) := by
  rw [toLPW_raw part a hs hm ho he] at h
  have hcn : checkNone a ⟨some l, some p, w⟩ = .ok () := by unfold checkNone; split <;> rfl
  have hos : optSubKey part a ⟨some l, some p, w⟩ = .ok (some l, some p) := by
    unfold optSubKey; rw [hk]
  simp only [process, hcn, singleWeight, hsw, hos, bind, Except.bind, Bool.false_and, Bool.false_eq_true, if_false] at h
  simp only [emit, hf, if_true, orEmpty, atLeast1_size, hc, applyClassWeights] at h
  cases hw : flattenWeights (if p.size = 0 then l.size else p.size) (atLeast1 w) with
  | error e => rw [hw] at h; cases h
  | ok v =>
    rw [hw] at h
    simp only [bind, Except.bind, yieldAll, hr, hf, Bool.false_and, Bool.false_eq_true, if_false] at h
    cases hy : yieldResults true a.squeeze (atLeast1 l) (atLeast1 p) v with
    | error e => rw [hy] at h; cases h
    | ok its =>
      rw [hy] at h
      cases h
      have hv := flattenWeights_spec _ _ _ hw
      have := yield_complete a.squeeze (atLeast1 l) (atLeast1 p) v (atLeast1_WF p hp)
        (by rw [atLeast1_size, atLeast1_size]; exact hv.2) _ hy
      simp only [atLeast1_size, atLeast1_data] at this hv
      rw [hv.1] at this
      exact this

private theorem classWeights_size (cw : Dict ℤ ℚ) (n : ℕ) (w v : Arr ℚ) (h : applyClassWeights cw true n w = .ok v) :
    v.data.length = w.data.length := by
  unfold applyClassWeights at h
  split_ifs at h
  · cases h; rfl
  · split at h
    · cases h; simp
    · cases h

/-- C60: every example yields at least one tuple, with or without flattening and class weights (no sub key, no fractional labels). -/
theorem C60_nonempty (a : Args) (hs : a.specs = []) (hm : a.model = "") (ho : a.output = "") (he : a.exampleWeighted = true)
    (hk : a.subKey = none) (hr : a.fractional = false) (l : Arr ℚ) (p : Arr Fl) (w : Arr ℚ) (hp : p.WF)
    (items : List Item) (h : toLabelPredictionWeight part a (raw l p w) = .ok items) : items ≠ [] := by
  rw [toLPW_raw part a hs hm ho he] at h
  have hos : ∀ w, optSubKey part a ⟨some l, some p, w⟩ = .ok (some l, some p) := by
    intro w; unfold optSubKey; rw [hk]
  simp only [process, hos, bind, Except.bind] at h
  split at h
  · cases h
  split at h
  · cases h
  have yields : ∀ (v : Arr ℚ) (items : List Item), yieldAll a (atLeast1 l) (atLeast1 p) v = .ok items →
      yieldResults a.flatten a.squeeze (atLeast1 l) (atLeast1 p) v = .ok items := by
    intro v items h
    unfold yieldAll at h
    simp only [hr, bind, Except.bind, Bool.false_and, Bool.false_eq_true, if_false] at h
    split at h
    · cases h
    · rename_i items' hi; cases h; exact hi
  cases hf : a.flatten with
  | false =>
    simp only [emit, orEmpty, hf, Bool.false_eq_true, if_false, bind, Except.bind] at h
    split at h
    · cases h
    have hi := yields _ _ h
    rw [hf] at hi
    unfold yieldResults at hi
    simp only [Bool.not_false, Bool.true_or, if_true] at hi
    split at hi <;> cases hi <;> simp
  | true =>
    simp only [emit, orEmpty, hf, if_true, bind, Except.bind] at h
    split at h
    · cases h
    rename_i u hu
    split at h
    · cases h
    rename_i v hv
    have hi := yields _ _ h
    rw [hf] at hi
    have hlen : v.data.length = if (atLeast1 p).size = 0 then (atLeast1 l).size else (atLeast1 p).size :=
      (classWeights_size _ _ _ _ (by simpa only [hf] using hv)).trans (flattenWeights_spec _ _ _ hu).2
    obtain ⟨h1, h2, -⟩ := yield_complete a.squeeze _ _ v (atLeast1_WF p hp) hlen items hi
    rw [atLeast1_size, atLeast1_data] at h1
    rw [atLeast1_size, atLeast1_size, atLeast1_data] at h2
    rintro rfl
    by_cases hp0 : p.size = 0
    · by_cases hl0 : l.size = 0
      · unfold yieldResults at hi
        simp only [atLeast1_size, hp0, hl0, and_self, decide_true, Bool.or_true, Bool.true_or, if_true] at hi
        split at hi <;> cases hi
      · have := h2 hl0 (.inl hp0)
        exact hl0 (by simp [Arr.size, ← this])
    · have := h1 hp0
      exact hp0 (by simp [Arr.size, ← this])

/-- C60 (negation): the example weight is documented to be never empty; without label and prediction it is. -/
theorem C60_empty_weight :
    toLabelPredictionWeight part { allowNone := true } ⟨.leaf none, .leaf none, .leaf none⟩ =
      .ok [⟨⟨[0], []⟩, ⟨[0], []⟩, ⟨[0], []⟩⟩] := rfl

/-- Weights given per value. -/
example (part) : toLabelPredictionWeight part weighted (raw ⟨[2], [0, 1]⟩ ⟨[2], [.fin 3, .fin 4]⟩ ⟨[2], [5, 6]⟩) =
    .ok [⟨one 0, one (.fin 3), one 5⟩, ⟨one 1, one (.fin 4), one 6⟩] := by rfl

/-! ### C59 -/

/-- Class weight of position `i`; 0.0 if not listed. -/
def classWeight (cw : Dict ℤ ℚ) (i : ℕ) : ℚ := (Dict.get? cw (i : ℤ)).getD 0

private theorem weights_eq (cw : Dict ℤ ℚ) (hcw : cw ≠ []) (n : ℕ) (w : ℚ) :
    applyClassWeights cw true n ⟨[n], List.replicate n w⟩ =
      .ok ⟨[n], (List.range n).map fun i => w * classWeight cw i⟩ := by
  unfold applyClassWeights
  rw [if_neg hcw]
  simp only [Bool.not_true, Bool.false_eq_true, if_false]
  congr 2
  apply List.ext_getElem
  · simp
  · intro i h1 h2
    simp only [List.getElem_map, List.getElem_zipIdx, List.getElem_replicate, List.getElem_range, classWeight,
      Nat.zero_add]
    cases Dict.get? cw (i : ℤ) <;> simp

private theorem process_cw (cw : Dict ℤ ℚ) (l : Arr ℚ) (p : Arr Fl) (w : Arr ℚ) :
    process part { weighted with classWeights := cw } ⟨some l, some p, w⟩ =
      emit { weighted with classWeights := cw } (some l, some p) w := rfl

/-- C59, one example with dense labels: the binary example of class `i` has the weight of the example times the class
weight, 0.0 if the class is not listed. -/
theorem C59_dense (cw : Dict ℤ ℚ) (hcw : cw ≠ []) (ws : List ℕ) (w : ℚ) (n : ℕ) (hn : 2 ≤ n) (ls : List ℚ)
    (ps : List Fl) (hl : ls.length = n) (hp : ps.length = n) :
    toLabelPredictionWeight part { weighted with classWeights := cw } (raw ⟨[n], ls⟩ ⟨[n], ps⟩ ⟨ws, [w]⟩) =
      .ok (triples ls ps ((List.range n).map fun i => w * classWeight cw i)) := by
  rw [toLPW_raw part _ rfl rfl rfl rfl, process_cw]
  have h1 : atLeast1 (⟨[n], ls⟩ : Arr ℚ) = ⟨[n], ls⟩ := by unfold atLeast1; rw [if_neg (by simp)]
  have h2 : atLeast1 (⟨[n], ps⟩ : Arr Fl) = ⟨[n], ps⟩ := by unfold atLeast1; rw [if_neg (by simp)]
  have hsz : Arr.size (⟨[n], ps⟩ : Arr Fl) = n := hp
  have hsl : Arr.size (⟨[n], ls⟩ : Arr ℚ) = n := hl
  have hw : flattenWeights n (atLeast1 ⟨ws, [w]⟩) = .ok ⟨[n], List.replicate n w⟩ := by
    unfold flattenWeights; rw [atLeast1_data]
  have hy : yieldResults true true ⟨[n], ls⟩ ⟨[n], ps⟩ ⟨[n], (List.range n).map fun i => w * classWeight cw i⟩ =
      .ok (triples ls ps ((List.range n).map fun i => w * classWeight cw i)) := by
    unfold yieldResults
    have hsw : Arr.size (⟨[n], (List.range n).map fun i => w * classWeight cw i⟩ : Arr ℚ) = n := by simp [Arr.size]
    rw [hsz, hsl, hsw, if_neg (by simp; omega), if_neg (by omega), if_neg (by omega), if_pos ⟨rfl, rfl⟩, zip3_eq]
  have hn0 : ¬ n = 0 := by omega
  simp only [emit, weighted, if_true, orEmpty, h1, h2, hsz, hn0, if_false, hw, bind, Except.bind, Bool.false_eq_true,
    weights_eq cw hcw, yieldAll, hy, Bool.false_and]
  rfl

/-- C59, one example with a sparse label. -/
theorem C59_sparse (cw : Dict ℤ ℚ) (hcw : cw ≠ []) (ws : List ℕ) (w : ℚ) (n : ℕ) (hn : 2 ≤ n) (c : ℤ)
    (hc : -1 ≤ c ∧ c < n) (ps : List Fl) (hp : ps.length = n) :
    toLabelPredictionWeight part { weighted with classWeights := cw } (raw ⟨[1], [(c : ℚ)]⟩ ⟨[n], ps⟩ ⟨ws, [w]⟩) =
      .ok (triples (hot n c) ps ((List.range n).map fun i => w * classWeight cw i)) := by
  rw [toLPW_raw part _ rfl rfl rfl rfl, process_cw]
  have h1 : atLeast1 (⟨[1], [(c : ℚ)]⟩ : Arr ℚ) = ⟨[1], [(c : ℚ)]⟩ := by unfold atLeast1; rw [if_neg (by simp)]
  have h2 : atLeast1 (⟨[n], ps⟩ : Arr Fl) = ⟨[n], ps⟩ := by unfold atLeast1; rw [if_neg (by simp)]
  have hsz : Arr.size (⟨[n], ps⟩ : Arr Fl) = n := hp
  have hsl : Arr.size (⟨[1], [(c : ℚ)]⟩ : Arr ℚ) = 1 := rfl
  have hw : flattenWeights n (atLeast1 ⟨ws, [w]⟩) = .ok ⟨[n], List.replicate n w⟩ := by
    unfold flattenWeights; rw [atLeast1_data]
  have ho : oneHot ⟨[1], [(c : ℚ)]⟩ [n] = .ok ⟨[n], hot n c⟩ := by
    have := C28_one_hot_partial [1] [c] [] n rfl (by simpa using hc)
    simpa using this
  have hy : yieldResults true true ⟨[1], [(c : ℚ)]⟩ ⟨[n], ps⟩ ⟨[n], (List.range n).map fun i => w * classWeight cw i⟩ =
      .ok (triples (hot n c) ps ((List.range n).map fun i => w * classWeight cw i)) := by
    unfold yieldResults
    have hsw : Arr.size (⟨[n], (List.range n).map fun i => w * classWeight cw i⟩ : Arr ℚ) = n := by simp [Arr.size]
    rw [hsz, hsl, hsw, if_neg (by simp; omega), if_neg (by omega), if_neg (by omega), if_neg (by omega),
      if_pos ⟨rfl, rfl⟩, ho]
    simp only [zip3_eq]
    rfl
  have hn0 : ¬ n = 0 := by omega
  simp only [emit, weighted, if_true, orEmpty, h1, h2, hsz, hn0, if_false, hw, bind, Except.bind, Bool.false_eq_true,
    weights_eq cw hcw, yieldAll, hy, Bool.false_and]
  rfl

/-- C59 (negation): for several rows of predictions the class weights are looked up by position in the flattened array,
not by class: with the class weight {1: 1} the second row, whose classes are 0 and 1 too, gets weight 0 everywhere. -/
theorem C59_batch_by_position :
    toLabelPredictionWeight part { weighted with classWeights := [(1, 1)] }
        (raw ⟨[2, 2], [0, 1, 0, 1]⟩ ⟨[2, 2], [.fin 1, .fin 2, .fin 3, .fin 4]⟩ ⟨[], [1]⟩) =
      .ok [⟨one 0, one (.fin 1), one 0⟩, ⟨one 1, one (.fin 2), one 1⟩,
        ⟨one 0, one (.fin 3), one 0⟩, ⟨one 1, one (.fin 4), one 0⟩] := by
  rw [toLPW_raw part _ rfl rfl rfl rfl, process_cw]
  decide +kernel

/-- C59: class weights without flattening are an error. -/
theorem C59_needs_flatten (cw : Dict ℤ ℚ) (hcw : cw ≠ []) (l : Arr ℚ) (p : Arr Fl) (w : Arr ℚ) :
    toLabelPredictionWeight part { weighted with classWeights := cw, flatten := false } (raw l p w) =
      .error .valueError := by
  rw [toLPW_raw part _ rfl rfl rfl rfl]
  simp [process, weighted, checkNone, singleWeight, optSubKey, emit, applyClassWeights, hcw, bind, Except.bind]

/-! ### C61 -/

/-- The two values agree on the entry of `name` (a dictionary entry that is there and not an empty dictionary), or
altogether. -/
def SameFor {β : Type} (name : String) (t t' : Tree β) : Prop :=
  t = t' ∨ ∃ f f' e, t = .node f ∧ t' = .node f' ∧ f.find? name = some e ∧ f'.find? name = some e ∧ e ≠ .node .nil

private theorem not_empty {β : Type} {e : Tree β} (h : e ≠ .node .nil) : isEmptyNode e = false := by
  cases e with
  | leaf a => rfl
  | node f => cases f with
    | nil => exact absurd rfl h
    | cons k t r => rfl

private theorem optional_same {β : Type} {name : String} {t t' : Tree β} (h : SameFor name t t') :
    optionalKey t name = optionalKey t' name := by
  rcases h with rfl | ⟨f, f', e, rfl, rfl, h1, h2, h3⟩
  · rfl
  · simp [optionalKey, getByKey, h1, h2, not_empty h3]

private theorem require_same {β : Type} {name : String} {t t' : Tree β} (h : SameFor name t t') :
    requireKey t name = requireKey t' name := by
  rcases h with rfl | ⟨f, f', e, rfl, rfl, h1, h2, h3⟩
  · rfl
  · simp [requireKey, getByKey, h1, h2, not_empty h3]

private theorem byName_same {name : String} (hn : name ≠ "") {r r' : Raw} (hl : SameFor name r.label r'.label)
    (hp : SameFor name r.prediction r'.prediction) (hw : SameFor name r.weight r'.weight) :
    byName name r = byName name r' := by
  unfold byName
  rw [if_neg hn, if_neg hn]
  have h1 : isNoneLeaf r.prediction = isNoneLeaf r'.prediction := by
    rcases hp with h | ⟨f, f', e, h, h', -⟩
    · rw [h]
    · rw [h, h']; rfl
  by_cases h : isNoneLeaf r.prediction = true
  · have h' : isNoneLeaf r'.prediction = true := by rw [← h1]; exact h
    have hpe : r.prediction = r'.prediction := by
      rcases hp with hp | ⟨f, f', e, hf, hf', -⟩
      · exact hp
      · rw [hf] at h; cases h
    simp only [h, h', if_true, hpe, optional_same hl, optional_same hw]
  · have h' : ¬ isNoneLeaf r'.prediction = true := by rw [← h1]; exact h
    rw [if_neg h, if_neg h', require_same hp, optional_same hl, optional_same hw]

private theorem specKeys_label (specs : List ModelSpec) (m : String) (h : ∀ s ∈ specs, s.labelKey = "") :
    (specKeys specs m).2 = "" := by
  unfold specKeys
  split
  · rename_i s hs
    exact h s (List.mem_of_find?_eq_some hs)
  · rfl

/-- C61: what a metric of one model sees depends only on the entries of that model; labels, predictions and weights of
other models have no influence. -/
theorem C61_models (a : Args) (hm : a.model ≠ "") (hs : ∀ s ∈ a.specs, s.labelKey = "") (r r' : Raw)
    (hl : SameFor a.model r.label r'.label) (hp : SameFor a.model r.prediction r'.prediction)
    (hw : SameFor a.model r.weight r'.weight) :
    toLabelPredictionWeight part a r = toLabelPredictionWeight part a r' := by
  unfold toLabelPredictionWeight find
  have := specKeys_label a.specs a.model hs
  simp only [this, if_true]
  rw [byName_same hm hl hp hw]

/-- C61: the same for the outputs of a single model. -/
theorem C61_outputs (a : Args) (hm : a.model = "") (ho : a.output ≠ "") (hs : ∀ s ∈ a.specs, s.labelKey = "")
    (r r' : Raw) (hl : SameFor a.output r.label r'.label) (hp : SameFor a.output r.prediction r'.prediction)
    (hw : SameFor a.output r.weight r'.weight) :
    toLabelPredictionWeight part a r = toLabelPredictionWeight part a r' := by
  unfold toLabelPredictionWeight find
  have := specKeys_label a.specs a.model hs
  have h0 (x : Raw) : byName a.model x = .ok x := by unfold byName; rw [if_pos hm]
  simp only [this, if_true, h0]
  have h := byName_same ho hl hp hw
  have e (x : Raw) : (⟨x.label, x.prediction, x.weight⟩ : Raw) = x := rfl
  simp only [bind, Except.bind, e] at h ⊢
  rw [h]

private theorem toList_slash (key k : String) : (key ++ "/" ++ k).toList = key.toList ++ '/' :: k.toList := by
  simp [String.toList_append]

private theorem find?_prefixMatches {β : Type} (key k : String) (f : Forest β) :
    (prefixMatches key f).find? k = f.find? (key ++ "/" ++ k) := by
  match f with
  | .nil => rfl
  | .cons q t rest =>
    have ih := find?_prefixMatches key k rest
    unfold prefixMatches
    by_cases hp : (key ++ "/").toList.isPrefixOf q.toList = true
    · rw [if_pos hp]
      obtain ⟨tail, htail⟩ := List.isPrefixOf_iff_prefix.mp hp
      have hq : q.toList = key.toList ++ '/' :: tail := by rw [← htail]; simp [String.toList_append]
      have hdrop : q.toList.drop (key.length + 1) = tail := by
        rw [hq, ← String.length_toList, List.drop_append]
        simp
      have hiff : String.ofList (q.toList.drop (key.length + 1)) = k ↔ q = key ++ "/" ++ k := by
        rw [hdrop]
        constructor
        · rintro rfl
          apply String.toList_injective
          rw [toList_slash, hq, String.toList_ofList]
        · rintro rfl
          apply String.toList_injective
          rw [String.toList_ofList]
          rw [toList_slash] at hq
          simpa using hq.symm
      simp only [Forest.find?, ih]
      by_cases he : q = key ++ "/" ++ k
      · rw [if_pos he, if_pos (hiff.mpr he)]
      · rw [if_neg he, if_neg (fun h => he (hiff.mp h))]
    · rw [if_neg hp, ih]
      have he : q ≠ key ++ "/" ++ k := by
        rintro rfl
        apply hp
        rw [List.isPrefixOf_iff_prefix]
        exact ⟨k.toList, by simp [String.toList_append]⟩
      simp only [Forest.find?, if_neg he]

/-- C61: a model without predictions is an error, not another model's predictions. -/
theorem C61_missing (a : Args) (hm : a.model ≠ "") (r : Raw) (f : Forest (Option (Arr Fl)))
    (hp : r.prediction = .node f) (h1 : a.model ∉ f.keys) (h2 : ∀ rest, a.model ++ "/" ++ rest ∉ f.keys) :
    toLabelPredictionWeight part a r = .error .valueError := by
  have h0 : f.find? a.model = none := (Forest.find?_eq_none_iff f a.model).2 h1
  have h3 : prefixMatches a.model f = .nil := by
    cases hg : prefixMatches a.model f with
    | nil => rfl
    | cons k t g =>
      have := find?_prefixMatches a.model k f
      rw [hg, (Forest.find?_eq_none_iff f _).2 (h2 k)] at this
      simp [Forest.find?] at this
  unfold toLabelPredictionWeight find
  simp only [byName, hm, hp, isNoneLeaf, requireKey, getByKey, h0, h3, if_false, bind, Except.bind, Bool.false_eq_true]

/-- C61: predictions named `model/output` are those of the output of the model: they are treated like nested predictions. -/
theorem C61_slash (a : Args) (hm : a.model ≠ "") (ho : a.output ≠ "") (r : Raw) (f : Forest (Option (Arr Fl)))
    (hp : r.prediction = .node f) (h1 : a.model ∉ f.keys) (t : Tree (Option (Arr Fl)))
    (ht : f.find? (a.model ++ "/" ++ a.output) = some t) :
    toLabelPredictionWeight part a r = toLabelPredictionWeight part a
      { r with prediction := .node (.cons a.model (.node (.cons a.output t .nil)) .nil) } := by
  have h0 : f.find? a.model = none := (Forest.find?_eq_none_iff f a.model).2 h1
  have hf := find?_prefixMatches a.model a.output f
  rw [ht] at hf
  unfold toLabelPredictionWeight find
  cases hg : prefixMatches a.model f with
  | nil => rw [hg] at hf; simp [Forest.find?] at hf
  | cons k u g =>
    rw [hg] at hf
    have e1 : (Forest.cons a.model (.node (.cons a.output t .nil)) .nil).find? a.model = some (.node (.cons a.output t .nil)) := by
      simp [Forest.find?]
    have e2 : (Forest.cons a.output t .nil).find? a.output = some t := by simp [Forest.find?]
    simp only [byName, hm, ho, hp, isNoneLeaf, requireKey, getByKey, h0, hg, if_false, bind, Except.bind, Bool.false_eq_true, hf,
      isEmptyNode, pure, Except.pure, e1, e2]

example (part) : toLabelPredictionWeight part { model := "m", output := "o" }
      ⟨.leaf (some (one 1)), .node (.cons "k/o" (.leaf (some (one (.fin 1)))) (.cons "m/o" (.leaf (some (one (.fin 2)))) .nil)),
        .leaf none⟩ = .ok [⟨one 1, one (.fin 2), one 1⟩] := by
  rfl

/-- Two models with predictions 1 and 2. -/
example (part) : toLabelPredictionWeight part { model := "m" }
      ⟨.leaf (some (one 1)), .node (.cons "k" (.leaf (some (one (.fin 1)))) (.cons "m" (.leaf (some (one (.fin 2)))) .nil)),
        .leaf none⟩ = .ok [⟨one 1, one (.fin 2), one 1⟩] := by
  rfl

end Inputs
end TFMA
