import Verif.Model.InPlace
import Mathlib.Tactic.Common
import Mathlib.Tactic.FieldSimp
import Mathlib.Tactic.Ring
import Mathlib.Tactic.NormNum

/-!
# C150: computing metrics does not change what other metrics see

Specification: `ownResult` is what a metric makes of the examples of a slice as they were extracted, when nothing else is computed.
-/

namespace TFMA
namespace InPlace

open MetricKeys Inputs

variable {Acc : Type}

/-- The accumulator of a metric over the examples of one slice, all as they were extracted. -/
def ownResult (part : ℕ → List Fl → List ℕ) (m : Metric Acc) (slice : ℕ) (xs : List Example) (evs : List (ℕ × ℕ)) (a : Acc) : Except Err Acc :=
  (evs.filter fun ev => ev.1 = slice).foldlM (fun a ev => match xs[ev.2]? with
    | none => .error .keyError
    | some x => addOne part m a x) a

/-- The predictions of an example are finite and add up to `t`. -/
def Sums (x : Example) (t : ℚ) : Prop := ∃ qs : List ℚ, x.prediction.data = qs.map .fin ∧ qs.sum = t

theorem total_fin (qs : List ℚ) : total (qs.map .fin) = .fin qs.sum := by
  induction qs with
  | nil => rfl
  | cons q qs ih => simp only [List.map_cons, total, ih, Fl.add, List.sum_cons]

theorem normalise_fin (s : List ℕ) (qs : List ℚ) (h : qs.sum ≠ 0) :
    normalise ⟨s, qs.map .fin⟩ = ⟨s, (qs.map (· / qs.sum)).map .fin⟩ := by
  simp only [normalise, total_fin, List.map_map, Arr.mk.injEq, true_and]
  apply List.map_congr_left
  intro q _
  simp only [Function.comp, Fl.div, if_neg h]

theorem sum_div (qs : List ℚ) (t : ℚ) : (qs.map (· / t)).sum = qs.sum / t := by
  induction qs with
  | nil => simp
  | cons q qs ih => simp only [List.map_cons, List.sum_cons, ih]; ring

theorem normalise_one (s : List ℕ) (qs : List ℚ) (h : qs.sum = 1) : normalise ⟨s, qs.map .fin⟩ = ⟨s, qs.map .fin⟩ := by
  rw [normalise_fin s qs (by rw [h]; exact one_ne_zero), h]
  simp

theorem normalise_twice (s : List ℕ) (qs : List ℚ) (h : qs.sum ≠ 0) :
    normalise (normalise ⟨s, qs.map .fin⟩) = normalise ⟨s, qs.map .fin⟩ := by
  rw [normalise_fin s qs h, normalise_one]
  rw [sum_div]; exact div_self h

/-- An example as extracted, or divided. -/
def Either (x y : Example) : Prop := y = x ∨ y = { x with prediction := normalise x.prediction }

/-- A metric does not notice whether the example has been divided. -/
def Blind (part : ℕ → List Fl → List ℕ) (m : Metric Acc) (x : Example) : Prop :=
  ∀ a, addOne part m a { x with prediction := normalise x.prediction } = addOne part m a x

theorem left_either (m : Metric Acc) {x y : Example} (hx : ∃ t, t ≠ 0 ∧ Sums x t) (h : Either x y) : Either x (left m y) := by
  unfold left
  split
  · right
    rcases h with rfl | rfl
    · rfl
    · obtain ⟨t, ht, qs, hq, hs⟩ := hx
      obtain ⟨l, ⟨s, d⟩, w⟩ := x
      subst hq
      simp only [normalise_twice s qs (hs ▸ ht)]
  · exact h

theorem addInput_spec (part : ℕ → List Fl → List ℕ) (x : Example) (hx : ∃ t, t ≠ 0 ∧ Sums x t) (ms : List (Metric Acc)) :
    ∀ (accs accs' : List Acc) (y y' : Example), Either x y → addInput part ms accs y = .ok (accs', y') → accs.length = ms.length →
    Either x y' ∧ accs'.length = ms.length ∧ ∀ (j : ℕ) (m : Metric Acc) (a : Acc), ms[j]? = some m → Blind part m x → accs[j]? = some a →
      ∃ a', accs'[j]? = some a' ∧ addOne part m a x = .ok a' := by
  induction ms with
  | nil =>
    intro accs accs' y y' he h _
    simp only [addInput, Except.ok.injEq, Prod.mk.injEq] at h
    obtain ⟨rfl, rfl⟩ := h
    exact ⟨he, rfl, fun j m a hm => by simp at hm⟩
  | cons m ms ih =>
    intro accs accs' y y' he h hl
    cases accs with
    | nil => cases hl
    | cons a accs =>
      simp only [addInput] at h
      split at h
      · cases h
      · rename_i a' ha
        split at h
        · cases h
        · rename_i as z hz
          simp only [Except.ok.injEq, Prod.mk.injEq] at h
          obtain ⟨rfl, rfl⟩ := h
          obtain ⟨h1, h2, h3⟩ := ih accs as (left m y) z (left_either m hx he) hz (Nat.succ.inj hl)
          refine ⟨h1, congrArg Nat.succ h2, fun j m' b hm hb hacc => ?_⟩
          cases j with
          | zero =>
            simp only [List.getElem?_cons_zero, Option.some.injEq] at hm hacc ⊢
            subst hm hacc
            refine ⟨a', rfl, ?_⟩
            rcases he with rfl | rfl
            · exact ha
            · rw [← hb]; exact ha
          | succ j => exact h3 j m' b hm hb hacc

theorem runEvents_spec (part : ℕ → List Fl → List ℕ) (ms : List (Metric Acc)) (xs : List Example)
    (hx : ∀ x ∈ xs, ∃ t, t ≠ 0 ∧ Sums x t) (evs : List (ℕ × ℕ)) : ∀ (st st' : State Acc),
    runEvents part ms st evs = .ok st' → (∀ s, (st.accs s).length = ms.length) → st.store.length = xs.length →
    (∀ (i : ℕ) (x y : Example), xs[i]? = some x → st.store[i]? = some y → Either x y) →
    ∀ (s j : ℕ) (m : Metric Acc) (a : Acc), ms[j]? = some m → (∀ x ∈ xs, Blind part m x) → (st.accs s)[j]? = some a →
      ∃ a', (st'.accs s)[j]? = some a' ∧ ownResult part m s xs evs a = .ok a' := by
  induction evs with
  | nil =>
    intro st st' h hl _ _ s j m a _ _ ha
    cases h
    exact ⟨a, ha, rfl⟩
  | cons ev evs ih =>
    obtain ⟨s0, e⟩ := ev
    intro st st' h hl hlen hst s j m a hm hb ha
    simp only [runEvents] at h
    split at h
    · cases h
    · rename_i st1 h1
      unfold event at h1
      split at h1
      · cases h1
      · rename_i y hy
        split at h1
        · cases h1
        · rename_i as y' hadd
          cases h1
          obtain ⟨hlt, _⟩ := List.getElem?_eq_some_iff.1 hy
          have hxe : xs[e]? = some xs[e] := List.getElem?_eq_getElem (hlen ▸ hlt)
          have hmem : xs[e] ∈ xs := List.getElem_mem _
          obtain ⟨g1, g2, g3⟩ := addInput_spec part xs[e] (hx _ hmem) ms _ _ _ _ (hst e _ _ hxe hy) hadd (hl s0)
          have hstep := ih _ st' h (fun s => ?_) (by simpa using hlen) (fun i x z hi hz => ?_) s j m
          · by_cases hs : s = s0
            · subst hs
              obtain ⟨a', h2, h3⟩ := g3 j m a hm (hb _ hmem) ha
              obtain ⟨a'', h4, h5⟩ := hstep a' hm hb (by simpa using h2)
              refine ⟨a'', h4, ?_⟩
              unfold ownResult at h5 ⊢
              rw [List.filter_cons_of_pos (by simp), List.foldlM_cons, hxe]
              simp only [h3]
              exact h5
            · obtain ⟨a'', h4, h5⟩ := hstep a hm hb (by simpa [if_neg hs] using ha)
              refine ⟨a'', h4, ?_⟩
              unfold ownResult at h5 ⊢
              rw [List.filter_cons_of_neg (by simpa using fun h => hs h.symm)]
              exact h5
          · simp only
            split
            · exact g2
            · exact hl s
          · simp only [List.getElem?_set] at hz
            split at hz
            · rename_i hie
              subst hie
              cases hz
              rw [hxe] at hi; cases hi
              exact g1
            · exact hst i x z hi hz

/-- The accumulators before any example. -/
def start (init : List Acc) (xs : List Example) : State Acc := ⟨fun _ => init, xs⟩

/-- **C150** (partial: if the predictions of every example add up to one). However many metrics are computed together and in
whatever order examples get to slices, every metric of every slice is what it is if computed alone from the examples as extracted. -/
theorem C150_probabilities_partial (part : ℕ → List Fl → List ℕ) (ms : List (Metric Acc)) (xs : List Example)
    (hx : ∀ x ∈ xs, Sums x 1) (evs : List (ℕ × ℕ)) (init : List Acc) (hi : init.length = ms.length) (st : State Acc)
    (h : runEvents part ms (start init xs) evs = .ok st) (s j : ℕ) (m : Metric Acc) (a : Acc) (hm : ms[j]? = some m)
    (ha : init[j]? = some a) : ∃ a', (st.accs s)[j]? = some a' ∧ ownResult part m s xs evs a = .ok a' := by
  refine runEvents_spec part ms xs (fun x hm => ⟨1, one_ne_zero, hx x hm⟩) evs _ _ h (fun _ => hi) rfl (fun i x y h1 h2 => ?_)
    s j m a hm (fun x hxm a => ?_) ha
  · change xs[i]? = some y at h2
    rw [h1] at h2; cases h2; exact .inl rfl
  · obtain ⟨qs, hq, hs⟩ := hx x hxm
    obtain ⟨l, ⟨sh, d⟩, w⟩ := x
    subst hq
    simp only [normalise_one sh qs hs]

theorem runEvents_pure (part : ℕ → List Fl → List ℕ) (ms : List (Metric Acc)) (hd : ∀ m ∈ ms, m.divides = true → shares m.args = false)
    (evs : List (ℕ × ℕ)) : ∀ (st st' : State Acc), runEvents part ms st evs = .ok st' → (∀ s, (st.accs s).length = ms.length) →
    st'.store = st.store ∧ ∀ (s j : ℕ) (m : Metric Acc) (a : Acc), ms[j]? = some m → (st.accs s)[j]? = some a →
      ∃ a', (st'.accs s)[j]? = some a' ∧ ownResult part m s st.store evs a = .ok a' := by
  have hleft : ∀ m ∈ ms, ∀ x, left m x = x := by
    intro m hm x
    unfold left
    cases hdv : m.divides
    · rfl
    · simp [hd m hm hdv]
  have hadd : ∀ (ms : List (Metric Acc)), (∀ m ∈ ms, ∀ x, left m x = x) → ∀ accs accs' x y, addInput part ms accs x = .ok (accs', y) →
      accs.length = ms.length → y = x ∧ accs'.length = ms.length ∧
        ∀ (j : ℕ) (m : Metric Acc) (a : Acc), ms[j]? = some m → accs[j]? = some a → ∃ a', accs'[j]? = some a' ∧ addOne part m a x = .ok a' := by
    intro ms
    induction ms with
    | nil =>
      intro _ accs accs' x y h _
      simp only [addInput, Except.ok.injEq, Prod.mk.injEq] at h
      obtain ⟨rfl, rfl⟩ := h
      exact ⟨rfl, rfl, fun j m a hm => by simp at hm⟩
    | cons m ms ih =>
      intro hlf accs accs' x y h hl
      cases accs with
      | nil => cases hl
      | cons a accs =>
        simp only [addInput] at h
        split at h
        · cases h
        · rename_i a' ha
          split at h
          · cases h
          · rename_i as z hz
            simp only [Except.ok.injEq, Prod.mk.injEq] at h
            obtain ⟨rfl, rfl⟩ := h
            rw [hlf m List.mem_cons_self] at hz
            obtain ⟨h1, h2, h3⟩ := ih (fun m hm => hlf m (List.mem_cons_of_mem _ hm)) accs as x z hz (Nat.succ.inj hl)
            refine ⟨h1, congrArg Nat.succ h2, fun j m' b hm hacc => ?_⟩
            cases j with
            | zero =>
              simp only [List.getElem?_cons_zero, Option.some.injEq] at hm hacc ⊢
              subst hm hacc
              exact ⟨a', rfl, ha⟩
            | succ j => exact h3 j m' b hm hacc
  induction evs with
  | nil =>
    intro st st' h _
    cases h
    exact ⟨rfl, fun s j m a _ ha => ⟨a, ha, rfl⟩⟩
  | cons ev evs ih =>
    obtain ⟨s0, e⟩ := ev
    intro st st' h hl
    simp only [runEvents] at h
    split at h
    · cases h
    · rename_i st1 h1
      unfold event at h1
      split at h1
      · cases h1
      · rename_i y hy
        split at h1
        · cases h1
        · rename_i as y' hadd'
          cases h1
          obtain ⟨rfl, g2, g3⟩ := hadd ms hleft _ _ _ _ hadd' (hl s0)
          have hset : st.store.set e y' = st.store := by
            obtain ⟨hlt, he⟩ := List.getElem?_eq_some_iff.1 hy
            rw [← he]; exact List.set_getElem_self hlt
          rw [hset] at h
          obtain ⟨k1, k2⟩ := ih _ st' h (fun s => by simp only; split; exacts [g2, hl s])
          refine ⟨k1, fun s j m a hm ha => ?_⟩
          by_cases hs : s = s0
          · subst hs
            obtain ⟨a', h2, h3⟩ := g3 j m a hm ha
            obtain ⟨a'', h4, h5⟩ := k2 s j m a' hm (by simpa using h2)
            refine ⟨a'', h4, ?_⟩
            unfold ownResult at h5 ⊢
            rw [List.filter_cons_of_pos (by simp), List.foldlM_cons, hy]
            simp only [h3]
            exact h5
          · obtain ⟨a'', h4, h5⟩ := k2 s j m a hm (by simpa [if_neg hs] using ha)
            refine ⟨a'', h4, ?_⟩
            unfold ownResult at h5 ⊢
            rw [List.filter_cons_of_neg (by simpa using fun h => hs h.symm)]
            exact h5

/-- **C150** (partial: without categorical cross entropy of probabilities, or with it only under sub keys). The examples are left
as they were, and every metric of every slice is what it is if computed alone, whatever the predictions. -/
theorem C150_readers_partial (part : ℕ → List Fl → List ℕ) (ms : List (Metric Acc))
    (hd : ∀ m ∈ ms, m.divides = true → ∃ s, m.args.subKey = some s ∧ (s.k ≠ none ∨ s.topK ≠ none ∨ s.classId ≠ none))
    (xs : List Example) (evs : List (ℕ × ℕ)) (init : List Acc) (hi : init.length = ms.length) (st : State Acc)
    (h : runEvents part ms (start init xs) evs = .ok st) :
    st.store = xs ∧ ∀ (s j : ℕ) (m : Metric Acc) (a : Acc), ms[j]? = some m → init[j]? = some a →
      ∃ a', (st.accs s)[j]? = some a' ∧ ownResult part m s xs evs a = .ok a' := by
  refine runEvents_pure part ms (fun m hm hdv => ?_) evs (start init xs) st h (fun _ => hi)
  obtain ⟨s, hs, hsel⟩ := hd m hm hdv
  simp only [shares, hs]
  rcases hsel with h | h | h <;> simp [Option.isSome_iff_ne_none, h]

/-! ### categorical cross entropy itself -/

theorem normalise_atLeast1 (p : Arr Fl) : atLeast1 (normalise p) = normalise (atLeast1 p) := by
  unfold atLeast1
  split
  · rename_i h; rw [if_pos (show p.shape = [] from h)]; rfl
  · rename_i h; rw [if_neg (show ¬ p.shape = [] from h)]

theorem normalise_squeeze (p : Arr Fl) : squeeze (normalise p) = normalise (squeeze p) := by
  unfold squeeze
  have hs : (normalise p).shape = p.shape := rfl
  rw [hs]
  split
  · rfl
  · simp only
    split <;> rfl

/-- What cross entropy asks of `to_label_prediction_example_weight`. -/
structure CrossEntropyArgs (a : Args) : Prop where
  subKey : a.subKey = none
  flatten : a.flatten = false
  fractional : a.fractional = false

theorem find_leaf (a : Args) (x : Example) : find a x.raw =
    if a.model = "" ∧ a.output = "" then
      .ok ⟨some x.label, some x.prediction, if !a.exampleWeighted then ⟨[], [1]⟩ else x.weight.getD ⟨[], [1]⟩⟩
    else .error .valueError := by
  obtain ⟨l, p, w⟩ := x
  unfold find
  simp only [Example.raw, optionalKey, ite_self]
  by_cases hm : a.model = ""
  · by_cases ho : a.output = ""
    · rw [if_pos ⟨hm, ho⟩]
      simp only [byName, hm, ho, if_true]
      cases a.exampleWeighted
      · rfl
      · cases w <;> rfl
    · rw [if_neg (fun h => ho h.2)]
      simp only [byName, hm, ho, if_true, if_false]
      rfl
  · rw [if_neg (fun h => hm h.1)]
    simp only [byName, hm, if_false]
    rfl

theorem process_leaf (part : ℕ → List Fl → List ℕ) (a : Args) (ha : CrossEntropyArgs a) (l : Arr ℚ) (p : Arr Fl) (w : Arr ℚ) :
    process part a ⟨some l, some p, w⟩ = match singleWeight a w with
      | .error e => .error e
      | .ok w => if a.classWeights = [] then .ok [if a.squeeze then
          ⟨squeeze (atLeast1 l), squeeze (atLeast1 p), squeeze (atLeast1 w)⟩ else ⟨atLeast1 l, atLeast1 p, atLeast1 w⟩]
        else .error .valueError := by
  obtain ⟨h1, h2, h3⟩ := ha
  have hc : checkNone a ⟨some l, some p, w⟩ = .ok () := by unfold checkNone; split <;> rfl
  unfold process
  rw [hc]
  simp only [bind, Except.bind]
  cases singleWeight a w with
  | error e => rfl
  | ok w =>
    simp only [optSubKey, h1, emit, h2, orEmpty, Bool.false_eq_true, if_false, bind, Except.bind, applyClassWeights]
    by_cases hw : a.classWeights = []
    · simp only [hw, if_true, yieldAll, h2, h3, yieldResults, Bool.not_false, Bool.true_or, Bool.false_and, Bool.false_eq_true, if_false]
      cases a.squeeze <;> rfl
    · simp only [hw, if_false, Bool.not_false, if_true]

theorem items_normalised (part : ℕ → List Fl → List ℕ) (a : Args) (ha : CrossEntropyArgs a) (x : Example) :
    toLabelPredictionWeight part a ({ x with prediction := normalise x.prediction } : Example).raw =
      (toLabelPredictionWeight part a x.raw).map fun is => is.map fun i => { i with prediction := normalise i.prediction } := by
  unfold toLabelPredictionWeight
  rw [find_leaf, find_leaf]
  by_cases h : a.model = "" ∧ a.output = ""
  · simp only [h, if_true, and_self, bind, Except.bind, process_leaf part a ha]
    cases singleWeight a _ with
    | error e => rfl
    | ok w =>
      simp only
      by_cases hw : a.classWeights = []
      · simp only [hw, if_true]
        cases a.squeeze
        · simp [Except.map, normalise_atLeast1]
        · simp [Except.map, normalise_atLeast1, normalise_squeeze]
      · simp only [hw, if_false, Except.map]
  · simp only [h, if_false, bind, Except.bind, Except.map]

theorem item_data (part : ℕ → List Fl → List ℕ) (a : Args) (ha : CrossEntropyArgs a) (x : Example) (is : List Item)
    (h : toLabelPredictionWeight part a x.raw = .ok is) : ∀ i ∈ is, i.prediction.data = x.prediction.data := by
  have hat : ∀ p : Arr Fl, (atLeast1 p).data = p.data := fun p => by unfold atLeast1; split <;> rfl
  have hsq : ∀ p : Arr Fl, (squeeze p).data = p.data := fun p => by
    unfold squeeze; split
    · rfl
    · simp only; split <;> rfl
  unfold toLabelPredictionWeight at h
  rw [find_leaf] at h
  by_cases hn : a.model = "" ∧ a.output = ""
  · simp only [hn, if_true, and_self, bind, Except.bind, process_leaf part a ha] at h
    split at h
    · cases h
    · split at h
      · cases h
        intro i hi
        cases List.mem_singleton.1 hi
        split
        · simp only [hsq, hat]
        · simp only [hat]
      · cases h
  · simp only [hn, if_false, bind, Except.bind] at h
    cases h

theorem cross_entropy_blind (part : ℕ → List Fl → List ℕ) (m : Metric Acc) (hd : m.divides = true) (ha : CrossEntropyArgs m.args)
    (x : Example) (hx : ∃ t, t ≠ 0 ∧ Sums x t) : Blind part m x := by
  intro acc
  unfold addOne
  rw [items_normalised part m.args ha x]
  cases h : toLabelPredictionWeight part m.args x.raw with
  | error e => rfl
  | ok is =>
    simp only [Except.map, List.map_map]
    congr 1
    apply List.map_congr_left
    intro i hi
    obtain ⟨t, ht, qs, hq, hs⟩ := hx
    have hdat := item_data part m.args ha x is h i hi
    obtain ⟨l, ⟨s, d⟩, w⟩ := i
    simp only at hdat
    subst hdat
    simp only [Function.comp, prepared, hd, if_true, hq, normalise_twice s qs (hs ▸ ht)]

/-- **C150** (categorical cross entropy itself). If the predictions of no example add up to zero, cross entropy is the same
whatever else is computed, in every slice and in every order. -/
theorem C150_cross_entropy (part : ℕ → List Fl → List ℕ) (ms : List (Metric Acc)) (xs : List Example)
    (hx : ∀ x ∈ xs, ∃ t, t ≠ 0 ∧ Sums x t) (evs : List (ℕ × ℕ)) (init : List Acc) (hi : init.length = ms.length) (st : State Acc)
    (h : runEvents part ms (start init xs) evs = .ok st) (s j : ℕ) (m : Metric Acc) (a : Acc) (hm : ms[j]? = some m)
    (hd : m.divides = true) (hc : CrossEntropyArgs m.args) (ha : init[j]? = some a) :
    ∃ a', (st.accs s)[j]? = some a' ∧ ownResult part m s xs evs a = .ok a' := by
  refine runEvents_spec part ms xs hx evs _ _ h (fun _ => hi) rfl (fun i x y h1 h2 => ?_) s j m a hm
    (fun x hxm => cross_entropy_blind part m hd hc x (hx x hxm)) ha
  change xs[i]? = some y at h2
  rw [h1] at h2; cases h2; exact .inl rfl

/-! ### the full claim fails -/

/-- The mean of all predictions: sum and number. -/
def meanPredictions : Metric (ℚ × ℚ) :=
  ⟨{}, false, fun a i => match i.prediction.data with
    | [.fin p] => .ok (a.1 + p, a.2 + 1)
    | _ => .error .typeError⟩

/-- Categorical cross entropy; the logarithm is left out. -/
def crossEntropy : Metric (ℚ × ℚ) :=
  ⟨{ flatten := false }, true, fun a i => match i.label.data, i.prediction.data with
    | [l₀, l₁], [.fin p₀, .fin p₁] => .ok (a.1 + l₀ * p₀ + l₁ * p₁, a.2 + 1)
    | _, _ => .error .typeError⟩

/-- One example with the scores 3 and 1. -/
def scores : List Example := [⟨⟨[2], [1, 0]⟩, ⟨[2], [.fin 3, .fin 1]⟩, none⟩]

/-- The accumulators of two slices and the predictions afterwards. -/
def outcome (ms : List (Metric (ℚ × ℚ))) : Except Err (List (ℚ × ℚ) × List (ℚ × ℚ) × List Example) :=
  (runEvents (fun _ _ => []) ms (start [(0, 0), (0, 0)] scores) [(0, 0), (1, 0)]).map fun st => (st.accs 0, st.accs 1, st.store)

/-- **C150** (full claim fails). An example with the scores 3 and 1 belongs to two slices. The mean of the predictions is 4/2 alone.
Computed together with cross entropy it is 4/2 in the first slice and 1/2 in the second if listed before, and 1/2 in both if listed
behind; the example is left with the predictions 3/4 and 1/4. -/
theorem C150_shared_predictions_fails :
    (∀ s < 2, ownResult (fun _ _ => []) meanPredictions s scores [(0, 0), (1, 0)] (0, 0) = .ok (4, 2)) ∧
    outcome [meanPredictions, crossEntropy] =
      .ok ([(4, 2), (3/4, 1)], [(1, 2), (3/4, 1)], [⟨⟨[2], [1, 0]⟩, ⟨[2], [.fin (3/4), .fin (1/4)]⟩, none⟩]) ∧
    outcome [crossEntropy, meanPredictions] =
      .ok ([(3/4, 1), (1, 2)], [(3/4, 1), (1, 2)], [⟨⟨[2], [1, 0]⟩, ⟨[2], [.fin (3/4), .fin (1/4)]⟩, none⟩]) := by
  refine ⟨?_, ?_, ?_⟩ <;> decide +kernel

/-- The hypotheses of `C150_probabilities_partial` with both metrics, and of `C150_cross_entropy`. -/
example : Sums ⟨⟨[2], [1, 0]⟩, ⟨[2], [.fin (3/4), .fin (1/4)]⟩, none⟩ 1 ∧ Sums ⟨⟨[2], [1, 0]⟩, ⟨[2], [.fin 3, .fin 1]⟩, none⟩ 4 ∧
    CrossEntropyArgs crossEntropy.args := ⟨⟨[3/4, 1/4], rfl, by norm_num⟩, ⟨[3, 1], rfl, by norm_num⟩, rfl, rfl, rfl⟩

example : (runEvents (fun _ _ => []) [crossEntropy, meanPredictions]
    (start [(0, 0), (0, 0)] [⟨⟨[2], [1, 0]⟩, ⟨[2], [.fin (3/4), .fin (1/4)]⟩, none⟩]) [(0, 0), (1, 0)]).map (fun st => st.accs 1) =
    .ok [(3/4, 1), (1, 2)] := by decide +kernel

/-- The hypothesis of `C150_readers_partial`. -/
example : ∃ s, ({ subKey := some ⟨some 1, none, none⟩, flatten := false } : Args).subKey = some s ∧
    (s.k ≠ none ∨ s.topK ≠ none ∨ s.classId ≠ none) := ⟨_, rfl, .inr (.inr (by simp))⟩

end InPlace
end TFMA
