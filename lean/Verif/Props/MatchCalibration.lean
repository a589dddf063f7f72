import Verif.Props.Combiners

/-!
# C51, C52: what exact match, mean label, mean prediction and calibration measure
-/

namespace TFMA
namespace Combiners

open Beam

/-! ### C51: exact match -/

/-- The full claim of C51 for one example: it counts as a match exactly when prediction and label are equal. -/
def ExactMatchSound (β : Type) [DecidableEq β] : Prop :=
  ∀ label pred : List β, matchScore label pred = if pred = label then 1 else 0

/-- C51 for examples whose prediction and label have the same number of entries: over any bundling the metric is
the weighted share of the examples with equal prediction and label.
Missing: examples of different lengths (`C51_prefix_counts_as_match`) and total weight zero
(`C51_zero_weight_raises`). -/
theorem C51_exact_match_partial {β : Type} [DecidableEq β] (data : List (List (MatchExample β)))
    (s : Sched _) (p : s.inputs.Perm (data.map .ok))
    (hlen : ∀ ts ∈ data, ∀ t ∈ ts, t.label.length = t.pred.length)
    (hw : ((data.flatten).map fun t => t.weight).sum ≠ 0) :
    ((matchCombiner.run s).bind matchExtract).toOption =
      some (((data.flatten.filter fun t => decide (t.pred = t.label)).map fun t => t.weight).sum /
        (data.flatten.map fun t => t.weight).sum) := by
  have h := C15_exact_match_value (data.map .ok) s p (by
    intro ts hts t ht
    simp only [List.mem_map, Except.ok.injEq, exists_eq_right] at hts
    exact hlen ts hts t ht)
  have hf : allFlat (data.map (Except.ok (ε := Err))) = some data.flatten := by
    clear h hlen hw p s
    induction data with
    | nil => rfl
    | cons x xs ih => simp only [List.map_cons, allFlat, ih, List.flatten_cons]
  rw [hf] at h
  cases hr : matchCombiner.run s with
  | error er => rw [hr] at h; simp [Except.toOption] at h
  | ok a =>
    rw [hr] at h
    simp only [Except.toOption, Option.map_some, Option.some.injEq] at h
    subst h
    simp only [Except.bind, matchExtract, if_neg hw, Except.toOption]

/-- Non-vacuous: two examples of weight 1 and 3, the heavier one matches. -/
example : ((matchCombiner.run (.merge (.cons (.bundle [.ok [⟨["a", "b"], ["a", "b"], 3⟩]])
    (.one (.bundle [.ok [⟨["a", "b"], ["b", "a"], 1⟩]]))))).bind matchExtract).toOption = some (3 / 4) := by
  decide +kernel

/-- C51, what is counted in general: a prediction counts as a match exactly when it is a prefix of the label or
the label is a prefix of it. -/
theorem C51_match_iff_prefix {β : Type} [DecidableEq β] (label pred : List β) :
    matchScore label pred = if pred <+: label ∨ label <+: pred then 1 else 0 := by
  unfold matchScore
  congr 1
  simp only [eq_iff_iff]
  induction pred generalizing label with
  | nil => simp
  | cons x q ih =>
    cases label with
    | nil => simp
    | cons y l =>
      simp only [List.zip_cons_cons, List.all_cons, Bool.and_eq_true, decide_eq_true_eq, List.cons_prefix_cons]
      rw [ih l]
      constructor
      · rintro ⟨rfl, h⟩; rcases h with h | h
        · exact .inl ⟨rfl, h⟩
        · exact .inr ⟨rfl, h⟩
      · rintro (⟨rfl, h⟩ | ⟨rfl, h⟩)
        · exact ⟨rfl, .inl h⟩
        · exact ⟨rfl, .inr h⟩

/-- C51 is false: an empty prediction matches every label, and a prediction that only starts with the label is a
match. -/
theorem C51_prefix_counts_as_match : ¬ ExactMatchSound String := by
  intro h
  have := h ["a"] ["a", "b"]
  revert this
  decide +kernel

/-- C51: when the weights of the examples add up to zero, extracting the metric raises ZeroDivisionError instead
of reporting NaN as the other metrics do. -/
theorem C51_zero_weight_raises {β : Type} [DecidableEq β] (s : Sched (Except Err (List (MatchExample β)))) (a : MatchAcc)
    (h : matchCombiner.run s = .ok a) (ha : a.examples = 0) :
    (matchCombiner.run s).bind matchExtract = .error .zeroDivisionError := by
  rw [h]; simp [Except.bind, matchExtract, ha]

/-- Non-vacuous: an evaluation without any example. -/
example : (matchCombiner.run (.bundle ([] : List (Except Err (List (MatchExample ℕ)))))).bind matchExtract =
    .error .zeroDivisionError := C51_zero_weight_raises _ ⟨0, 0⟩ rfl rfl

/-! ### C52: mean label, mean prediction, calibration -/

/-- An example with exactly one label and one prediction. -/
def labelled (t : Triple) : OptExample := ⟨some [t.label], some [t.pred], t.weight⟩

/-- An example without label (empty label array). -/
def unlabelled (pred weight : ℚ) : OptExample := ⟨some [], some [pred], weight⟩

/-- Weighted average; NaN when the total weight is zero up to the tolerance of `math.isclose`/`np.isclose`. -/
def weightedMean (f : Triple → ℚ) (ts : List Triple) : Fl :=
  if |(ts.map fun t => t.weight).sum| ≤ 1 / 100000000 then .nan
  else .fin ((ts.map fun t => f t * t.weight).sum / (ts.map fun t => t.weight).sum)

private theorem isClose_zero (a : ℚ) : isClose a 0 = decide (|a| ≤ 1 / 100000000) := by
  unfold isClose
  simp

private theorem lpe_labelled (data : List (List Triple)) (s : Sched _)
    (p : s.inputs.Perm (data.map fun ts => .ok (ts.map labelled))) :
    ((lpeCombiner none).run s).toOption = some
      ⟨(data.flatten.map fun t => t.label * t.weight).sum, (data.flatten.map fun t => t.pred * t.weight).sum,
        (data.flatten.map fun t => t.weight).sum⟩ := by
  rw [C15_calibration_value _ s p]
  have h1 : allFlat (data.map fun ts => Except.ok (ε := Err) (ts.map labelled)) = some (data.flatten.map labelled) := by
    clear p s
    induction data with
    | nil => rfl
    | cons x xs ih => simp only [List.map_cons, allFlat, ih, List.flatten_cons, List.map_append]
  have h2 : ∀ ts : List Triple, collect plainExample (ts.map labelled) =
      some (ts.map fun t => (t.label, t.pred, t.weight)) := by
    intro ts
    induction ts with
    | nil => rfl
    | cons t ts ih => simp only [List.map_cons, collect, ih]; rfl
  rw [h1, Option.bind_some, h2]
  simp only [Option.map_some, List.map_map]
  rfl

/-- C52 for labelled examples: mean label and mean prediction are the weighted averages, over any bundling.
Missing: examples without label (`C52_unlabelled_distorts_mean_prediction`) and top_k
(`C52_top_k_uses_last_entry`). -/
theorem C52_means_partial (data : List (List Triple)) (s : Sched _)
    (p : s.inputs.Perm (data.map fun ts => .ok (ts.map labelled))) :
    ((lpeCombiner none).run s).toOption.map (meanOverExamples LPE.labels) =
        some (weightedMean Triple.label data.flatten) ∧
      ((lpeCombiner none).run s).toOption.map (meanOverExamples LPE.predictions) =
        some (weightedMean Triple.pred data.flatten) := by
  rw [lpe_labelled data s p]
  simp only [Option.map_some, meanOverExamples, isClose_zero, weightedMean, decide_eq_true_eq, and_self]

/-- C52, calibration of labelled examples: weighted predictions over weighted labels, NaN when the weighted labels
add up to zero. -/
theorem C52_calibration_partial (data : List (List Triple)) (s : Sched _)
    (p : s.inputs.Perm (data.map fun ts => .ok (ts.map labelled))) :
    ((lpeCombiner none).run s).toOption.map calibration =
      some (if |(data.flatten.map fun t => t.label * t.weight).sum| ≤ 1 / 100000000 then .nan
        else .fin ((data.flatten.map fun t => t.pred * t.weight).sum /
          (data.flatten.map fun t => t.label * t.weight).sum)) := by
  rw [lpe_labelled data s p]
  simp only [Option.map_some, calibration, isClose_zero, decide_eq_true_eq]

/-- Non-vacuous: labels 1, 0 with predictions 3/4, 1/4 and weights 1, 3. -/
example : ((lpeCombiner none).run (.bundle [.ok [labelled ⟨1, 3 / 4, 1⟩], .ok [labelled ⟨0, 1 / 4, 3⟩]])).toOption.map
    (meanOverExamples LPE.predictions) = some (.fin (3 / 8)) := by decide +kernel

/-- C52 is false in the presence of unlabelled examples: all predictions are 1/2, yet the reported mean
prediction is 1/4, because the unlabelled example contributes its weight but not its prediction. -/
theorem C52_unlabelled_distorts_mean_prediction :
    ((lpeCombiner none).run (.bundle [.ok [labelled ⟨1, 1 / 2, 1⟩], .ok [unlabelled (1 / 2) 1]])).toOption.map
      (meanOverExamples LPE.predictions) = some (.fin (1 / 4)) := by decide +kernel

/-- C52, general form of the distortion: adding unlabelled examples of total weight `u` divides the same sum of
predictions by a total weight that is larger by `u`. -/
theorem C52_unlabelled_counted_in_weight (ts : List Triple) (us : List (ℚ × ℚ)) (s : Sched _)
    (p : s.inputs.Perm [.ok (ts.map labelled), .ok (us.map fun u => unlabelled u.1 u.2)]) :
    ((lpeCombiner none).run s).toOption = some
      ⟨(ts.map fun t => t.label * t.weight).sum, (ts.map fun t => t.pred * t.weight).sum,
        (ts.map fun t => t.weight).sum + (us.map fun u => u.2).sum⟩ := by
  rw [C15_calibration_value _ s p]
  have hc : ∀ xs ys : List OptExample, collect plainExample (xs ++ ys) =
      (collect plainExample xs).bind fun a => (collect plainExample ys).map fun b => a ++ b := by
    intro xs ys
    induction xs with
    | nil => simp [collect]
    | cons x xs ih =>
      simp only [List.cons_append, collect, ih]
      cases plainExample x <;> cases collect plainExample xs <;> cases collect plainExample ys <;> rfl
  have h2 : collect plainExample (ts.map labelled) = some (ts.map fun t => (t.label, t.pred, t.weight)) := by
    clear p
    induction ts with
    | nil => rfl
    | cons t ts ih => simp only [List.map_cons, collect, ih]; rfl
  have h3 : collect plainExample (us.map fun u => unlabelled u.1 u.2) = some (us.map fun u => (0, 0, u.2)) := by
    clear p
    induction us with
    | nil => rfl
    | cons t ts ih => simp only [List.map_cons, collect, ih]; rfl
  have ha : allFlat [Except.ok (ε := Err) (ts.map labelled), .ok (us.map fun u => unlabelled u.1 u.2)] =
      some (ts.map labelled ++ us.map fun u => unlabelled u.1 u.2) := by
    simp [allFlat]
  rw [ha, Option.bind_some, hc, h2, h3]
  simp only [Option.bind_some, Option.map_some, List.map_append, List.map_map, List.sum_append, Function.comp_def,
    zero_mul]
  simp

/-- C52 with top_k: of the top k predictions only the k-th is used (the loop overwrites its variable), so the
totals miss the others. -/
theorem C52_top_k_uses_last_entry (k : ℕ) (l p : List ℚ) (w : ℚ) (hl : l.length = k + 1) (hp : p.length = k + 1) :
    ((lpeCombiner (some (k + 1))).run (.bundle [.ok [⟨some l, some p, w⟩]])).toOption =
      some ⟨l[k] * w, p[k] * w, w⟩ := by
  have hl' : l ≠ [] := by intro h; simp [h] at hl
  obtain ⟨l0, ls, rfl⟩ := List.exists_cons_of_ne_nil hl'
  have e1 : (l0 :: ls)[k]? = some ((l0 :: ls)[k]) := List.getElem?_eq_getElem (by omega)
  have e2 : p[k]? = some p[k] := List.getElem?_eq_getElem (by omega)
  simp only [CombineFn.run, CombineFn.addAll, lpeCombiner, Except.bind, loop, lpeStep, weightedValue, e1, e2, bind,
    pure, Except.pure, Except.toOption, zero_add]

/-- Non-vacuous: top 2 of labels (1, 0) and predictions (3/4, 1/4): the label total is 0, not 1. -/
example : ((lpeCombiner (some 2)).run (.bundle [.ok [⟨some [1, 0], some [3 / 4, 1 / 4], 1⟩]])).toOption =
    some ⟨0, 1 / 4, 1⟩ := by decide +kernel

end Combiners
end TFMA
