import Verif.Model.Combiners
import Verif.Lemmas.Combine
import Mathlib.Algebra.Group.Prod
import Mathlib.Algebra.BigOperators.Group.List.Basic
import Mathlib.Tactic.Ring
import Mathlib.Data.NNRat.Lemmas

/-!
# C15: metric values do not depend on how the runner bundles the data

For every combiner: `C15_<name>` says that every execution over the data (any bundling, merge tree and order)
gives exactly the accumulator of a single bundle, and `C15_<name>_value` says what the resulting metric is in terms of the
data.
-/

namespace TFMA
namespace Combiners

open Beam

/-! ### Specification -/

/-- The images of all elements, or none if one of the elements is rejected. -/
def collect {ε β : Type} (f : ε → Option β) : List ε → Option (List β)
  | [] => some []
  | x :: xs => match f x, collect f xs with
    | some b, some bs => some (b :: bs)
    | _, _ => none

/-- `total / weight`, NaN when the weight is zero. -/
def ratio (total weight : ℚ) : Fl := if weight = 0 then .nan else .fin (total / weight)

/-- A usable element of the mean metric: exactly one feature value, and exactly one weight if weighted. -/
def meanPair (x : MeanElem) : Option (ℚ × ℚ) :=
  match x.features with
  | .ok [f] => match x.weights with
    | none => some (f, 1)
    | some (.ok [w]) => some (f, w)
    | _ => none
  | _ => none

/-- Weight of an example and its (label, prediction) for calibration without top_k: one label and one
prediction; an example whose label is empty counts with its weight only. -/
def plainExample (t : OptExample) : Option (ℚ × ℚ × ℚ) :=
  match t.label, t.pred with
  | none, none => some (0, 0, t.weight)
  | some [], _ => some (0, 0, t.weight)
  | some [l], none => some (l, 0, t.weight)
  | some [l], some [p] => some (l, p, t.weight)
  | _, _ => none

/-! ### Helpers -/

theorem total_collect {ε M β : Type} (op : M → M → M) (e : M) (f : ε → Option β) (m : β → M)
    (xs : List ε) :
    total op e (fun x => (f x).map m) xs = (collect f xs).map fun bs => (bs.map m).foldr op e := by
  induction xs with
  | nil => rfl
  | cons x xs ih =>
    rw [total_cons, ih]
    simp only [collect]
    cases f x <;> cases collect f xs <;> simp [liftOp]

theorem option_map_inj {α M : Type} {v : α → M} (hv : ∀ a b, v a = v b → a = b) {o o' : Option α}
    (h : o.map v = o'.map v) : o = o' := by
  cases o <;> cases o' <;> simp at h
  · rfl
  · rw [hv _ _ h]

theorem map_extract {α M β : Type} {v : α → M} {ex : α → β} (sp : M → β) (h : ∀ a, ex a = sp (v a))
    {o : Option α} {r : Option M} (hr : o.map v = r) : o.map ex = r.map sp := by
  subst hr; cases o <;> simp [h]

theorem foldr_add_sum {M : Type} [AddCommMonoid M] (l : List M) : l.foldr (· + ·) 0 = l.sum := rfl

theorem sum_pair {β M N : Type} [AddCommMonoid M] [AddCommMonoid N] (f : β → M) (g : β → N) (l : List β) :
    (l.map fun b => (f b, g b)).foldr (· + ·) 0 = ((l.map f).sum, (l.map g).sum) := by
  induction l with
  | nil => rfl
  | cons b l ih => simp only [List.map_cons, List.foldr_cons, ih, List.sum_cons]; rfl

theorem sum_triple {β : Type} (f g h : β → ℚ) (l : List β) :
    (l.map fun b => (f b, g b, h b)).foldr (· + ·) 0 = ((l.map f).sum, (l.map g).sum, (l.map h).sum) := by
  rw [sum_pair f (fun b => (g b, h b)), ← sum_pair g h]; rfl

/-! ### mean -/

private def meanV (a : MeanAcc) : ℚ × ℚ := (a.total, a.count)

private theorem mean_hom : OHom meanCombiner (· + ·) 0
    (fun x => (meanPair x).map fun fw => (fw.2 * fw.1, fw.2)) meanV (fun _ => True) where
  assoc := add_assoc
  comm := add_comm
  left := zero_add
  inv_create := trivial
  inv_add _ _ _ _ _ := trivial
  create := rfl
  add a x _ := by
    rcases x with ⟨f, w⟩
    show (meanAdd a ⟨f, w⟩).toOption.map meanV = _
    rcases f with er | f
    · rfl
    · rcases f with _ | ⟨f, _ | ⟨f', fs⟩⟩
      · rfl
      · rcases w with _ | w
        · rfl
        · rcases w with er | w
          · rfl
          · rcases w with _ | ⟨w, _ | ⟨w', ws⟩⟩ <;> rfl
      · rfl
  merge a as _ := by
    exact ⟨_, rfl, trivial, foldl_hom (fun _ _ => rfl) a as⟩

/-- C15, mean of a feature. -/
theorem C15_mean (data : List MeanElem) (s : Sched MeanElem) (p : s.inputs.Perm data) :
    (meanCombiner.run s).toOption = (meanCombiner.run (.bundle data)).toOption :=
  option_map_inj (v := meanV) (by rintro ⟨⟩ ⟨⟩ h; simp [meanV] at h; simp [h])
    ((orun_eq mean_hom p).trans (orun_bundle mean_hom data).symm)

/-- C15, mean of a feature: the metric is the weighted mean of the feature values. -/
theorem C15_mean_value (data : List MeanElem) (s : Sched MeanElem) (p : s.inputs.Perm data) :
    (meanCombiner.run s).toOption.map meanExtract =
      (collect meanPair data).map fun fw =>
        ratio (fw.map fun x => x.2 * x.1).sum (fw.map fun x => x.2).sum := by
  rw [map_extract (v := meanV) (ex := meanExtract) (fun m => ratio m.1 m.2) (fun a => rfl) (orun_eq mean_hom p), total_collect]
  rw [Option.map_map]
  congr 1
  funext fw
  simp only [Function.comp_apply]
  rw [sum_pair (fun fw : ℚ × ℚ => fw.2 * fw.1) (fun fw : ℚ × ℚ => fw.2)]

/-- Non-vacuous: features 1, 4 with weights 1, 2 split over two merged bundles and one late element. -/
example :
    (meanCombiner.run (.extend (.merge (.cons (.bundle [⟨.ok [1], some (.ok [1])⟩])
      (.one (.bundle [])))) [⟨.ok [4], some (.ok [2])⟩])).toOption.map meanExtract = some (.fin 3) := by
  decide +kernel

/-! ### example count -/

private theorem count_hom (w : Bool) (mn on : String) : OHom (exampleCountCombiner w mn on) (· + ·) 0
    (fun x => (exampleWeight w mn on x).toOption.map List.sum) id (fun _ => True) where
  assoc := add_assoc
  comm := add_comm
  left := zero_add
  inv_create := trivial
  inv_add _ _ _ _ _ := trivial
  create := rfl
  add a x _ := by
    show ((do return a + (← exampleWeight w mn on x).sum : Except Err ℚ)).toOption.map id = _
    cases exampleWeight w mn on x <;> rfl
  merge a as _ := by
    refine ⟨_, rfl, trivial, ?_⟩
    simp only [List.foldl_cons, zero_add, List.map_id]
    rfl

/-- C15, example count. -/
theorem C15_example_count (w : Bool) (mn on : String) (data : List (Option (Tree (List ℚ)))) (s : Sched _)
    (p : s.inputs.Perm data) :
    ((exampleCountCombiner w mn on).run s).toOption =
      ((exampleCountCombiner w mn on).run (.bundle data)).toOption :=
  option_map_inj (v := id) (fun _ _ h => h)
    ((orun_eq (count_hom w mn on) p).trans (orun_bundle (count_hom w mn on) data).symm)

/-- C15, example count: an unweighted count is the number of examples, whatever their weights. -/
theorem C15_example_count_unweighted (mn on : String) (data : List (Option (Tree (List ℚ)))) (s : Sched _)
    (p : s.inputs.Perm data) :
    ((exampleCountCombiner false mn on).run s).toOption = some (data.length : ℚ) := by
  have h := orun_eq (count_hom false mn on) p
  rw [Option.map_id, id] at h
  rw [h]
  clear h p
  induction data with
  | nil => rfl
  | cons x xs ih =>
    rw [total_cons, ih]
    have : exampleWeight false mn on x = .ok [1] := by cases x <;> rfl
    rw [this]
    simp only [Except.toOption, Option.map_some, liftOp, List.sum_singleton, List.length_cons, Nat.cast_add,
      Nat.cast_one]
    rw [add_comm]

/-- C15, example count: for examples that carry plain weight arrays the weighted count is the sum of all weights
(an example without weights counts 1). -/
theorem C15_example_count_weighted (mn on : String) (ws : List (Option (List ℚ))) (s : Sched _)
    (p : s.inputs.Perm (ws.map (Option.map Tree.leaf))) :
    ((exampleCountCombiner true mn on).run s).toOption =
      some (ws.map fun w => match w with | some a => a.sum | none => 1).sum := by
  have h := orun_eq (count_hom true mn on) p
  rw [Option.map_id, id] at h
  rw [h]
  clear h p
  induction ws with
  | nil => rfl
  | cons x xs ih =>
    rw [List.map_cons, total_cons, ih]
    cases x with
    | none => simp [exampleWeight, Except.toOption, liftOp]
    | some a => simp [exampleWeight, Except.toOption, liftOp]

/-- Non-vacuous: three examples, one weighted per model and output. -/
example :
    ((exampleCountCombiner true "m" "o").run (.merge (.cons (.bundle [none, some (.leaf [2, 3])])
      (.one (.bundle [some (.node (.cons "m" (.node (.cons "o" (.leaf [7]) .nil)) .nil))]))))).toOption = some 13 := by
  decide +kernel

/-! ### calibration: totals of labels, predictions and weights -/

private def lpeV (a : LPE) : ℚ × ℚ × ℚ := (a.labels, a.predictions, a.examples)

/-- What one example contributes. -/
private def lpeF (k : Option ℕ) (t : OptExample) : Option (ℚ × ℚ × ℚ) :=
  ((lpeStep k ⟨0, 0, 0⟩ t).toOption.map lpeV)

private theorem lpe_step (k : Option ℕ) (a : LPE) (t : OptExample) :
    (lpeStep k a t).toOption.map lpeV = (lpeF k t).map (lpeV a + ·) := by
  rcases t with ⟨l, q, w⟩
  rcases l with _ | (_ | ⟨l, ls⟩) <;> rcases q with _ | q
  · simp [lpeF, lpeStep, lpeV, Except.toOption, pure, Except.pure, bind, Except.bind]
  · rfl
  · simp [lpeF, lpeStep, lpeV, Except.toOption, pure, Except.pure, bind, Except.bind]
  · simp [lpeF, lpeStep, lpeV, Except.toOption, pure, Except.pure, bind, Except.bind]
  · simp only [lpeF, lpeStep]
    cases weightedValue k (l :: ls) w <;>
      simp [lpeV, Except.toOption, pure, Except.pure, bind, Except.bind]
  · simp only [lpeF, lpeStep]
    cases weightedValue k (l :: ls) w <;> cases weightedValue k q w <;>
      simp [lpeV, Except.toOption, pure, Except.pure, bind, Except.bind]

private theorem lpe_run (k : Option ℕ) (data : List (Except Err (List OptExample))) (s : Sched _)
    (p : s.inputs.Perm data) :
    ((lpeCombiner k).run s).toOption.map lpeV = (allFlat data).bind (total (· + ·) 0 (lpeF k)) :=
  flat_run add_assoc add_comm zero_add (fun _ _ => rfl) (fun _ => rfl) rfl (lpe_step k) (fun _ _ => rfl) p

/-- C15, calibration totals (also mean label, mean prediction), with or without top_k. -/
theorem C15_calibration (k : Option ℕ) (data : List (Except Err (List OptExample))) (s : Sched _)
    (p : s.inputs.Perm data) :
    ((lpeCombiner k).run s).toOption = ((lpeCombiner k).run (.bundle data)).toOption :=
  option_map_inj (v := lpeV) (by rintro ⟨⟩ ⟨⟩ h; simp [lpeV] at h; simp [h])
    ((lpe_run k data s p).trans (lpe_run k data _ (List.Perm.refl _)).symm)

/-- C15, calibration: without top_k the totals are the weighted sums over all examples. -/
theorem C15_calibration_value (data : List (Except Err (List OptExample))) (s : Sched _)
    (p : s.inputs.Perm data) :
    ((lpeCombiner none).run s).toOption =
      ((allFlat data).bind (collect plainExample)).map fun ts =>
        ⟨(ts.map fun t => t.1 * t.2.2).sum, (ts.map fun t => t.2.1 * t.2.2).sum, (ts.map fun t => t.2.2).sum⟩ := by
  apply option_map_inj (v := lpeV) (by rintro ⟨⟩ ⟨⟩ h; simp [lpeV] at h; simp [h])
  rw [lpe_run none data s p]
  have hf : lpeF none = fun t => (plainExample t).map fun t => (t.1 * t.2.2, t.2.1 * t.2.2, t.2.2) := by
    funext ⟨l, q, w⟩
    rcases l with _ | (_ | ⟨l, _ | ⟨l', ls⟩⟩) <;> rcases q with _ | (_ | ⟨q, _ | ⟨q', qs⟩⟩) <;>
      simp [lpeF, lpeStep, lpeV, plainExample, weightedValue, Except.toOption, pure, Except.pure, bind, Except.bind,
        throw, throwThe, MonadExceptOf.throw]
  rw [hf]
  cases allFlat data with
  | none => rfl
  | some ts =>
    simp only [Option.bind_some]
    rw [total_collect, Option.map_map]
    congr 1
    funext ts
    rw [sum_triple (fun t : ℚ × ℚ × ℚ => t.1 * t.2.2) (fun t => t.2.1 * t.2.2) (fun t => t.2.2)]
    rfl

/-- Non-vacuous. -/
example :
    ((lpeCombiner none).run (.merge (.cons (.bundle [.ok [⟨some [1], some [1/2], 2⟩, ⟨some [], some [1], 5⟩]])
      (.one (.bundle [.ok [⟨some [0], some [1/4], 4⟩]]))))).toOption = some ⟨2, 2, 11⟩ := by
  decide +kernel

/-! ### squared Pearson correlation -/

private def pearsonV (a : PearsonAcc) : ((ℚ × ℚ × ℚ) × (ℚ × ℚ × ℚ)) :=
  ((a.labels, a.predictions, a.examples), (a.sqLabels, a.sqPredictions, a.labelsTimesPredictions))

private theorem pearsonV_inj : ∀ a b, pearsonV a = pearsonV b → a = b := by
  rintro ⟨⟩ ⟨⟩ h; simp [pearsonV] at h; simp [h]

private def pearsonF (t : Triple) : ((ℚ × ℚ × ℚ) × (ℚ × ℚ × ℚ)) :=
  ((t.weight * t.label, t.weight * t.pred, t.weight),
    (t.weight * t.label ^ 2, t.weight * t.pred ^ 2, t.weight * t.label * t.pred))

private theorem pearson_run (data : List Flat) (s : Sched _) (p : s.inputs.Perm data) :
    (pearsonCombiner.run s).toOption.map pearsonV =
      (allFlat data).map fun ts => (ts.map pearsonF).foldr (· + ·) 0 :=
  flat_run' add_assoc add_comm zero_add (fun _ _ => rfl) (fun _ => rfl) rfl (fun _ _ => rfl) (fun _ _ => rfl) p

/-- C15, squared Pearson correlation. -/
theorem C15_pearson (data : List Flat) (s : Sched _) (p : s.inputs.Perm data) :
    (pearsonCombiner.run s).toOption = (pearsonCombiner.run (.bundle data)).toOption :=
  option_map_inj pearsonV_inj ((pearson_run data s p).trans (pearson_run data _ (List.Perm.refl _)).symm)

/-- C15, squared Pearson correlation: the accumulator holds the weighted moments of the data. -/
theorem C15_pearson_value (data : List Flat) (s : Sched _) (p : s.inputs.Perm data) :
    (pearsonCombiner.run s).toOption =
      (allFlat data).map fun ts =>
        { labels := (ts.map fun t => t.weight * t.label).sum
          predictions := (ts.map fun t => t.weight * t.pred).sum
          sqLabels := (ts.map fun t => t.weight * (t.label * t.label)).sum
          sqPredictions := (ts.map fun t => t.weight * (t.pred * t.pred)).sum
          labelsTimesPredictions := (ts.map fun t => t.weight * (t.label * t.pred)).sum
          examples := (ts.map fun t => t.weight).sum } := by
  apply option_map_inj pearsonV_inj
  rw [pearson_run data s p, Option.map_map]
  congr 1
  funext ts
  simp only [Function.comp_apply, pearsonV]
  rw [← sum_triple, ← sum_triple]
  refine Eq.trans ?_ (sum_pair _ _ ts)
  congr 2
  funext t
  simp [pearsonF, pow_two, mul_assoc]

/-- Non-vacuous. -/
example :
    (pearsonCombiner.run (.merge (.cons (.bundle [.ok [⟨1, 2, 1⟩]]) (.one (.bundle [.ok [⟨2, 4, 3⟩, ⟨0, 1, 1⟩]]))))).toOption
      = some ⟨7, 15, 13, 53, 26, 5⟩ := by
  decide +kernel

/-! ### Tjur discrimination -/

private def tjurV (a : TjurAcc) : (ℚ × ℚ) × (ℚ × ℚ) :=
  ((a.negPredictions, a.negLabels), (a.posPredictions, a.posLabels))

private theorem tjurV_inj : ∀ a b, tjurV a = tjurV b → a = b := by
  rintro ⟨⟩ ⟨⟩ h; simp [tjurV] at h; simp [h]

private theorem tjur_run (data : List Flat) (s : Sched _) (p : s.inputs.Perm data) :
    (tjurCombiner.run s).toOption.map tjurV =
      (allFlat data).map fun ts => (ts.map fun t =>
        (((1 - t.label) * t.pred * t.weight, (1 - t.label) * t.weight),
          (t.label * t.pred * t.weight, t.label * t.weight))).foldr (· + ·) 0 :=
  flat_run' add_assoc add_comm zero_add (fun _ _ => rfl) (fun _ => rfl) rfl (fun _ _ => rfl) (fun _ _ => rfl) p

/-- C15, Tjur discrimination. -/
theorem C15_tjur (data : List Flat) (s : Sched _) (p : s.inputs.Perm data) :
    (tjurCombiner.run s).toOption = (tjurCombiner.run (.bundle data)).toOption :=
  option_map_inj tjurV_inj ((tjur_run data s p).trans (tjur_run data _ (List.Perm.refl _)).symm)

/-- C15, Tjur discrimination: mean prediction of the positive examples minus mean prediction of the negative
examples, where an example with label `l` counts `l` times its weight as positive and `1 - l` times as negative. -/
theorem C15_tjur_value (data : List Flat) (s : Sched _) (p : s.inputs.Perm data) :
    (tjurCombiner.run s).toOption.map tjurExtract =
      (allFlat data).map fun ts =>
        let wp := fun t : Triple => t.weight * t.label
        let wn := fun t : Triple => t.weight * (1 - t.label)
        if (ts.map wn).sum = 0 ∨ (ts.map wp).sum = 0 then .nan
        else .fin ((ts.map fun t => wp t * t.pred).sum / (ts.map wp).sum -
          (ts.map fun t => wn t * t.pred).sum / (ts.map wn).sum) := by
  rw [map_extract (v := tjurV) (ex := tjurExtract) (fun m => if m.1.2 = 0 ∨ m.2.2 = 0 then Fl.nan else
    .fin (m.2.1 / m.2.2 - m.1.1 / m.1.2)) (fun a => rfl) (tjur_run data s p), Option.map_map]
  congr 1
  funext ts
  simp only [Function.comp_apply]
  rw [sum_pair (fun t : Triple => ((1 - t.label) * t.pred * t.weight, (1 - t.label) * t.weight))
    (fun t => (t.label * t.pred * t.weight, t.label * t.weight)), ← foldr_add_sum, ← foldr_add_sum, sum_pair, sum_pair]
  have e1 : (fun t : Triple => (1 - t.label) * t.weight) = fun t => t.weight * (1 - t.label) := by
    funext t; ring
  have e2 : (fun t : Triple => t.label * t.weight) = fun t => t.weight * t.label := by
    funext t; ring
  have e3 : (fun t : Triple => (1 - t.label) * t.pred * t.weight) = fun t => t.weight * (1 - t.label) * t.pred := by
    funext t; ring
  have e4 : (fun t : Triple => t.label * t.pred * t.weight) = fun t => t.weight * t.label * t.pred := by
    funext t; ring
  rw [e1, e2, e3, e4]

/-- Non-vacuous. -/
example :
    (tjurCombiner.run (.merge (.cons (.bundle [.ok [⟨1, 3/4, 2⟩]]) (.one (.bundle [.ok [⟨0, 1/4, 3⟩]]))))).toOption.map tjurExtract
      = some (.fin (1/2)) := by
  decide +kernel

/-- C15, relative Tjur discrimination: mean prediction of the positive examples divided by the mean prediction of the negative
examples, and not a number when there are no positives, no negatives, or the negatives' predictions add up to zero. -/
theorem C15_relative_tjur_value (data : List Flat) (s : Sched _) (p : s.inputs.Perm data) :
    (tjurCombiner.run s).toOption.map relTjurExtract =
      (allFlat data).map fun ts =>
        let wp := fun t : Triple => t.weight * t.label
        let wn := fun t : Triple => t.weight * (1 - t.label)
        if (ts.map wn).sum = 0 ∨ (ts.map wp).sum = 0 ∨ (ts.map fun t => wn t * t.pred).sum = 0 then .nan
        else .fin (((ts.map fun t => wp t * t.pred).sum / (ts.map wp).sum) /
          ((ts.map fun t => wn t * t.pred).sum / (ts.map wn).sum)) := by
  rw [map_extract (v := tjurV) (ex := relTjurExtract) (fun m => if m.1.2 = 0 ∨ m.2.2 = 0 ∨ m.1.1 = 0 then Fl.nan else
    .fin ((m.2.1 / m.2.2) / (m.1.1 / m.1.2))) (fun a => rfl) (tjur_run data s p), Option.map_map]
  congr 1
  funext ts
  simp only [Function.comp_apply]
  rw [sum_pair (fun t : Triple => ((1 - t.label) * t.pred * t.weight, (1 - t.label) * t.weight))
    (fun t => (t.label * t.pred * t.weight, t.label * t.weight)), ← foldr_add_sum, ← foldr_add_sum, sum_pair, sum_pair]
  have e1 : (fun t : Triple => (1 - t.label) * t.weight) = fun t => t.weight * (1 - t.label) := by
    funext t; ring
  have e2 : (fun t : Triple => t.label * t.weight) = fun t => t.weight * t.label := by
    funext t; ring
  have e3 : (fun t : Triple => (1 - t.label) * t.pred * t.weight) = fun t => t.weight * (1 - t.label) * t.pred := by
    funext t; ring
  have e4 : (fun t : Triple => t.label * t.pred * t.weight) = fun t => t.weight * t.label * t.pred := by
    funext t; ring
  rw [e1, e2, e3, e4]

/-- Non-vacuous. -/
example :
    (tjurCombiner.run (.merge (.cons (.bundle [.ok [⟨1, 3/4, 2⟩]]) (.one (.bundle [.ok [⟨0, 1/4, 3⟩]]))))).toOption.map relTjurExtract
      = some (.fin 3) := by
  decide +kernel

/-! ### min label position -/

/-- Contribution of a query: position of its best ranked positive label and its weight. -/
def minLabelPair (x : Except Err MinLabelElem) : Option (List (ℕ × ℚ)) :=
  match x with
  | .error _ => none
  | .ok x => match x.sortedLabels.bind (fun ls => ls.findIdx? (fun l => decide (0 < l))) with
    | none => some []
    | some i => some [(i + 1, x.weight)]

private theorem firstPositive_eq (i : ℕ) (ls : List ℚ) :
    firstPositive i ls = (ls.findIdx? (fun l => decide (0 < l))).map (fun j => i + j + 1) := by
  induction ls generalizing i with
  | nil => rfl
  | cons l ls ih =>
    simp only [firstPositive, List.findIdx?_cons]
    by_cases h : 0 < l
    · simp [h]
    · simp only [h, if_false, decide_false, ih, Bool.false_eq_true]
      cases ls.findIdx? (fun l => decide (0 < l)) with
      | none => rfl
      | some j => simp only [Option.map_some, Option.some.injEq]; omega

private def minV (a : MinLabelAcc) : ℚ × ℚ := (a.position, a.examples)

private def minF (x : Except Err MinLabelElem) : Option (ℚ × ℚ) :=
  (minLabelPair x).map fun l => (l.map fun pw => ((pw.1 : ℚ) * pw.2, pw.2)).foldr (· + ·) 0

private theorem min_hom : OHom minLabelCombiner (· + ·) 0 minF minV (fun _ => True) where
  assoc := add_assoc
  comm := add_comm
  left := zero_add
  inv_create := trivial
  inv_add _ _ _ _ _ := trivial
  create := rfl
  add a x _ := by
    rcases x with er | ⟨ls, w⟩
    · rfl
    · rcases ls with _ | ls
      · simp [minF, minLabelPair, minLabelCombiner, Except.bind, Except.toOption]
      · have h := firstPositive_eq 0 ls
        simp only [minLabelCombiner, Except.bind, h, minF, minLabelPair, Option.bind_some]
        cases ls.findIdx? (fun l => decide (0 < l)) with
        | none => simp [Except.toOption]
        | some j => simp [Except.toOption, minV]
  merge a as _ := by
    exact ⟨_, rfl, trivial, foldl_hom (fun _ _ => rfl) a as⟩

/-- C15, min label position. -/
theorem C15_min_label_position (data : List (Except Err MinLabelElem)) (s : Sched _) (p : s.inputs.Perm data) :
    (minLabelCombiner.run s).toOption = (minLabelCombiner.run (.bundle data)).toOption :=
  option_map_inj (v := minV) (by rintro ⟨⟩ ⟨⟩ h; simp [minV] at h; simp [h])
    ((orun_eq min_hom p).trans (orun_bundle min_hom data).symm)

/-- C15, min label position: the weighted mean, over the queries that have a positive label, of the rank of the
first positive label. -/
theorem C15_min_label_position_value (data : List (Except Err MinLabelElem)) (s : Sched _)
    (p : s.inputs.Perm data) :
    (minLabelCombiner.run s).toOption.map minLabelExtract =
      (collect minLabelPair data).map fun qs =>
        if 0 < (qs.flatten.map fun q => q.2).sum then
          .fin ((qs.flatten.map fun q => (q.1 : ℚ) * q.2).sum / (qs.flatten.map fun q => q.2).sum)
        else .nan := by
  rw [map_extract (v := minV) (ex := minLabelExtract) (fun m => if 0 < m.2 then Fl.fin (m.1 / m.2) else .nan) (fun a => rfl)
    (orun_eq min_hom p)]
  show Option.map _ (total (· + ·) 0 (fun x => (minLabelPair x).map _) data) = _
  rw [total_collect, Option.map_map]
  congr 1
  funext qs
  simp only [Function.comp_apply]
  have : ((qs.map fun l : List (ℕ × ℚ) => (l.map fun pw => ((pw.1 : ℚ) * pw.2, pw.2)).foldr (· + ·) 0).foldr
      (· + ·) 0) = ((qs.flatten.map fun q => (q.1 : ℚ) * q.2).sum, (qs.flatten.map fun q => q.2).sum) := by
    induction qs with
    | nil => rfl
    | cons q qs ih =>
      rw [List.map_cons, List.foldr_cons, ih]
      rw [sum_pair (fun pw : ℕ × ℚ => (pw.1 : ℚ) * pw.2) (fun pw => pw.2)]
      simp
  rw [this]

/-- Non-vacuous: first positive labels at ranks 2 and 1, one query without positives. -/
example :
    (minLabelCombiner.run (.merge (.cons (.bundle [.ok ⟨some [0, 1, 1], 1⟩, .ok ⟨some [0], 5⟩])
      (.one (.bundle [.ok ⟨some [1, 0], 3⟩]))))).toOption.map minLabelExtract = some (.fin (5/4)) := by
  decide +kernel

/-! ### query statistics -/

private def queryOp (a b : (ℚ × ℚ) × (WithTop ℚ × ℚ≥0)) : (ℚ × ℚ) × (WithTop ℚ × ℚ≥0) :=
  (a.1 + b.1, (min a.2.1 b.2.1, max a.2.2 b.2.2))

private def queryV (a : QueryAcc) : (ℚ × ℚ) × (WithTop ℚ × ℚ≥0) := ((a.queries, a.documents), (a.minDocs, a.maxDocs))

private theorem query_run (data : List (Except Err (List (ℕ × ℚ)))) (s : Sched _) (p : s.inputs.Perm data) :
    (queryCombiner.run s).toOption.map queryV =
      (allFlat data).map fun ts => (ts.map fun t : ℕ × ℚ =>
        ((t.2, (t.1 : ℚ) * t.2), (((t.1 * t.2 : ℚ) : WithTop ℚ), ((t.1 : ℚ) * t.2).toNNRat))).foldr queryOp
          (0, (⊤, 0)) :=
  flat_run' (fun a b c => by simp [queryOp, add_assoc, min_assoc, max_assoc])
    (fun a b => by simp [queryOp, add_comm, min_comm, max_comm])
    (fun a => by
      rcases a with ⟨⟨a, b⟩, c, d⟩
      simp [queryOp, queryV, queryCombiner])
    (fun _ _ => rfl) (fun _ => rfl) rfl (fun _ _ => rfl) (fun _ _ => rfl) p

/-- C15, query statistics. -/
theorem C15_query_statistics (data : List (Except Err (List (ℕ × ℚ)))) (s : Sched _) (p : s.inputs.Perm data) :
    (queryCombiner.run s).toOption = (queryCombiner.run (.bundle data)).toOption :=
  option_map_inj (v := queryV) (by rintro ⟨⟩ ⟨⟩ h; simp [queryV] at h; simp [h])
    ((query_run data s p).trans (query_run data _ (List.Perm.refl _)).symm)

/-- C15, query statistics: total weight, total number of documents, and a least and greatest weighted number of
documents that are attained and bound every query. -/
theorem C15_query_statistics_value (data : List (Except Err (List (ℕ × ℚ)))) (s : Sched _)
    (p : s.inputs.Perm data) (a : QueryAcc) (ha : queryCombiner.run s = .ok a) :
    ∃ ts, allFlat data = some ts ∧
      a.queries = (ts.map fun t => t.2).sum ∧
      a.documents = (ts.map fun t => (t.1 : ℚ) * t.2).sum ∧
      (∀ t ∈ ts, a.minDocs ≤ ((t.1 * t.2 : ℚ) : WithTop ℚ)) ∧
      (a.minDocs = ⊤ ↔ ts = []) ∧
      (ts ≠ [] → ∃ t ∈ ts, a.minDocs = ((t.1 * t.2 : ℚ) : WithTop ℚ)) ∧
      (∀ t ∈ ts, (t.1 * t.2 : ℚ) ≤ a.maxDocs) ∧
      ((a.maxDocs : ℚ) = 0 ∨ ∃ t ∈ ts, (a.maxDocs : ℚ) = t.1 * t.2) := by
  have h := query_run data s p
  rw [ha] at h
  cases hd : allFlat data with
  | none => rw [hd] at h; simp [Except.toOption] at h
  | some ts =>
    rw [hd] at h
    simp only [Except.toOption, Option.map_some, Option.some.injEq] at h
    refine ⟨ts, rfl, ?_⟩
    clear hd ha p
    induction ts generalizing a with
    | nil =>
      rcases a with ⟨q, d, mn, mx⟩
      simp only [queryV, List.map_nil, List.foldr_nil, Prod.mk.injEq] at h
      obtain ⟨⟨h1, h2⟩, h3, h4⟩ := h
      simp_all
    | cons t ts ih =>
      generalize hr : (ts.map fun t : ℕ × ℚ =>
        ((t.2, (t.1 : ℚ) * t.2), (((t.1 * t.2 : ℚ) : WithTop ℚ), ((t.1 : ℚ) * t.2).toNNRat))).foldr queryOp
          (0, (⊤, 0)) = r at ih
      obtain ⟨i1, i2, i3, i4, i5, i6, i7⟩ := ih ⟨r.1.1, r.1.2, r.2.1, r.2.2⟩ rfl
      rw [List.map_cons, List.foldr_cons, hr] at h
      rcases a with ⟨q, d, mn, mx⟩
      simp only [queryV, queryOp, Prod.mk.injEq] at h
      obtain ⟨h1, h3, h4⟩ := h
      have h1' : q = t.2 + r.1.1 := congrArg Prod.fst h1
      have h2' : d = t.1 * t.2 + r.1.2 := congrArg Prod.snd h1
      simp only at i1 i2 i3 i4 i5 i6 i7
      refine ⟨?_, ?_, ?_, ?_, ?_, ?_, ?_⟩
      · simp [h1', i1]
      · simp [h2', i2]
      · intro x hx
        show mn ≤ _
        rw [h3]
        rcases List.mem_cons.1 hx with hx | hx
        · subst hx; exact min_le_left _ _
        · exact le_trans (min_le_right _ _) (i3 x hx)
      · show mn = ⊤ ↔ _
        rw [h3]
        simp
      · intro _
        show ∃ t' ∈ _, mn = _
        rw [h3]
        by_cases hm : (((t.1 * t.2 : ℚ) : WithTop ℚ)) ≤ r.2.1
        · exact ⟨t, List.mem_cons_self, min_eq_left hm⟩
        · have hne : ts ≠ [] := by
            intro he
            apply hm
            rw [i4.2 he]
            exact le_top
          obtain ⟨x, hx, hxe⟩ := i5 hne
          refine ⟨x, List.mem_cons_of_mem _ hx, ?_⟩
          rw [min_eq_right (le_of_lt (not_le.1 hm)), hxe]
      · intro x hx
        show _ ≤ (mx : ℚ)
        rw [h4]
        rcases List.mem_cons.1 hx with hx | hx
        · subst hx
          refine le_trans (Rat.le_coe_toNNRat _) ?_
          exact_mod_cast le_max_left _ _
        · refine le_trans (i6 x hx) ?_
          exact_mod_cast le_max_right _ _
      · show (mx : ℚ) = 0 ∨ ∃ t' ∈ _, (mx : ℚ) = _
        rw [h4]
        rcases max_choice ((t.1 : ℚ) * t.2).toNNRat r.2.2 with hm | hm
        · rw [hm]
          by_cases h0 : 0 ≤ (t.1 : ℚ) * t.2
          · exact Or.inr ⟨t, List.mem_cons_self, Rat.coe_toNNRat _ h0⟩
          · left
            rw [Rat.toNNRat_of_nonpos (le_of_lt (not_le.1 h0))]
            rfl
        · rw [hm]
          rcases i7 with i7 | ⟨x, hx, hxe⟩
          · exact Or.inl i7
          · exact Or.inr ⟨x, List.mem_cons_of_mem _ hx, hxe⟩

/-- Non-vacuous. -/
example : ∃ a, queryCombiner.run (.merge (.cons (.bundle [.ok [(3, 1)]]) (.one (.bundle [.ok [(5, 1)]])))) = .ok a ∧
    a.queries = 2 ∧ a.documents = 8 := ⟨_, rfl, by decide +kernel, by decide +kernel⟩

/-! ### exact match -/

private def matchV (a : MatchAcc) : ℚ × ℚ := (a.scores, a.examples)

private theorem match_run {β : Type} [DecidableEq β] (data : List (Except Err (List (MatchExample β)))) (s : Sched _)
    (p : s.inputs.Perm data) :
    (matchCombiner.run s).toOption.map matchV =
      (allFlat data).map fun ts => (ts.map fun t => (matchScore t.label t.pred * t.weight, t.weight)).foldr (· + ·) 0 :=
  flat_run' add_assoc add_comm zero_add (fun _ _ => rfl) (fun _ => rfl) rfl (fun _ _ => rfl) (fun _ _ => rfl) p

/-- C15, exact match. -/
theorem C15_exact_match {β : Type} [DecidableEq β] (data : List (Except Err (List (MatchExample β)))) (s : Sched _)
    (p : s.inputs.Perm data) :
    (matchCombiner.run s).toOption = (matchCombiner.run (.bundle data)).toOption :=
  option_map_inj (v := matchV) (by rintro ⟨⟩ ⟨⟩ h; simp [matchV] at h; simp [h])
    ((match_run data s p).trans (match_run data _ (List.Perm.refl _)).symm)

/-- C15, exact match: for examples whose prediction and label have the same number of entries, the accumulator
holds the weight of the examples with identical prediction and label, and the total weight. -/
theorem C15_exact_match_value {β : Type} [DecidableEq β] (data : List (Except Err (List (MatchExample β))))
    (s : Sched _) (p : s.inputs.Perm data)
    (hlen : ∀ ts, .ok ts ∈ data → ∀ t ∈ ts, t.label.length = t.pred.length) :
    (matchCombiner.run s).toOption =
      (allFlat data).map fun ts =>
        ⟨((ts.filter fun t => decide (t.pred = t.label)).map fun t => t.weight).sum, (ts.map fun t => t.weight).sum⟩ := by
  have hs : ∀ (l q : List β), l.length = q.length → matchScore l q = if q = l then 1 else 0 := by
    intro l q h
    unfold matchScore
    congr 1
    simp only [eq_iff_iff]
    induction q generalizing l with
    | nil => cases l <;> simp_all
    | cons x q ih =>
      cases l with
      | nil => simp at h
      | cons y l =>
        simp only [List.zip_cons_cons, List.all_cons, Bool.and_eq_true, decide_eq_true_eq, List.cons.injEq]
        rw [ih l (by simpa using h)]
  have hflat : ∀ ts, allFlat data = some ts → ∀ t ∈ ts, t.label.length = t.pred.length := by
    clear p s
    induction data with
    | nil => intro ts h t ht; simp only [allFlat, Option.some.injEq] at h; subst h; cases ht
    | cons x xs ih =>
      intro ts h t ht
      simp only [allFlat] at h
      cases x with
      | error e => simp at h
      | ok l =>
        cases hx : allFlat xs with
        | none => rw [hx] at h; simp at h
        | some r =>
          rw [hx] at h
          simp only [Option.some.injEq] at h
          subst h
          rcases List.mem_append.1 ht with ht | ht
          · exact hlen l List.mem_cons_self t ht
          · exact ih (fun ts h => hlen ts (List.mem_cons_of_mem _ h)) r hx t ht
  apply option_map_inj (v := matchV) (by rintro ⟨⟩ ⟨⟩ h; simp [matchV] at h; simp [h])
  rw [match_run data s p]
  cases hd : allFlat data with
  | none => rfl
  | some ts =>
    simp only [Option.map_some, matchV]
    rw [sum_pair (fun t : MatchExample β => matchScore t.label t.pred * t.weight) (fun t => t.weight)]
    congr 2
    have := hflat ts hd
    clear hd hflat
    induction ts with
    | nil => rfl
    | cons t ts ih =>
      rw [List.map_cons, List.sum_cons, ih (fun t ht => this t (List.mem_cons_of_mem _ ht)),
        hs _ _ (this t List.mem_cons_self)]
      by_cases h : t.pred = t.label <;> simp [h]

/-- Non-vacuous. -/
example :
    (matchCombiner.run (.merge (.cons (.bundle [.ok [⟨["a"], ["a"], 3⟩]]) (.one (.bundle [.ok [⟨["a"], ["b"], 1⟩]]))))).toOption
      = some ⟨3, 4⟩ := by decide +kernel

end Combiners
end TFMA
