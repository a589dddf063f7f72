import Verif.Props.SpecComputations
import Verif.Props.Evaluate

/-!
# C85: several averages of one metric in a configuration
-/

namespace TFMA
namespace MetricSpecs

open MetricKeys Evaluate

variable {B S T : Type}

/-! ### Specification -/

/-- The computation of an average: derived from other metrics, yielding one key. -/
structure AverageOf (x : Computation (Body B)) (k : MetricKey) : Prop where
  kind : x.kind = .derived
  cls : x.className = "function"
  keys : x.keys = [k]
  pre : x.preprocessors = []

/-- The weights of the labels of some classes, for a model and output. -/
structure LabelWeightsOf (x : Computation (Body B)) (ids : List ℤ) (model output : String) (ew : Bool) : Prop where
  kind : x.kind = .metric
  cls : x.className = "_ClassWeightsFromLabelsCombiner"
  keys : x.keys = [{ name := "_class_weights_from_labels", modelName := model, outputName := output, exampleWeighted := some ew }]
  pre : x.preprocessors = []
  body : x.body = .labelWeights ids

/-! ### Helpers -/

private theorem sort_one (k : MetricKey) : sortKeys [k] = .ok [k] := rfl

private theorem not_both {l : List (Computation (Body B))} (hp : l.Pairwise fun c d => sameId c d = false) {x y : Computation (Body B)}
    (hx : x ∈ l) (hy : y ∈ l) (hid : sameId x y = true) : x = y := by
  induction l with
  | nil => cases hx
  | cons z l ih =>
    rw [List.pairwise_cons] at hp
    rcases List.mem_cons.1 hx with hxz | hxl <;> rcases List.mem_cons.1 hy with hyz | hyl
    · rw [hxz, hyz]
    · rw [hxz, hp.1 _ hyl] at hid; cases hid
    · rw [hyz, sameId_comm, hp.1 _ hxl] at hid; cases hid
    · exact ih hp.2 hxl hyl

/-- **C85** (lost averages): of two different averages with the same key only one is ever computed.  Macro averages of a metric over
other classes or with other class weights have the same key, and so have its macro and weighted macro average (`C26_same_key`). -/
theorem C85_lost (cs : List (Computation (Body B))) (s : Separated (Body B)) (h : separate cs = .ok s) (k : MetricKey)
    (x y : Computation (Body B)) (hx : AverageOf x k) (hy : AverageOf y k) (hne : x.body ≠ y.body) :
    ¬ (x ∈ s.derived ∧ y ∈ s.derived) := by
  rintro ⟨h1, h2⟩
  have hp := (C29_once_in_order cs s h s.derived (by simp)).2
  have hid : sameId x y = true := (C29_identity x y).2
    ⟨hx.cls.trans hy.cls.symm, hx.keys.trans hy.keys.symm, hx.pre.trans hy.pre.symm, [k], by rw [hx.keys]; exact sort_one k⟩
  exact hne (by rw [not_both hp h1 h2 hid])

/-- **C85** (lost label weights): of the label weights of two sets of classes only one is computed, as they have the same key. -/
theorem C85_label_weights_lost (cs : List (Computation (Body B))) (s : Separated (Body B)) (h : separate cs = .ok s)
    (model output : String) (ew : Bool) (ids ids' : List ℤ) (x y : Computation (Body B))
    (hx : LabelWeightsOf x ids model output ew) (hy : LabelWeightsOf y ids' model output ew) (hne : ids ≠ ids') :
    ¬ (x ∈ s.nonDerived ∧ y ∈ s.nonDerived) := by
  rintro ⟨h1, h2⟩
  have hp := (C29_once_in_order cs s h s.nonDerived (by simp)).2
  have hid : sameId x y = true := (C29_identity x y).2
    ⟨hx.cls.trans hy.cls.symm, hx.keys.trans hy.keys.symm, hx.pre.trans hy.pre.symm, _, by rw [hx.keys]; exact sort_one _⟩
  have e := not_both hp h1 h2 hid
  have := hx.body
  rw [e, hy.body] at this
  exact hne (by cases this; rfl)

private theorem firsts_eq {l : List (Computation (Body B))} (hp : l.Pairwise fun c d => sameId c d = false) : firsts l = l := by
  induction l with
  | nil => rfl
  | cons c l ih =>
    rw [List.pairwise_cons] at hp
    simp only [firsts]
    rw [ih hp.2, List.filter_eq_self.2]
    intro d hd
    simp [hp.1 d hd]

/-- **C85**: averages with different keys are all computed.  Missing: averages of the same metric, see `C85_lost`. -/
theorem C85_kept_partial (cs : List (Computation (Body B))) (s : Separated (Body B)) (h : separate cs = .ok s)
    (hp : cs.Pairwise fun x y => x.kind = .derived → y.kind = .derived → x.keys ≠ y.keys) :
    ∀ x ∈ cs, x.kind = .derived → x ∈ s.derived := by
  intro x hx hk
  obtain ⟨-, hd, -, -⟩ := C29_first_occurrences cs s h
  rw [hd, firsts_eq]
  · simp [ofKind, hx, hk]
  · unfold ofKind
    rw [List.pairwise_filter]
    refine hp.imp ?_
    intro a b hab h1 h2
    by_contra hid
    rw [Bool.not_eq_false, C29_identity] at hid
    exact hab (by simpa using h1) (by simpa using h2) hid.2.1

private theorem foreign (metrics : Aggregation.Metrics) (name model output : String) (ew : Bool) (ids : List ℤ)
    (fromLabels cw : Dict ℤ ℚ) (hother : ∀ c ∈ ids, c ∉ Dict.keys fromLabels) (w v : ℤ → ℚ) (hw : ∀ c, w c = if cw = [] then 1 else 0)
    (hv : ∀ c ∈ ids, Aggregation.HasValue metrics name model output ew (some ⟨some c, none, none⟩) (.fin (v c))) :
    Aggregation.weightedMacroAverage name model output (ids.map fun c => some ⟨some c, none, none⟩) fromLabels (some cw) ew metrics =
      .ok (Aggregation.weightedMean ids w v) := by
  have hww : ∀ sk ∈ (ids.map fun c => some (SubKey.mk (some c) none none)),
      Aggregation.weightedWeight fromLabels (some cw) sk = .ok ((sk.bind SubKey.classId).elim 0 w) := by
    intro sk hsk
    obtain ⟨c, hc, rfl⟩ := List.mem_map.1 hsk
    have h1 := (Dict.get?_eq_none_iff fromLabels c).2 (hother c hc)
    have hwc := hw c
    cases cw with
    | nil =>
      simp [Aggregation.weightedWeight, Aggregation.offset, Dict.has, h1, Aggregation.noWeights, bind, Except.bind, pure, Except.pure,
        hwc]
    | cons p cw =>
      rw [if_neg (by simp)] at hwc
      cases h2 : Dict.get? (p :: cw) c <;>
        simp [Aggregation.weightedWeight, Aggregation.offset, Dict.has, h1, h2, Aggregation.noWeights, bind, Except.bind, pure,
          Except.pure, hwc]
  have := Aggregation.average_fin (Aggregation.weightedWeight fromLabels (some cw))
    (fun sk => Aggregation.value metrics (Aggregation.childKey metrics name model output sk ew))
    (fun sk => (sk.bind SubKey.classId).elim 0 w) (fun sk => (sk.bind SubKey.classId).elim 0 v)
    (ids.map fun c => some (SubKey.mk (some c) none none)) hww (by
      intro sk hsk
      obtain ⟨c, hc, rfl⟩ := List.mem_map.1 hsk
      exact Aggregation.value_child (hv c hc))
  unfold Aggregation.weightedMacroAverage
  rw [this]
  simp [Aggregation.weightedMean, Function.comp_def]

/-- **C85** (other label weights): given the label weights of other classes, a weighted macro average without class weights is the
plain mean. -/
theorem C85_plain_mean (metrics : Aggregation.Metrics) (name model output : String) (ew : Bool) (ids : List ℤ) (hne : ids ≠ [])
    (fromLabels : Dict ℤ ℚ) (hother : ∀ c ∈ ids, c ∉ Dict.keys fromLabels) (v : ℤ → ℚ)
    (hv : ∀ c ∈ ids, Aggregation.HasValue metrics name model output ew (some ⟨some c, none, none⟩) (.fin (v c))) :
    Aggregation.weightedMacroAverage name model output (ids.map fun c => some ⟨some c, none, none⟩) fromLabels (some []) ew metrics =
      .ok (.fin ((ids.map v).sum / ids.length)) := by
  rw [foreign metrics name model output ew ids fromLabels [] hother (fun _ => 1) v (by simp) hv]
  have h4 : (ids.length : ℚ) ≠ 0 := by simpa using hne
  simp [Aggregation.weightedMean, h4]

/-- **C85** (other label weights): given the label weights of other classes, a weighted macro average with class weights is not a
number. -/
theorem C85_nan (metrics : Aggregation.Metrics) (name model output : String) (ew : Bool) (ids : List ℤ)
    (fromLabels cw : Dict ℤ ℚ) (hcw : cw ≠ []) (hother : ∀ c ∈ ids, c ∉ Dict.keys fromLabels) (v : ℤ → ℚ)
    (hv : ∀ c ∈ ids, Aggregation.HasValue metrics name model output ew (some ⟨some c, none, none⟩) (.fin (v c))) :
    Aggregation.weightedMacroAverage name model output (ids.map fun c => some ⟨some c, none, none⟩) fromLabels (some cw) ew metrics =
      .ok .nan := by
  rw [foreign metrics name model output ew ids fromLabels cw hother (fun _ => 0) v (by simp [hcw]) hv]
  simp [Aggregation.weightedMean]

/-! ### Example -/

private def auc : Metric Unit String ℕ :=
  { name := "auc", config := "AUC", create := fun c => .ok [⟨.metric, "Auc", [c.key], [], ()⟩], thresholds := [] }

/-- What is kept of the computations of some specs: label weights and averages. -/
private def kept (specs : List (Spec Unit String ℕ)) : Option (List (List ℤ) × List (List (Option SubKey) × Bool)) :=
  match toComputations [] specs with
  | .error _ => none
  | .ok cs => match separate cs with
    | .error _ => none
    | .ok s => some (
      s.nonDerived.filterMap fun c => match c.body with
        | .labelWeights ids => some ids
        | _ => none,
      s.derived.filterMap fun c => match c.body with
        | .macroAverage _ _ _ sks _ _ => some (sks, false)
        | .weightedMacroAverage _ _ _ sks _ _ => some (sks, true)
        | _ => none)

private def cls (i : ℤ) : Option SubKey := some ⟨some i, none, none⟩

/-- A macro average and a weighted macro average of the same metric: the latter is not computed. -/
example : kept [
      { metrics := [auc], aggregate := some { kind := some .macroAvg, classWeights := [(0, 1), (1, 1)] } },
      { metrics := [auc], aggregate := some { kind := some .weighted, classWeights := [(0, 1), (1, 1)] } }] =
    some ([[0, 1]], [([cls 0, cls 1], false)]) := by
  decide +kernel

/-- Weighted macro averages of two metrics over different classes: both are computed, with the label weights of the first. -/
example : kept [
      { metrics := [auc], aggregate := some { kind := some .weighted, classWeights := [(0, 1), (1, 1)] } },
      { metrics := [{ auc with name := "f1", config := "F1" }], aggregate := some { kind := some .weighted, classWeights := [(2, 1), (3, 1)] } }] =
    some ([[0, 1]], [([cls 0, cls 1], true), ([cls 2, cls 3], true)]) := by
  decide +kernel

end MetricSpecs
end TFMA
