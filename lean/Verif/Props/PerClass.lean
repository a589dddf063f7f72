import Verif.Model.PerClass
import Verif.Py.DictLemmas
import Mathlib.Tactic.Common

/-!
# C149: a value reported for a class is the value of that class

calibration.py, cross_entropy_metrics.py, exact_match.py, mean_regression_error.py, squared_pearson_correlation.py and
tjur_discrimination.py of metrics/, with `merge_per_key_computations` of metric_util.py.

Specification: `Kind` lists for each metric the combiner it uses, what it asks of the labels and predictions and what is derived from
the result; `ownValue` is the metric of one model, output and sub key, computed from what `to_label_prediction_example_weight` yields
for exactly these.
-/

namespace TFMA
namespace PerClass

open MetricKeys Inputs

variable {V : Type}

/-- What a metric is: its combiner, whether it takes single values, whether it does with missing ones, and what is derived. -/
structure Kind where
  cls : String
  flatten : Bool := true
  allowNone : Bool := false
  derived : Option String := none

/-- A model, an output and a sub key. -/
abbrev Asked := String × String × Option SubKey

/-- The key a value for a model, an output and a sub key is reported under. -/
def askedKey (name : String) (weighted : Bool) (t : Asked) : MetricKey :=
  { name := name, modelName := t.1, outputName := t.2.1, subKey := t.2.2, exampleWeighted := some weighted }

/-- The labels, predictions and weights of a model, an output and a sub key, as the settings of the call ask for them. -/
def ownArgs (k : Kind) (c : Call) (t : Asked) : Args :=
  { specs := c.specs, model := t.1, output := t.2.1, subKey := t.2.2, aggregated := c.aggregation.isSome,
    classWeights := c.classWeights, exampleWeighted := c.exampleWeighted, flatten := k.flatten, allowNone := k.allowNone }

/-- The metric of a model, an output and a sub key. -/
def ownValue (sem : String → Args → List (Except Err (List Item)) → Except Err V) (res : String → V → V)
    (part : ℕ → List Fl → List ℕ) (data : List Raw) (k : Kind) (c : Call) (t : Asked) : Except Err V :=
  match sem k.cls (ownArgs k c t) (data.map (toLabelPredictionWeight part (ownArgs k c t))) with
  | .error e => .error e
  | .ok v => .ok (match k.derived with
    | none => v
    | some f => res f v)

/-- all models, outputs and sub keys asked for. -/
def asked (models outputs : List String) (subKeys : List (Option SubKey)) : List Asked :=
  models.flatMap fun m => outputs.flatMap fun o => subKeys.map fun s => (m, o, s)

theorem mem_asked {models outputs : List String} {subKeys : List (Option SubKey)} {m o : String} {s : Option SubKey} :
    (m, o, s) ∈ asked models outputs subKeys ↔ m ∈ models ∧ o ∈ outputs ∧ s ∈ subKeys := by
  simp only [asked, List.mem_flatMap, List.mem_map, Prod.mk.injEq]
  constructor
  · rintro ⟨m', hm, o', ho, s', hs, rfl, rfl, rfl⟩; exact ⟨hm, ho, hs⟩
  · rintro ⟨hm, ho, hs⟩; exact ⟨m, hm, o, ho, s, hs, rfl, rfl, rfl⟩

/-- The metrics whose values are those of their key, with the private names they use. -/
def ownMetrics : List ((Call → List Comp) × Kind) := [
  (meanLabel, ⟨"_WeightedLabelsPredictionsExamplesCombiner", true, true, some "mean_label"⟩),
  (meanPrediction, ⟨"_WeightedLabelsPredictionsExamplesCombiner", true, true, some "mean_prediction"⟩),
  (calibration, ⟨"_WeightedLabelsPredictionsExamplesCombiner", true, true, some "calibration"⟩),
  (binaryCrossEntropy, ⟨"_BinaryCrossEntropyCombiner", false, false, none⟩),
  (categoricalCrossEntropy, ⟨"_CategoricalCrossEntropyCombiner", false, false, none⟩),
  (meanAbsoluteError, ⟨"_MeanAbsoluteErrorCombiner", true, false, none⟩),
  (meanAbsolutePercentageError, ⟨"_MeanAbsolutePercentageErrorCombiner", true, false, none⟩),
  (meanSquaredError, ⟨"_MeanSquaredErrorCombiner", true, false, none⟩),
  (meanSquaredLogarithmicError, ⟨"_MeanSquaredLogarithmicErrorCombiner", true, false, none⟩)]

/-- The metrics that look at all classes whatever the sub key. -/
def otherMetrics : List ((Call → List Comp) × Kind) := [
  (exactMatch, ⟨"_ExactMatchCombiner", true, false, none⟩),
  (squaredPearson, ⟨"_SquaredPearsonCorrelationCombiner", true, false, none⟩),
  (coefficientOfDiscrimination, ⟨"_TjurDiscriminationCombiner", true, false, some "coefficient_of_discrimination"⟩)]

/-- The computations for one model, output and sub key: one, or one with a private name `p` and a value derived from it. `seen` is
the sub key whose labels and predictions the combiner looks at, `kept` the one in the private key. -/
def stepOf (k : Kind) (p : String) (seen kept : Option SubKey → Option SubKey) (c : Call) (t : Asked) : List Comp :=
  let a := ownArgs k c (t.1, t.2.1, seen t.2.2)
  match k.derived with
  | none => [.base (askedKey c.name c.exampleWeighted t) k.cls a]
  | some f => [.base (askedKey p c.exampleWeighted (t.1, t.2.1, kept t.2.2)) k.cls a,
      .derived (askedKey c.name c.exampleWeighted t) f (askedKey p c.exampleWeighted (t.1, t.2.1, kept t.2.2))]

theorem mergePerKey_eq (f : Call → List Comp) (k : Kind) (p : String) (seen kept : Option SubKey → Option SubKey)
    (h : ∀ c : Call, f c = stepOf k p seen kept c (c.model, c.output, c.subKey)) (c : Call) (models outputs : List String)
    (subKeys : List (Option SubKey)) :
    mergePerKey true f c models outputs subKeys = (asked models outputs subKeys).flatMap (stepOf k p seen kept c) := by
  simp only [mergePerKey, asked, List.flatMap_assoc, List.flatMap_map]
  congr 1; funext m; congr 1; funext o; congr 1; funext s
  rw [h]
  rfl

theorem run_append (sem : String → Args → List (Except Err (List Item)) → Except Err V) (res : String → V → V)
    (part : ℕ → List Fl → List ℕ) (data : List Raw) (xs ys : List Comp) (d : Dict MetricKey V) :
    run sem res part data d (xs ++ ys) = match run sem res part data d xs with
      | .error e => .error e
      | .ok d => run sem res part data d ys := by
  induction xs generalizing d with
  | nil => rfl
  | cons x xs ih =>
    simp only [List.cons_append, run]
    cases h : runOne sem res part data d x with
    | error e => rfl
    | ok d => exact ih d

theorem run_step (sem : String → Args → List (Except Err (List Item)) → Except Err V) (res : String → V → V)
    (part : ℕ → List Fl → List ℕ) (data : List Raw) (k : Kind) (p : String) (seen kept : Option SubKey → Option SubKey) (c : Call)
    (hp : c.name ≠ p) (t : Asked) (d : Dict MetricKey V) :
    match ownValue sem res part data k c (t.1, t.2.1, seen t.2.2) with
    | .error e => run sem res part data d (stepOf k p seen kept c t) = .error e
    | .ok v => ∃ d', run sem res part data d (stepOf k p seen kept c t) = .ok d' ∧
        Dict.get? d' (askedKey c.name c.exampleWeighted t) = some v ∧
        ∀ key, key ≠ askedKey c.name c.exampleWeighted t → key.name ≠ p → Dict.get? d' key = Dict.get? d key := by
  unfold ownValue stepOf
  cases hs : sem k.cls (ownArgs k c (t.1, t.2.1, seen t.2.2))
      (data.map (toLabelPredictionWeight part (ownArgs k c (t.1, t.2.1, seen t.2.2)))) with
  | error e =>
    simp only
    cases k.derived <;> simp only [run, runOne, hs]
  | ok v =>
    simp only
    cases k.derived with
    | none =>
      refine ⟨_, by simp only [run, runOne, hs], Dict.get?_set_self _ _ _, fun key hk _ => Dict.get?_set_ne _ _ (Ne.symm hk)⟩
    | some f =>
      refine ⟨Dict.set (Dict.set d (askedKey p c.exampleWeighted (t.1, t.2.1, kept t.2.2)) v)
        (askedKey c.name c.exampleWeighted t) (res f v), by simp only [run, runOne, hs, Dict.get?_set_self], Dict.get?_set_self _ _ _, fun key hk hn => ?_⟩
      rw [Dict.get?_set_ne _ _ (Ne.symm hk), Dict.get?_set_ne]
      rintro rfl; exact hn rfl

theorem run_all (sem : String → Args → List (Except Err (List Item)) → Except Err V) (res : String → V → V)
    (part : ℕ → List Fl → List ℕ) (data : List Raw) (k : Kind) (p : String) (seen kept : Option SubKey → Option SubKey) (c : Call)
    (hp : c.name ≠ p) (ts : List Asked) : ∀ (d d' : Dict MetricKey V),
    run sem res part data d (ts.flatMap (stepOf k p seen kept c)) = .ok d' →
    (∀ t ∈ ts, ∃ v, ownValue sem res part data k c (t.1, t.2.1, seen t.2.2) = .ok v ∧
      Dict.get? d' (askedKey c.name c.exampleWeighted t) = some v) ∧
    ∀ key, (∀ t ∈ ts, key ≠ askedKey c.name c.exampleWeighted t) → key.name ≠ p → Dict.get? d' key = Dict.get? d key := by
  induction ts with
  | nil => intro d d' h; cases h; exact ⟨by simp, fun _ _ _ => rfl⟩
  | cons t ts ih =>
    intro d d' h
    rw [List.flatMap_cons, run_append] at h
    have hstep := run_step sem res part data k p seen kept c hp t d
    split at hstep
    · rw [hstep] at h; cases h
    · rename_i v hv
      obtain ⟨d₁, h1, h2, h3⟩ := hstep
      rw [h1] at h
      obtain ⟨h4, h5⟩ := ih d₁ d' h
      refine ⟨fun u hu => ?_, fun key hk hn => ?_⟩
      · by_cases hin : u ∈ ts
        · exact h4 u hin
        · rcases List.mem_cons.1 hu with rfl | hu
          · refine ⟨v, hv, ?_⟩
            rw [h5 _ (fun w hw he => ?_) hp]
            · exact h2
            · have : u = w := by
                simp only [askedKey, MetricKey.mk.injEq] at he
                obtain ⟨_, e1, e2, e3, _⟩ := he
                exact Prod.ext e1 (Prod.ext e2 e3)
              exact hin (this ▸ hw)
          · exact absurd hu hin
      · rw [h5 key (fun w hw => hk w (List.mem_cons_of_mem _ hw)) hn, h3 key (hk t List.mem_cons_self) hn]

theorem run_accepts (sem : String → Args → List (Except Err (List Item)) → Except Err V) (res : String → V → V)
    (part : ℕ → List Fl → List ℕ) (data : List Raw) (k : Kind) (p : String) (seen kept : Option SubKey → Option SubKey) (c : Call)
    (hp : c.name ≠ p) (ts : List Asked) (h : ∀ t ∈ ts, ∃ v, ownValue sem res part data k c (t.1, t.2.1, seen t.2.2) = .ok v) :
    ∀ d, ∃ d', run sem res part data d (ts.flatMap (stepOf k p seen kept c)) = .ok d' := by
  induction ts with
  | nil => exact fun d => ⟨d, rfl⟩
  | cons t ts ih =>
    intro d
    rw [List.flatMap_cons, run_append]
    have hstep := run_step sem res part data k p seen kept c hp t d
    obtain ⟨v, hv⟩ := h t List.mem_cons_self
    rw [hv] at hstep
    obtain ⟨d₁, h1, _⟩ := hstep
    rw [h1]
    exact ih (fun u hu => h u (List.mem_cons_of_mem _ hu)) d₁

/-- The private names used by the metrics. -/
def privateNames : List String := ["_weighted_labels_predictions_examples", "_tjur_discrimination"]

theorem own_steps : ∀ e ∈ ownMetrics, ∀ c : Call,
    e.1 c = stepOf e.2 "_weighted_labels_predictions_examples" id id c (c.model, c.output, c.subKey) := by
  intro e he c
  simp only [ownMetrics, List.mem_cons, List.not_mem_nil, or_false] at he
  rcases he with rfl | rfl | rfl | rfl | rfl | rfl | rfl | rfl | rfl <;> rfl

theorem other_steps : ∀ e ∈ otherMetrics, ∀ c : Call,
    e.1 c = stepOf e.2 "_tjur_discrimination" (fun _ => none) (fun _ => none) c (c.model, c.output, c.subKey) := by
  intro e he c
  simp only [otherMetrics, List.mem_cons, List.not_mem_nil, or_false] at he
  rcases he with rfl | rfl | rfl <;> rfl

/-- **C149** (own data; partial: for nine of the thirteen metrics). What is reported under the key of a model, an output and a sub
key is the metric of exactly these, for whatever models, outputs and sub keys are asked for; and nothing else is reported but under
private names. -/
theorem C149_own_data_partial (sem : String → Args → List (Except Err (List Item)) → Except Err V) (res : String → V → V)
    (part : ℕ → List Fl → List ℕ) (data : List Raw) (f : Call → List Comp) (k : Kind) (hf : (f, k) ∈ ownMetrics) (c : Call)
    (hc : c.name ∉ privateNames) (models outputs : List String) (subKeys : List (Option SubKey)) (d : Dict MetricKey V)
    (h : run sem res part data [] (mergePerKey true f c models outputs subKeys) = .ok d) :
    (∀ m ∈ models, ∀ o ∈ outputs, ∀ s ∈ subKeys, ∃ v, ownValue sem res part data k c (m, o, s) = .ok v ∧
      Dict.get? d (askedKey c.name c.exampleWeighted (m, o, s)) = some v) ∧
    ∀ key v, Dict.get? d key = some v → key.name ∉ privateNames →
      ∃ m ∈ models, ∃ o ∈ outputs, ∃ s ∈ subKeys, key = askedKey c.name c.exampleWeighted (m, o, s) := by
  have hp : c.name ≠ "_weighted_labels_predictions_examples" := fun e => hc (by simp [privateNames, e])
  rw [mergePerKey_eq f k _ id id (own_steps _ hf)] at h
  obtain ⟨h1, h2⟩ := run_all sem res part data k _ id id c hp _ _ _ h
  refine ⟨fun m hm o ho s hs => h1 (m, o, s) (mem_asked.2 ⟨hm, ho, hs⟩), fun key v hv hn => ?_⟩
  by_contra hno
  have := h2 key (fun t ht he => hno ?_) (fun e => hn (by simp [privateNames, e]))
  · rw [hv] at this; cases this
  · obtain ⟨m, o, s⟩ := t
    obtain ⟨hm, ho, hs⟩ := mem_asked.1 ht
    exact ⟨m, hm, o, ho, s, hs, he⟩

/-- **C149** (acceptance). The computations fail only if a metric asked for cannot be computed itself. -/
theorem C149_accepted (sem : String → Args → List (Except Err (List Item)) → Except Err V) (res : String → V → V)
    (part : ℕ → List Fl → List ℕ) (data : List Raw) (f : Call → List Comp) (k : Kind) (hf : (f, k) ∈ ownMetrics) (c : Call)
    (hc : c.name ∉ privateNames) (models outputs : List String) (subKeys : List (Option SubKey)) :
    (∃ d, run sem res part data [] (mergePerKey true f c models outputs subKeys) = .ok d) ↔
      ∀ m ∈ models, ∀ o ∈ outputs, ∀ s ∈ subKeys, ∃ v, ownValue sem res part data k c (m, o, s) = .ok v := by
  constructor
  · rintro ⟨d, h⟩ m hm o ho s hs
    obtain ⟨v, hv, _⟩ := (C149_own_data_partial sem res part data f k hf c hc models outputs subKeys d h).1 m hm o ho s hs
    exact ⟨v, hv⟩
  · intro h
    have hp : c.name ≠ "_weighted_labels_predictions_examples" := fun e => hc (by simp [privateNames, e])
    rw [mergePerKey_eq f k _ id id (own_steps _ hf)]
    refine run_accepts sem res part data k _ id id c hp _ (fun t ht => ?_) []
    obtain ⟨m, o, s⟩ := t
    obtain ⟨hm, ho, hs⟩ := mem_asked.1 ht
    exact h m hm o ho s hs

/-- **C149** (full claim fails: exact match, squared Pearson correlation and coefficient of discrimination). Whatever the data, the
value reported under a sub key is the one of all classes together, without sub key. -/
theorem C149_sub_key_ignored_fails (sem : String → Args → List (Except Err (List Item)) → Except Err V) (res : String → V → V)
    (part : ℕ → List Fl → List ℕ) (data : List Raw) (f : Call → List Comp) (k : Kind) (hf : (f, k) ∈ otherMetrics) (c : Call)
    (hc : c.name ∉ privateNames) (models outputs : List String) (subKeys : List (Option SubKey)) (d : Dict MetricKey V)
    (h : run sem res part data [] (mergePerKey true f c models outputs subKeys) = .ok d) :
    ∀ m ∈ models, ∀ o ∈ outputs, ∀ s ∈ subKeys, ∃ v, ownValue sem res part data k c (m, o, none) = .ok v ∧
      Dict.get? d (askedKey c.name c.exampleWeighted (m, o, s)) = some v := by
  have hp : c.name ≠ "_tjur_discrimination" := fun e => hc (by simp [privateNames, e])
  rw [mergePerKey_eq f k _ _ _ (other_steps _ hf)] at h
  obtain ⟨h1, _⟩ := run_all sem res part data k _ _ _ c hp _ _ _ h
  exact fun m hm o ho s hs => h1 (m, o, s) (mem_asked.2 ⟨hm, ho, hs⟩)

/-- **C149** (dependencies). Whatever the computations, if they all succeed then every value a derived metric is computed from is among the
values reported. -/
theorem C149_dependencies (sem : String → Args → List (Except Err (List Item)) → Except Err V) (res : String → V → V)
    (part : ℕ → List Fl → List ℕ) (data : List Raw) (cs : List Comp) (d0 d : Dict MetricKey V)
    (h : run sem res part data d0 cs = .ok d) :
    (∀ k v, Dict.get? d0 k = some v → ∃ v', Dict.get? d k = some v') ∧
    ∀ k fn dep, Comp.derived k fn dep ∈ cs → ∃ v, Dict.get? d dep = some v := by
  have keep : ∀ (d : Dict MetricKey V) k x k' v, Dict.get? d k' = some v → ∃ v', Dict.get? (Dict.set d k x) k' = some v' := by
    intro d k x k' v hv
    by_cases hk : k' = k
    · subst hk; exact ⟨x, Dict.get?_set_self ..⟩
    · exact ⟨v, by rw [Dict.get?_set_ne _ _ (Ne.symm hk)]; exact hv⟩
  induction cs generalizing d0 with
  | nil =>
    simp only [run] at h; cases h
    exact ⟨fun k v hv => ⟨v, hv⟩, by simp⟩
  | cons c cs ih =>
    simp only [run] at h
    split at h
    · cases h
    rename_i d1 h1
    obtain ⟨g1, g2⟩ := ih d1 h
    have hold : ∀ k v, Dict.get? d0 k = some v → ∃ v', Dict.get? d1 k = some v' := by
      intro k v hv
      cases c with
      | base k' cls a =>
        simp only [runOne] at h1
        split at h1
        · cases h1
        · cases h1; exact keep _ _ _ _ _ hv
      | derived k' fn dep =>
        simp only [runOne] at h1
        split at h1
        · cases h1
        · cases h1; exact keep _ _ _ _ _ hv
    refine ⟨fun k v hv => ?_, fun k fn dep hm => ?_⟩
    · obtain ⟨v', hv'⟩ := hold k v hv
      exact g1 k v' hv'
    · rcases List.mem_cons.1 hm with rfl | hm
      · simp only [runOne] at h1
        split at h1
        · cases h1
        · rename_i v hv
          obtain ⟨v', hv'⟩ := hold dep v hv
          exact g1 dep v' hv'
      · exact g2 k fn dep hm

/-- **C149** (full claim fails: relative coefficient of discrimination). Nothing is ever reported under a sub key; if a sub key was
asked for, one value is reported, under a key without sub key, that nobody asked for. -/
theorem C149_relative_fails (sem : String → Args → List (Except Err (List Item)) → Except Err V) (res : String → V → V)
    (part : ℕ → List Fl → List ℕ) (data : List Raw) (c : Call) (hc : c.name ∉ privateNames) (models outputs : List String)
    (subKeys : List (Option SubKey)) (d : Dict MetricKey V)
    (h : run sem res part data [] (mergePerKey false relativeCoefficientOfDiscrimination c models outputs subKeys) = .ok d) :
    (∀ m o s, Dict.get? d (askedKey c.name c.exampleWeighted (m, o, some s)) = none) ∧
    ∀ m ∈ models, ∀ o ∈ outputs, subKeys ≠ [] → ∃ v, Dict.get? d (askedKey c.name c.exampleWeighted (m, o, none)) = some v := by
  have hp : c.name ≠ "_tjur_discrimination" := fun e => hc (by simp [privateNames, e])
  let k : Kind := ⟨"_TjurDiscriminationCombiner", true, false, some "relative_coefficient_of_discrimination"⟩
  have he : mergePerKey false relativeCoefficientOfDiscrimination c models outputs subKeys =
      (asked models outputs (subKeys.map fun _ => none)).flatMap
        (stepOf k "_tjur_discrimination" (fun _ => none) (fun _ => none) c) := by
    simp only [mergePerKey, asked, List.flatMap_assoc, List.flatMap_map, List.map_map]
    rfl
  rw [he] at h
  obtain ⟨h1, h2⟩ := run_all sem res part data k _ _ _ c hp _ _ _ h
  refine ⟨fun m o s => ?_, fun m hm o ho hs => ?_⟩
  · rw [h2 _ (fun t ht e => ?_) hp]
    · rfl
    · obtain ⟨m', o', s'⟩ := t
      obtain ⟨_, _, hs⟩ := mem_asked.1 ht
      obtain ⟨_, _, rfl⟩ := List.mem_map.1 hs
      simp [askedKey] at e
  · obtain ⟨s, hs⟩ := List.exists_mem_of_ne_nil _ hs
    obtain ⟨v, _, hv⟩ := h1 (m, o, none) (mem_asked.2 ⟨hm, ho, List.mem_map.2 ⟨s, hs, rfl⟩⟩)
    exact ⟨v, hv⟩

/-! ### Concrete cases -/

/-- The squared Pearson correlation over examples with one label and one prediction each; mean absolute errors are not needed here. -/
def pearsonSem (_ : String) (_ : Args) (xs : List (Except Err (List Item))) : Except Err Fl := do
  let acc ← xs.foldlM (fun (a : Combiners.PearsonAcc) x => do
    let items ← x
    items.foldlM (fun a i => match i.label.data, i.prediction.data, i.weight.data with
      | [l], [.fin p], [w] => .ok (Combiners.pearsonStep a ⟨l, p, w⟩)
      | _, _, _ => .error .typeError) a) Combiners.pearsonCombiner.create
  return Combiners.pearsonExtract acc

/-- Three examples of a model with two classes; the first class is predicted perfectly, the second is not. -/
def twoClasses : List Raw := [
  ⟨.leaf (some ⟨[2], [1, 0]⟩), .leaf (some ⟨[2], [.fin 1, .fin 1]⟩), .leaf none⟩,
  ⟨.leaf (some ⟨[2], [0, 1]⟩), .leaf (some ⟨[2], [.fin 0, .fin 1]⟩), .leaf none⟩,
  ⟨.leaf (some ⟨[2], [0, 1]⟩), .leaf (some ⟨[2], [.fin 0, .fin 0]⟩), .leaf none⟩]

def class0 : Option SubKey := some ⟨some 0, none, none⟩
def class1 : Option SubKey := some ⟨some 1, none, none⟩
def pearsonKind : Kind := ⟨"_SquaredPearsonCorrelationCombiner", true, false, none⟩

/-- **C149** (full claim fails: witness). The correlation of the first class is 1 and that of the second 1/4, but 1/9 is reported
for both. -/
theorem C149_pearson_fails :
    ownValue pearsonSem (fun _ v => v) (fun _ _ => []) twoClasses pearsonKind ⟨"r", [], "", "", none, none, [], false⟩
        ("", "", class0) = .ok (.fin 1) ∧
    ownValue pearsonSem (fun _ v => v) (fun _ _ => []) twoClasses pearsonKind ⟨"r", [], "", "", none, none, [], false⟩
        ("", "", class1) = .ok (.fin (1/4)) ∧
    run pearsonSem (fun _ v => v) (fun _ _ => []) twoClasses [] (mergePerKey true squaredPearson
        ⟨"r", [], "", "", none, none, [], false⟩ [""] [""] [class0, class1]) =
      .ok [(askedKey "r" false ("", "", class0), .fin (1/9)), (askedKey "r" false ("", "", class1), .fin (1/9))] := by
  refine ⟨?_, ?_, ?_⟩ <;> decide +kernel

example : run pearsonSem (fun _ v => v) (fun _ _ => []) twoClasses [] (mergePerKey true meanAbsoluteError
    ⟨"r", [], "", "", none, none, [], false⟩ [""] [""] [class0, class1]) =
    .ok [(askedKey "r" false ("", "", class0), .fin 1), (askedKey "r" false ("", "", class1), .fin (1/4))] := by decide +kernel

end PerClass
end TFMA
