import Verif.Model.SlicingColumn
import Verif.Props.SpecBuild

/-!
# C164: the column of counts of the slicing view
-/

namespace TFMA
namespace SlicingColumn

open Config

/-- The first model that is not a baseline has a key of example weights. -/
def Weighted (config : EvalConfig) : Prop :=
  ∃ before spec after, config.modelSpecs = before ++ spec :: after ∧ (∀ s ∈ before, s.isBaseline = true) ∧
    spec.isBaseline = false ∧ spec.exampleWeightKey ≠ ""

/-- The column for a config: the (weighted) number of examples under its current or its legacy name. -/
inductive ColumnFor (config : EvalConfig) : String → Prop where
  | weighted : config.metricsSpecs ≠ [] → Weighted config → ColumnFor config "weighted_example_count"
  | count : config.metricsSpecs ≠ [] → ¬ Weighted config → ColumnFor config "example_count"
  | legacyWeighted : config.metricsSpecs = [] → Weighted config → ColumnFor config "post_export_metrics/example_weight"
  | legacyCount : config.metricsSpecs = [] → ¬ Weighted config → ColumnFor config "post_export_metrics/example_count"

private theorem candidate_split (l before after : List ModelSpec) (s : ModelSpec) (h : l = before ++ s :: after)
    (hb : ∀ x ∈ before, x.isBaseline = true) (hs : s.isBaseline = false) : candidate l = some s := by
  induction before generalizing l with
  | nil => subst h; simp [candidate, hs]
  | cons x xs ih =>
    subst h
    have hx := hb x (by simp)
    simp only [List.cons_append, candidate, hx]
    exact ih _ rfl fun y hy => hb y (by simp [hy])

private theorem candidate_some (l : List ModelSpec) (s : ModelSpec) (h : candidate l = some s) :
    ∃ before after, l = before ++ s :: after ∧ (∀ x ∈ before, x.isBaseline = true) ∧ s.isBaseline = false := by
  induction l with
  | nil => cases h
  | cons x xs ih =>
    unfold candidate at h
    split at h
    · rename_i hx
      cases h
      exact ⟨[], xs, rfl, by simp, by simpa using hx⟩
    · rename_i hx
      obtain ⟨b, a, rfl, hb, hs⟩ := ih h
      refine ⟨x :: b, a, rfl, ?_, hs⟩
      intro y hy
      rcases List.mem_cons.1 hy with rfl | hy
      · simpa using hx
      · exact hb y hy

private theorem weighted_iff (config : EvalConfig) :
    Weighted config ↔ ∃ s, candidate config.modelSpecs = some s ∧ s.exampleWeightKey ≠ "" := by
  constructor
  · rintro ⟨b, s, a, h, hb, hs, hw⟩
    exact ⟨s, candidate_split _ b a s h hb hs, hw⟩
  · rintro ⟨s, h, hw⟩
    obtain ⟨b, a, h1, h2, h3⟩ := candidate_some _ _ h
    exact ⟨b, s, a, h1, h2, h3, hw⟩

private theorem columnFor_default (config : EvalConfig) : ColumnFor config (defaultColumn config) := by
  have hw := weighted_iff config
  have hm : config.metricsSpecs.isEmpty = true ↔ config.metricsSpecs = [] := List.isEmpty_iff
  unfold defaultColumn
  cases he : config.metricsSpecs.isEmpty with
  | true =>
    have hm' := hm.1 he
    cases hc : candidate config.modelSpecs with
    | none =>
      rw [hc] at hw
      exact .legacyCount hm' fun h => by obtain ⟨s, h, _⟩ := hw.1 h; cases h
    | some s =>
      rw [hc] at hw
      by_cases hk : s.exampleWeightKey = ""
      · simp only [hk]
        exact .legacyCount hm' fun h => by
          obtain ⟨s', h, h2⟩ := hw.1 h
          cases h
          exact h2 hk
      · simp only [ne_eq, hk, not_false_eq_true, if_true]
        exact .legacyWeighted hm' (hw.2 ⟨s, rfl, hk⟩)
  | false =>
    have hm' : config.metricsSpecs ≠ [] := fun h => by rw [hm.2 h] at he; cases he
    cases hc : candidate config.modelSpecs with
    | none =>
      rw [hc] at hw
      exact .count hm' fun h => by obtain ⟨s, h, _⟩ := hw.1 h; cases h
    | some s =>
      rw [hc] at hw
      by_cases hk : s.exampleWeightKey = ""
      · simp only [hk]
        exact .count hm' fun h => by
          obtain ⟨s', h, h2⟩ := hw.1 h
          cases h
          exact h2 hk
      · simp only [ne_eq, hk, not_false_eq_true, if_true]
        exact .weighted hm' (hw.2 ⟨s, rfl, hk⟩)

/-- **C164**: the column is the one that is asked for; without one (or with an empty name) it is the number of examples, weighted if
and only if the first model that is not a baseline has a key of example weights, under the name it has in the results. -/
theorem C164_column (config : EvalConfig) :
    (∀ name, name ≠ "" → slicingColumn config (some name) = name) ∧
    ∀ use, use = none ∨ use = some "" → ∀ column, slicingColumn config use = column ↔ ColumnFor config column := by
  constructor
  · intro name h
    simp [slicingColumn, h]
  · intro use hu column
    have h : slicingColumn config use = defaultColumn config := by rcases hu with rfl | rfl <;> simp [slicingColumn]
    rw [h]
    constructor
    · rintro rfl
      exact columnFor_default config
    · intro hc
      have hd := columnFor_default config
      revert hd
      generalize defaultColumn config = d
      intro hd
      cases hc <;> cases hd <;> first | rfl | contradiction

example : slicingColumn { modelSpecs := [{ isBaseline := true, exampleWeightKey := "w" }, { name := "m" }], metricsSpecs := [{}] } none =
    "example_count" := by decide

example : Weighted { modelSpecs := [{ isBaseline := true }, { exampleWeightKey := "w" }] } :=
  ⟨[{ isBaseline := true }], { exampleWeightKey := "w" }, [], rfl, by simp, rfl, by decide⟩

variable {M B S T : Type}

/-- **C164**: if the specs of the config were generated with the counts that are added by default, and the metrics are for some output,
then the column is a metric that is computed, with example weights if and only if the model has them. -/
theorem C164_computed (env : SpecBuild.Env M MetricConfig) (name : MetricConfig → String) (hn : name env.count = "example_count")
    (hwn : name env.weightedCount = "weighted_example_count") (a : SpecBuild.Args M)
    (specs : List (SpecBuild.Built MetricConfig B S T)) (h : SpecBuild.specsFromMetrics env a = .ok specs)
    (h1 : a.exampleCount ≠ some false) (h2 : a.weightedCount ≠ some false) (hwf : SpecBuild.DictsWF a) (hmix : ¬ SpecBuild.Mixed a)
    (hq : SpecBuild.ByOutput a → a.queryKey = "" ∧ a.outputWeights = []) (outs : List String) (ho : SpecBuild.Counted a outs)
    (config : EvalConfig) (hm : config.metricsSpecs.map (·.metrics) = specs.map (·.metrics)) :
    ∃ s ∈ specs, ∃ c ∈ s.metrics, name c = slicingColumn config none ∧
      (Weighted config → s.options.weights = some (true, false)) ∧ (¬ Weighted config → s.options.weights = some (false, true)) := by
  have asked := SpecBuild.C119_asked_partial env a specs h hwf hmix hq
  obtain ⟨s, hs, hsc, hso⟩ := (asked env.count _).2 (.count h1 ⟨outs, ho⟩ rfl)
  obtain ⟨t, ht, htc, hto⟩ := (asked env.weightedCount _).2 (.weightedCount outs h2 ho rfl)
  have hne : config.metricsSpecs ≠ [] := by
    intro he
    rw [he] at hm
    cases specs with
    | nil => cases hs
    | cons => cases hm
  have hc := ((C164_column config).2 none (Or.inl rfl) _).1 rfl
  by_cases hw : Weighted config
  · refine ⟨t, ht, _, htc, ?_, fun _ => by rw [hto], fun h => absurd hw h⟩
    exact hwn.trans (((C164_column config).2 none (Or.inl rfl) _).2 (.weighted hne hw)).symm
  · refine ⟨s, hs, _, hsc, ?_, fun h => absurd h hw, fun _ => by rw [hso]⟩
    exact hn.trans (((C164_column config).2 none (Or.inl rfl) _).2 (.count hne hw)).symm

/-- Configurations by class name, for the example. -/
def exampleEnv : SpecBuild.Env String MetricConfig where
  config m := .ok { className := m }
  count := { className := "ExampleCount" }
  weightedCount := { className := "WeightedExampleCount" }

example : ∃ specs : List (SpecBuild.Built MetricConfig Unit Unit Unit),
    SpecBuild.specsFromMetrics exampleEnv { metrics := .list ["AUC"] } = .ok specs ∧ specs.length = 3 ∧
    SpecBuild.Counted ({ metrics := .list ["AUC"] } : SpecBuild.Args String) [] :=
  by
  refine ⟨_, rfl, rfl, Or.inr ⟨?_, rfl⟩⟩
  rintro (⟨d, hd⟩ | ⟨d, hd⟩) <;> cases hd

/-- **C164** fails for a config that is written by hand: if the model has a key of example weights and the weighted number of examples
is not among the metrics, then the column is not among the results. -/
theorem C164_given_fails (name : MetricConfig → String) (config : EvalConfig) (hm : config.metricsSpecs ≠ []) (hw : Weighted config)
    (hn : ∀ s ∈ config.metricsSpecs, ∀ c ∈ s.metrics, name c ≠ "weighted_example_count") :
    ¬ ∃ s ∈ config.metricsSpecs, ∃ c ∈ s.metrics, name c = slicingColumn config none := by
  rintro ⟨s, hs, c, hc, h⟩
  rw [((C164_column config).2 none (Or.inl rfl) _).2 (.weighted hm hw)] at h
  exact hn s hs c hc h

example : ∃ config : EvalConfig, config.metricsSpecs ≠ [] ∧ Weighted config ∧
    ∀ s ∈ config.metricsSpecs, ∀ c ∈ s.metrics, c.className ≠ "weighted_example_count" :=
  ⟨{ modelSpecs := [{ exampleWeightKey := "w" }], metricsSpecs := [{ metrics := [{ className := "ExampleCount" }] }] },
    by simp, ⟨[], _, [], rfl, by simp, rfl, by decide⟩, by simp⟩

/-- **C164** fails for models that have weights by output: their examples are shown as if they had no weights. -/
theorem C164_by_output_fails (config : EvalConfig) (hm : config.metricsSpecs ≠ []) (hk : ∀ s ∈ config.modelSpecs, s.exampleWeightKey = "") :
    slicingColumn config none = "example_count" := by
  refine ((C164_column config).2 none (Or.inl rfl) _).2 (.count hm ?_)
  rintro ⟨b, s, a, h, _, _, hw⟩
  exact hw (hk s (by rw [h]; simp))

example : slicingColumn { modelSpecs := [{ exampleWeightKeys := [("a", "w")] }], metricsSpecs := [{}] } none = "example_count" := by decide

end SlicingColumn
end TFMA
