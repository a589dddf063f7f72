import Mathlib.Data.List.Forall2
import Verif.Model.TopLevel
import Verif.Props.Config
import Verif.Props.ResultFiles
import Verif.Py.DictLemmas

/-!
# The top level functions

C131: what `default_eval_shared_model`, `run_model_analysis`, its convenience functions and `analyze_raw_data` evaluate and return.
-/

namespace TFMA
namespace TopLevel

open Config ResultFiles

/-! ### The shared model -/

/-- The spec of a model: the only one if the model has no name, otherwise the first one with the name. -/
def SpecOf (specs : List ModelSpec) (name : String) (s : ModelSpec) : Prop :=
  (specs = [s] ∧ name = "") ∨ ∃ pre post, specs = pre ++ s :: post ∧ s.name = name ∧ ∀ t ∈ pre, t.name ≠ name

/-- The type of a model: the one of its spec if it gives one; otherwise that of a Keras model if the path has one. -/
inductive TypeOf (keras : String → Bool) (path : String) (s : ModelSpec) : String → Prop where
  | given : s.modelType ≠ "" → TypeOf keras path s s.modelType
  | keras : s.modelType = "" → path ≠ "" → keras path = true → TypeOf keras path s "tf_keras"
  | generic : s.modelType = "" → ¬ (path ≠ "" ∧ keras path = true) → TypeOf keras path s "tf_generic"

/-- The tags used for loading: those given; otherwise "eval" for an eval model and "serve" for all others. -/
def TagsOf (tags : Option (List String)) (type : String) (l : List String) : Prop :=
  tags = some l ∨ (tags = none ∧ ((type = "tfma_eval" ∧ l = ["eval"]) ∨ (type ≠ "tfma_eval" ∧ l = ["serve"])))

/-- The weights: those of the spec, and the argument if it has none. -/
def WeightsOf (s : ModelSpec) (given w : WeightKey) : Prop :=
  (s.exampleWeightKey ≠ "" ∧ w = .key s.exampleWeightKey) ∨
  (s.exampleWeightKey = "" ∧ s.exampleWeightKeys ≠ [] ∧ w = .keys s.exampleWeightKeys) ∨
  (s.exampleWeightKey = "" ∧ s.exampleWeightKeys = [] ∧ w = given)

/-- A default loader loads the model with the tags, unless there is a custom one or TensorFlow cannot load the type. -/
def LoaderOf (a : ModelArgs) (type : String) (tags : List String) (l : Option (List String)) : Prop :=
  (a.customLoader = false ∧ type ∈ Pipeline.validTypes ∧ l = some tags) ∨
  (¬ (a.customLoader = false ∧ type ∈ Pipeline.validTypes) ∧ l = none)

private theorem modelSpec_iff (specs : List ModelSpec) (name : String) (s : ModelSpec) :
    modelSpec specs name = some s ↔ SpecOf specs name s := by
  have hfind : ∀ l : List ModelSpec, (l.find? fun s => s.name == name) = some s ↔
      ∃ pre post, l = pre ++ s :: post ∧ s.name = name ∧ ∀ t ∈ pre, t.name ≠ name := by
    intro l
    rw [List.find?_eq_some_iff_append]
    constructor
    · rintro ⟨h1, pre, post, h2, h3⟩
      exact ⟨pre, post, h2, by simpa using h1, fun t ht => by simpa using h3 t ht⟩
    · rintro ⟨pre, post, h2, h1, h3⟩
      exact ⟨by simpa using h1, pre, post, h2, fun t ht => by simpa using h3 t ht⟩
  unfold SpecOf
  match specs with
  | [] =>
    show List.find? (fun s => s.name == name) [] = some s ↔ _
    rw [hfind]
    simp
  | [t] =>
    simp only [modelSpec]
    by_cases hn : name = ""
    · rw [if_pos hn]
      subst hn
      constructor
      · intro h
        cases h
        exact Or.inl ⟨rfl, rfl⟩
      · rintro (⟨h, _⟩ | ⟨pre, post, h, h2, h3⟩)
        · rw [(List.cons.inj h).1]
        · have : (t :: []).length = (pre ++ s :: post).length := congrArg _ h
          simp only [List.length_cons, List.length_nil, List.length_append] at this
          have hp : pre = [] := List.eq_nil_of_length_eq_zero (by omega)
          subst hp
          rw [(List.cons.inj h).1]
    · rw [if_neg hn]
      have := hfind [t]
      simp only [List.find?_cons, List.find?_nil] at this
      by_cases ht : t.name = name
      · rw [if_pos ht]
        simp only [ht, beq_self_eq_true] at this
        rw [this]
        simp [hn]
      · rw [if_neg ht]
        have hb : (t.name == name) = false := by simpa using ht
        simp only [hb] at this
        rw [this]
        simp [hn]
  | t :: u :: rest =>
    show List.find? (fun s => s.name == name) (t :: u :: rest) = some s ↔ _
    rw [hfind]
    simp

private theorem type_iff (keras : String → Bool) (path : String) (s : ModelSpec) (tags : Option (List String)) (t : String) :
    modelType keras s path tags = t ↔ TypeOf keras path s t := by
  unfold modelType
  by_cases h1 : s.modelType ≠ ""
  · rw [if_pos h1]
    constructor
    · rintro rfl; exact .given h1
    · intro h
      cases h with
      | given => rfl
      | keras h => exact absurd h h1
      | generic h => exact absurd h h1
  · rw [if_neg h1]
    rw [not_not] at h1
    by_cases h2 : path ≠ "" ∧ keras path = true
    · rw [if_pos h2]
      constructor
      · rintro rfl; exact .keras h1 h2.1 h2.2
      · intro h
        cases h with
        | given h => exact absurd h1 h
        | keras => rfl
        | generic _ h => exact absurd h2 h
    · rw [if_neg h2]
      constructor
      · rintro rfl; exact .generic h1 h2
      · intro h
        cases h with
        | given h => exact absurd h1 h
        | keras _ h h' => exact absurd ⟨h, h'⟩ h2
        | generic => rfl

private theorem build_iff (a : ModelArgs) (b : Bool) (type : String) (tags : List String) (w : WeightKey) (i : Bool) (m : SharedModel) :
    build a b type tags w i = .ok m ↔
      ¬ (b = true ∧ a.rubberStamp = true) ∧ m.modelName = a.modelName ∧ m.modelPath = some a.path ∧ m.rubberStamp = a.rubberStamp ∧
      m.isBaseline = b ∧ m.modelType = type ∧ m.weightKey = w ∧ m.includeDefaultMetrics = i ∧ LoaderOf a type tags m.loaderTags := by
  unfold build LoaderOf
  by_cases h : (b && a.rubberStamp) = true
  · rw [if_pos h]
    simp only [Bool.and_eq_true] at h
    simp [h]
  · rw [if_neg h]
    simp only [Bool.and_eq_true] at h
    simp only [h, not_false_eq_true, true_and, Except.ok.injEq]
    have hv : ∀ t, Pipeline.validTypes.contains t = true ↔ t ∈ Pipeline.validTypes := by intro t; simp
    have hc : (!a.customLoader && Pipeline.validTypes.contains type) = true ↔
        a.customLoader = false ∧ type ∈ Pipeline.validTypes := by
      rw [Bool.and_eq_true, hv]
      simp
    constructor
    · rintro rfl
      refine ⟨rfl, rfl, rfl, rfl, rfl, rfl, rfl, ?_⟩
      by_cases hh : (!a.customLoader && Pipeline.validTypes.contains type) = true
      · exact Or.inl ⟨(hc.1 hh).1, (hc.1 hh).2, if_pos hh⟩
      · exact Or.inr ⟨fun h => hh (hc.2 h), if_neg hh⟩
    · obtain ⟨n, b', r, p, t, w', i', l⟩ := m
      rintro ⟨rfl, rfl, rfl, rfl, rfl, rfl, rfl, hl⟩
      rcases hl with ⟨h1, h2, h3⟩ | ⟨h1, h2⟩
      · simp only at h3
        subst h3
        rw [if_pos (hc.2 ⟨h1, h2⟩)]
      · simp only at h2
        subst h2
        rw [if_neg (fun h => h1 (hc.1 h))]

/-- **C131 (a model of a configuration).**  `default_eval_shared_model` with a configuration makes a model exactly if the configuration has a
spec for it (and it is not a rubber stamped baseline).  The model has the name and path given, is a baseline if its spec says so, has the
type, the weights and the tags above, and includes the default metrics as the configuration says, if it says so. -/
theorem C131_model (keras : String → Bool) (a : ModelArgs) (config : EvalConfig) (hc : a.config = some config) (m : SharedModel) :
    defaultSharedModel keras a = .ok m ↔
      ∃ s tags, SpecOf config.modelSpecs a.modelName s ∧ ¬ (s.isBaseline = true ∧ a.rubberStamp = true) ∧
        m.modelName = a.modelName ∧ m.modelPath = some a.path ∧ m.rubberStamp = a.rubberStamp ∧ m.isBaseline = s.isBaseline ∧
        TypeOf keras a.path s m.modelType ∧ WeightsOf s a.weightKey m.weightKey ∧
        (config.options.includeDefaultMetrics = some m.includeDefaultMetrics ∨
          (config.options.includeDefaultMetrics = none ∧ m.includeDefaultMetrics = a.includeDefaultMetrics)) ∧
        TagsOf a.tags m.modelType tags ∧ LoaderOf a m.modelType tags m.loaderTags := by
  unfold defaultSharedModel
  rw [hc]
  simp only
  have hw : ∀ s w, specWeights s a.weightKey = w ↔ WeightsOf s a.weightKey w := by
    intro s w
    unfold specWeights WeightsOf
    by_cases h1 : s.exampleWeightKey = ""
    · by_cases h2 : s.exampleWeightKeys = []
      · simp [h1, h2, eq_comm]
      · simp [h1, h2, eq_comm]
    · simp [h1, eq_comm]
  have hi : ∀ i : Bool, config.options.includeDefaultMetrics.getD a.includeDefaultMetrics = i ↔
      (config.options.includeDefaultMetrics = some i ∨ (config.options.includeDefaultMetrics = none ∧ i = a.includeDefaultMetrics)) := by
    intro i
    cases config.options.includeDefaultMetrics <;> simp [eq_comm]
  have ht : ∀ type l, a.tags.getD [if type = "tfma_eval" then "eval" else "serve"] = l ↔ TagsOf a.tags type l := by
    intro type l
    unfold TagsOf
    cases a.tags with
    | some t => simp
    | none => by_cases h : type = "tfma_eval" <;> simp [h, eq_comm]
  cases hs : modelSpec config.modelSpecs a.modelName with
  | none =>
    simp only [reduceCtorEq, false_iff]
    rintro ⟨s, _, h, _⟩
    rw [(modelSpec_iff _ _ _).2 h] at hs
    cases hs
  | some s =>
    simp only
    rw [build_iff]
    constructor
    · rintro ⟨h1, h2, h3, h4, h5, h6, h7, h8, h9⟩
      refine ⟨s, a.tags.getD [if m.modelType = "tfma_eval" then "eval" else "serve"], (modelSpec_iff _ _ _).1 hs, h1, h2, h3, h4, h5,
        (type_iff keras a.path s a.tags _).1 h6.symm, (hw _ _).1 h7.symm, (hi _).1 h8.symm, (ht _ _).1 rfl, ?_⟩
      rw [h6]
      exact h9
    · rintro ⟨s', tags, h0, h1, h2, h3, h4, h5, h6, h7, h8, h9, h10⟩
      have : s' = s := by
        rw [(modelSpec_iff _ _ _).2 h0] at hs
        exact Option.some.inj hs
      subst this
      have h6' := (type_iff keras a.path s' a.tags _).2 h6
      refine ⟨h1, h2, h3, h4, h5, h6'.symm, ((hw _ _).2 h7).symm, ((hi _).2 h8).symm, ?_⟩
      rw [h6', (ht _ _).2 h9]
      exact h10

/-- **C131 (a model without a configuration).**  It is never a baseline, and it is an eval model unless the tags have "serve" and not
"eval". -/
theorem C131_model_no_config (keras : String → Bool) (a : ModelArgs) (hc : a.config = none) :
    ∃ m, defaultSharedModel keras a = .ok m ∧ m.modelName = a.modelName ∧ m.modelPath = some a.path ∧ m.isBaseline = false ∧
      m.rubberStamp = a.rubberStamp ∧ m.weightKey = a.weightKey ∧ m.includeDefaultMetrics = a.includeDefaultMetrics ∧
      ((m.modelType = "tf_estimator" ∧ ∃ l, a.tags = some l ∧ "serve" ∈ l ∧ "eval" ∉ l) ∨
        (m.modelType = "tfma_eval" ∧ ¬ ∃ l, a.tags = some l ∧ "serve" ∈ l ∧ "eval" ∉ l)) ∧
      (a.customLoader = false → m.loaderTags = some (a.tags.getD ["eval"])) := by
  have hty : ((legacyType a.tags).1 = "tf_estimator" ∧ ∃ l, a.tags = some l ∧ "serve" ∈ l ∧ "eval" ∉ l) ∨
      ((legacyType a.tags).1 = "tfma_eval" ∧ ¬ ∃ l, a.tags = some l ∧ "serve" ∈ l ∧ "eval" ∉ l) := by
    unfold legacyType
    cases a.tags with
    | none => simp
    | some l => by_cases h1 : "eval" ∈ l <;> by_cases h2 : "serve" ∈ l <;> simp [h1, h2]
  refine ⟨⟨a.modelName, false, a.rubberStamp, some a.path, (legacyType a.tags).1, a.weightKey, a.includeDefaultMetrics,
      if !a.customLoader && Pipeline.validTypes.contains (legacyType a.tags).1 then some (legacyType a.tags).2 else none⟩,
    ?_, rfl, rfl, rfl, rfl, rfl, rfl, hty, ?_⟩
  · unfold defaultSharedModel
    rw [hc]
    rfl
  · intro hcl
    have : Pipeline.validTypes.contains (legacyType a.tags).1 = true := by
      rcases hty with ⟨h, _⟩ | ⟨h, _⟩ <;> rw [h] <;> decide +kernel
    simp only [hcl, Bool.not_false, this, Bool.and_self, if_true]
    rfl

/-- The description of `get_model_type` says that a model with the tag "eval" is an estimator.  The tags have no effect. -/
theorem C131_eval_tag_fails : ∃ m, defaultSharedModel (fun _ => false)
      { path := "/m", tags := some ["eval"], config := some { modelSpecs := [{}] } } = .ok m ∧
    m.modelType = "tf_generic" ∧ m.loaderTags = some ["eval"] :=
  ⟨_, rfl, rfl, rfl⟩

/-! ### Runs -/

section runs

variable {ρ ω : Type}

/-- The location shown for a model.  Without a name: that of the first model; with a name: that of the model of this name, and nothing if
there is none.  A run without models has one unknown location without a name. -/
def LocationOf : Option (List SharedModel) → Option String → String → Prop
  | none, none, l => l = "<unknown>"
  | none, some n, l => (n = "" ∧ l = "<unknown>") ∨ (n ≠ "" ∧ l = "")
  | some ms, none, l => ∃ m, ms.head? = some m ∧ l = m.modelPath.getD "<unknown>"
  | some ms, some n, l => (∃ m ∈ ms, m.modelName = n ∧ l = m.modelPath.getD "<unknown>") ∨ ((∀ m ∈ ms, m.modelName ≠ n) ∧ l = "")

/-- The result of a run for a model: the records of the three outputs, all of them and no others, converted for the model, with the
configuration and locations of the run. -/
structure IsResult (v : View ρ ω) (o : Outputs ρ) (config : EvalConfig) (data format : String) (ms : Option (List SharedModel))
    (model : Option String) (r : Result EvalConfig ω) : Prop where
  metrics : ∃ l, l.Perm (recordsIn o.metrics) ∧ v.metrics model l = .ok r.metrics
  plots : ∃ l, l.Perm (recordsIn o.plots) ∧ v.plots model l = .ok r.plots
  attributions : ∃ l, l.Perm (recordsIn o.attributions) ∧ v.attributions model l = .ok r.attributions
  config : r.config = some config
  dataLocation : r.dataLocation = data
  fileFormat : r.fileFormat = format
  location : LocationOf ms model r.modelLocation

/-- The records of a run can be converted for every model. -/
def Converts (v : View ρ ω) (o : Outputs ρ) : Prop :=
  ∀ model, (∀ l, l.Perm (recordsIn o.metrics) → ∃ x, v.metrics model l = .ok x) ∧
    (∀ l, l.Perm (recordsIn o.plots) → ∃ x, v.plots model l = .ok x) ∧
    (∀ l, l.Perm (recordsIn o.attributions) → ∃ x, v.attributions model l = .ok x)

/-- The outputs of a run have files with different names. -/
def AllSharded (o : Outputs ρ) : Prop := Sharded o.metrics ∧ Sharded o.plots ∧ Sharded o.attributions

private theorem fold_get (ms : List SharedModel) (d : Dict String String) (n : String) (hn : (ms.map SharedModel.modelName).Nodup) :
    Dict.get? (ms.foldl (fun d m => Dict.set d m.modelName (m.modelPath.getD "<unknown>")) d) n =
      match ms.find? (fun m => m.modelName == n) with
      | some m => some (m.modelPath.getD "<unknown>")
      | none => Dict.get? d n := by
  induction ms generalizing d with
  | nil => rfl
  | cons m ms ih =>
    simp only [List.map_cons, List.nodup_cons] at hn
    rw [List.foldl_cons, ih _ hn.2, List.find?_cons]
    by_cases h : m.modelName = n
    · have : ms.find? (fun m => m.modelName == n) = none := by
        rw [List.find?_eq_none]
        intro x hx
        simp only [beq_iff_eq]
        rintro rfl
        exact hn.1 (h ▸ List.mem_map_of_mem hx)
      simp [this, h, Dict.get?_set_self]
    · have hb : (m.modelName == n) = false := by simpa using h
      simp only [hb]
      cases ms.find? (fun m => m.modelName == n) with
      | some x => rfl
      | none => exact Dict.get?_set_ne _ _ h

private theorem fold_head (ms : List SharedModel) (k : String) (x : String) (d : Dict String String) (h : k ∉ ms.map SharedModel.modelName) :
    (ms.foldl (fun d m => Dict.set d m.modelName (m.modelPath.getD "<unknown>")) ((k, x) :: d)).head? = some (k, x) := by
  induction ms generalizing d with
  | nil => rfl
  | cons m ms ih =>
    simp only [List.map_cons, List.mem_cons, not_or] at h
    rw [List.foldl_cons]
    have : Dict.set ((k, x) :: d) m.modelName (m.modelPath.getD "<unknown>") =
        (k, x) :: Dict.set d m.modelName (m.modelPath.getD "<unknown>") := by
      simp [Dict.set, h.1]
    rw [this]
    exact ih _ h.2

private theorem location_ok (ms : Option (List SharedModel)) (hne : ms ≠ some [])
    (hn : ∀ l, ms = some l → (l.map SharedModel.modelName).Nodup) (model : Option String) :
    ∃ l, (EvalResults.Locations.run (locationsOf ms)).lookup model = .ok l ∧ LocationOf ms model l := by
  cases ms with
  | none =>
    cases model with
    | none => exact ⟨_, rfl, rfl⟩
    | some n =>
      refine ⟨_, rfl, ?_⟩
      by_cases h : n = ""
      · subst h; exact Or.inl ⟨rfl, rfl⟩
      · refine Or.inr ⟨h, ?_⟩
        have : Dict.get? (locationsOf none) n = none := by
          rw [Dict.get?_eq_none_iff]
          simpa [locationsOf, Dict.keys] using h
        rw [this]
        rfl
  | some l =>
    have hn := hn l rfl
    cases model with
    | none =>
      cases l with
      | nil => exact absurd rfl hne
      | cons m rest =>
        refine ⟨_, rfl, m, rfl, ?_⟩
        simp only [List.map_cons, List.nodup_cons] at hn
        have : (locationsOf (some (m :: rest))).head? = some (m.modelName, m.modelPath.getD "<unknown>") :=
          fold_head rest _ _ [] hn.1
        rw [this]
        rfl
    | some n =>
      refine ⟨_, rfl, ?_⟩
      have := fold_get l [] n hn
      unfold locationsOf
      simp only
      rw [this]
      cases hf : l.find? (fun m => m.modelName == n) with
      | some m => exact Or.inl ⟨m, List.mem_of_find?_eq_some hf, by simpa using List.find?_some hf, rfl⟩
      | none => exact Or.inr ⟨fun m hm => by simpa using (List.find?_eq_none.1 hf) m hm, rfl⟩

private theorem load_ok (v : View ρ ω) {o : Outputs ρ} (hc : Converts v o) (ms : Option (List SharedModel)) (hne : ms ≠ some [])
    (hn : ∀ l, ms = some l → (l.map SharedModel.modelName).Nodup) {run : EvalRun EvalConfig} (hl : run.modelLocations = locationsOf ms)
    {dir : Dir ρ EvalConfig}
    (h1 : ∃ out, loadRecords dir "metrics".toList "tfrecord" = .ok out ∧ out.Perm (recordsIn o.metrics))
    (h2 : ∃ out, loadRecords dir "plots".toList "tfrecord" = .ok out ∧ out.Perm (recordsIn o.plots))
    (h3 : ∃ out, loadRecords dir "attributions".toList "tfrecord" = .ok out ∧ out.Perm (recordsIn o.attributions))
    (h4 : loadConfig dir "json" none = .ok (some run)) (model : Option String) :
    ∃ r, loadEvalResult v dir model = .ok r ∧ IsResult v o run.config run.dataLocation run.fileFormat ms model r := by
  obtain ⟨o1, h1, p1⟩ := h1
  obtain ⟨o2, h2, p2⟩ := h2
  obtain ⟨o3, h3, p3⟩ := h3
  obtain ⟨c1, c2, c3⟩ := hc model
  obtain ⟨x1, c1⟩ := c1 o1 p1
  obtain ⟨x2, c2⟩ := c2 o2 p2
  obtain ⟨x3, c3⟩ := c3 o3 p3
  obtain ⟨l, hl1, hl2⟩ := location_ok ms hne hn model
  rw [← hl] at hl1
  refine ⟨⟨x1, x2, x3, some run.config, run.dataLocation, run.fileFormat, l⟩, ?_, ⟨o1, p1, c1⟩, ⟨o2, p2, c2⟩, ⟨o3, p3, c3⟩, rfl, rfl, rfl, hl2⟩
  unfold loadEvalResult
  rw [h4, h1, h2, h3]
  simp only [bind, Except.bind, c1, c2, c3, runLocations, hl1]
  rfl

private theorem loadAll_ok (v : View ρ ω) {dir : Dir ρ EvalConfig} {P : Option String → Result EvalConfig ω → Prop}
    (h : ∀ model, ∃ r, loadEvalResult v dir model = .ok r ∧ P model r) (specs : List ModelSpec) :
    ∃ rs, loadAll v dir specs = .ok rs ∧ List.Forall₂ (fun s r => P (some s.name) r) specs rs := by
  induction specs with
  | nil => exact ⟨[], rfl, .nil⟩
  | cons s specs ih =>
    obtain ⟨rs, h1, h2⟩ := ih
    obtain ⟨r, h3, h4⟩ := h (some s.name)
    refine ⟨r :: rs, ?_, .cons h4 h2⟩
    unfold loadAll
    rw [h3, h1]
    rfl

/-- What a run needs: an accepted configuration `c` of version `version`, which with its defaults is `c'` and is verified; an evaluation that
succeeds with outputs that can be converted; the configuration is written; and the directory has no results of another run. -/
structure Runs (evaluate : Evaluation ρ) (v : View ρ ω) (models : SharedModels) (ms : Option (List SharedModel)) (c c' : EvalConfig)
    (version : ℕ) (o : Outputs ρ) (dir : Dir ρ EvalConfig) : Prop where
  checked : verifySharedModels models = .ok ms
  names : ∀ l, ms = some l → (l.map SharedModel.modelName).Nodup
  defaults : updateForModels models c = .ok c'
  verified : verify c' false = .ok ()
  outputs : evaluate c' ms version = .ok o
  sharded : AllSharded o
  converts : Converts v o
  written : "eval_config" ∉ c'.options.disabledOutputs
  wf : dir.WF
  fresh : ∀ n ∈ outputNames, Fresh n dir

private theorem verified_ne {models : SharedModels} {ms : Option (List SharedModel)} (h : verifySharedModels models = .ok ms) : ms ≠ some [] := by
  have hn : ∀ l x, (normalizeNames l).map some = .ok (some x) → x = [] → l = [] := by
    intro l x h hx
    subst hx
    unfold normalizeNames at h
    split at h
    · split at h
      · cases h
      · simp only [Except.map, Except.ok.injEq, Option.some.injEq] at h
        subst h
        simp_all
    · simp only [Except.map, Except.ok.injEq, Option.some.injEq, List.map_eq_nil_iff] at h
      exact h
  rintro rfl
  match models with
  | .none => cases h
  | .single m => cases hn [m] _ h rfl
  | .list [] => cases h
  | .list (m :: l) => cases hn (m :: l) _ h rfl
  | .dict [] => cases h
  | .dict (p :: d) =>
    simp only [verifySharedModels] at h
    cases hd : namedFromDict (p :: d) with
    | error e => rw [hd] at h; cases h
    | ok l =>
      rw [hd] at h
      have := hn l _ h rfl
      subst this
      obtain ⟨k, m⟩ := p
      simp only [namedFromDict] at hd
      split at hd
      · cases hd
      · split at hd <;> cases hd

private theorem evaluate_ok {evaluate : Evaluation ρ} {v : View ρ ω} {models : SharedModels} {ms : Option (List SharedModel)}
    {c c' : EvalConfig} {version : ℕ} {o : Outputs ρ} {dir : Dir ρ EvalConfig} (h : Runs evaluate v models ms c c' version o dir)
    {tfma : String} (hv : tfma ≠ "") (w : EvalConfig) (hw : "eval_config" ∉ w.options.disabledOutputs) (data format : Option String) :
    ∃ dir', evaluateAndWrite evaluate tfma models c version (fun _ ms => configArgs w ms data format) dir = .ok dir' ∧
      ∀ model, ∃ r, loadEvalResult v dir' model = .ok r ∧
        IsResult v o w (data.getD "<user provided PCollection>") (format.getD "<unknown>") ms model r := by
  obtain ⟨dir', h1, h2⟩ := C126_run (ρ := ρ) (κ := EvalConfig) hv (a := configArgs w ms data format) hw rfl rfl (fmt := "tfrecord")
    (by decide) h.sharded.1 h.sharded.2.1 h.sharded.2.2 h.wf h.fresh
  obtain ⟨g1, g2, g3, _, g5⟩ := h2 dir' (List.Perm.refl _)
  refine ⟨dir', ?_, fun model => ?_⟩
  · unfold evaluateAndWrite
    rw [h.checked, h.defaults]
    simp only [bind, Except.bind, h.verified, h.outputs]
    exact h1
  · exact load_ok v h.converts ms (verified_ne h.checked) h.names (run := evalRun tfma (configArgs w ms data format)) rfl g1 g2 g3 g5 model

/-- **C131 (results of a run).**  A run with an accepted configuration and a known data format returns one result if the configuration has at
most one model: that of the records of the run, converted without a model name, with the location of the (first) model.  Otherwise it
returns one result per model of the configuration, in their order, each converted for its model and with the location of that model. -/
theorem C131_results {evaluate : Evaluation ρ} {v : View ρ ω} {models : SharedModels} {ms : Option (List SharedModel)}
    {config : Option EvalConfig} {d : Deprecated} {c c' : EvalConfig} {version : ℕ} {o : Outputs ρ} {dir : Dir ρ EvalConfig}
    (hc : configOf models config d = .ok (c, version)) (h : Runs evaluate v models ms c c' version o dir)
    {tfma : String} (hv : tfma ≠ "") {format : String} (hf : format = "tfrecords" ∨ format = "text") (data : String) :
    ∃ ret dir', runModelAnalysis evaluate v tfma models config d data format dir = .ok (ret, dir') ∧
      (c.modelSpecs.length ≤ 1 → ∃ r, ret = .one r ∧ IsResult v o c' data format ms none r) ∧
      (1 < c.modelSpecs.length → ∃ rs, ret = .several rs ∧
        List.Forall₂ (fun s r => IsResult v o c' data format ms (some s.name) r) c.modelSpecs rs) := by
  have hfmt : ¬ (format ≠ "tfrecords" ∧ format ≠ "text") := by
    rcases hf with rfl | rfl <;> simp
  obtain ⟨dir', h1, h2⟩ := evaluate_ok h hv c' h.written (some data) (some format)
  have hrun : evaluateAndWrite evaluate tfma models c version (fun c ms => configArgs c ms (some data) (some format)) dir = .ok dir' := by
    rw [← h1]
    unfold evaluateAndWrite
    rw [h.checked, h.defaults]
    rfl
  by_cases hl : c.modelSpecs.length ≤ 1
  · obtain ⟨r, g1, g2⟩ := h2 none
    refine ⟨.one r, dir', ?_, fun _ => ⟨r, rfl, g2⟩, fun hh => absurd hl (by omega)⟩
    unfold runModelAnalysis
    rw [hc]
    simp only [bind, Except.bind, hfmt, if_false, hrun, hl, if_true, g1, pure, Except.pure]
  · obtain ⟨rs, g1, g2⟩ := loadAll_ok v h2 c.modelSpecs
    refine ⟨.several rs, dir', ?_, fun hh => absurd hh hl, fun _ => ⟨rs, rfl, g2⟩⟩
    unfold runModelAnalysis
    rw [hc]
    simp only [bind, Except.bind, hfmt, if_false, hrun, hl, g1, pure, Except.pure]

/-- **C131 (refused runs).**  Nothing is evaluated or written for an unknown data format, or with neither a configuration nor models. -/
theorem C131_refused (evaluate : Evaluation ρ) (v : View ρ ω) (tfma : String) (models : SharedModels) (config : Option EvalConfig)
    (d : Deprecated) (data format : String) (dir : Dir ρ EvalConfig) :
    (format ≠ "tfrecords" → format ≠ "text" → ∃ e, runModelAnalysis evaluate v tfma models config d data format dir = .error e) ∧
    (config = none → verifySharedModels models = .ok none →
      runModelAnalysis evaluate v tfma models config d data format dir = .error .typeError) := by
  constructor
  · intro h1 h2
    unfold runModelAnalysis
    cases hc : configOf models config d with
    | error e => exact ⟨e, rfl⟩
    | ok p =>
      refine ⟨.valueError, ?_⟩
      simp only [bind, Except.bind]
      rw [if_pos ⟨h1, h2⟩]
      rfl
  · rintro rfl h
    unfold runModelAnalysis configOf
    rw [h]
    rfl

/-- **C131 (refused configurations).**  A configuration which with its defaults is not valid is refused with the error of the verification:
nothing is evaluated, so the error does not depend on the evaluation, and nothing is written. -/
theorem C131_unverified (evaluate : Evaluation ρ) (v : View ρ ω) {models : SharedModels} {ms : Option (List SharedModel)}
    {config : Option EvalConfig} {d : Deprecated} {c c' : EvalConfig} {version : ℕ} {e : Err}
    (hc : configOf models config d = .ok (c, version)) (hm : verifySharedModels models = .ok ms) (hd : updateForModels models c = .ok c')
    (he : verify c' false = .error e) {format : String} (hf : format = "tfrecords" ∨ format = "text") (tfma data : String)
    (dir : Dir ρ EvalConfig) : runModelAnalysis evaluate v tfma models config d data format dir = .error e := by
  have hfmt : ¬ (format ≠ "tfrecords" ∧ format ≠ "text") := by
    rcases hf with rfl | rfl <;> simp
  unfold runModelAnalysis evaluateAndWrite
  rw [hc]
  simp only [bind, Except.bind, hfmt, if_false, hm, hd, he]

/-- **C131 (documented use, several models).**  Make a model for each of at least two specs of a configuration with different names, with
`default_eval_shared_model`, and run.  The run returns one result per model, in order, each with the path of its own model, and a model is a
baseline exactly if its spec is. -/
theorem C131_documented {evaluate : Evaluation ρ} {v : View ρ ω} {keras : String → Bool} {config c' : EvalConfig}
    (hlen : 1 < config.modelSpecs.length) (hnames : (config.modelSpecs.map ModelSpec.name).Nodup)
    (hnonempty : ∀ s ∈ config.modelSpecs, s.name ≠ "") (path : String → String) {ms : List SharedModel}
    (hms : List.Forall₂ (fun s m => defaultSharedModel keras { path := path s.name, modelName := s.name, config := some config } = .ok m)
      config.modelSpecs ms)
    {c : EvalConfig} (hc : updateForModels (.list ms) config = .ok c)
    {o : Outputs ρ} {dir : Dir ρ EvalConfig} (h : Runs evaluate v (.list ms) (some ms) c c' 2 o dir)
    {tfma : String} (hv : tfma ≠ "") (data : String) :
    c.modelSpecs = config.modelSpecs ∧ List.Forall₂ (fun s m => m.isBaseline = s.isBaseline) config.modelSpecs ms ∧
    ∃ rs dir', runModelAnalysis evaluate v tfma (.list ms) (some config) {} data "tfrecords" dir = .ok (.several rs, dir') ∧
      List.Forall₂ (fun s r => IsResult v o c' data "tfrecords" (some ms) (some s.name) r ∧ r.modelLocation = path s.name)
        config.modelSpecs rs := by
  have hfacts : List.Forall₂ (fun (s : ModelSpec) (m : SharedModel) => m.modelName = s.name ∧ m.modelPath = some (path s.name) ∧
      m.isBaseline = s.isBaseline) config.modelSpecs ms := by
    refine (List.forall₂_iff_get).2 ⟨hms.length_eq, fun i h1 h2 => ?_⟩
    have hi := (List.forall₂_iff_get.1 hms).2 i h1 h2
    obtain ⟨s, tags, g1, _, g3, g4, _, g6, _⟩ := (C131_model keras _ config rfl _).1 hi
    refine ⟨g3, g4, ?_⟩
    rw [g6]
    congr 1
    rcases g1 with ⟨e, _⟩ | ⟨pre, post, e, e2, e3⟩
    · rw [e] at hlen
      simp at hlen
    · have hs : s ∈ config.modelSpecs := by rw [e]; simp
      have := List.inj_on_of_nodup_map hnames hs (List.get_mem config.modelSpecs ⟨i, h1⟩) e2
      exact this
  have hspecs : c.modelSpecs = config.modelSpecs := by
    have hl : 1 < ms.length := by rw [← hms.length_eq]; exact hlen
    have hn : ∀ m ∈ ms, m.modelName ≠ "" := by
      intro m hm
      obtain ⟨i, hi, rfl⟩ := List.getElem_of_mem hm
      have h1 : i < config.modelSpecs.length := by rw [hms.length_eq]; exact hi
      have := ((List.forall₂_iff_get.1 hfacts).2 i h1 hi).1
      simp only [List.get_eq_getElem] at this
      rw [this]
      exact hnonempty _ (List.getElem_mem _)
    rw [C46_several_models ms hl hn] at hc
    unfold update at hc
    split at hc
    · cases hc
    · have := Except.ok.inj hc
      rw [← this]
      simp only [newSpecs, Args.adds, Args.removes]
      match hs : config.modelSpecs, hlen with
      | s :: t :: rest, _ => rfl
  refine ⟨hspecs, hfacts.imp fun _ _ h => h.2.2, ?_⟩
  obtain ⟨ret, dir', h1, _, h3⟩ := C131_results (config := some config) (d := {}) (by
    unfold configOf
    simp only [hc]
    rfl) h hv (Or.inl rfl) data
  obtain ⟨rs, rfl, h4⟩ := h3 (by rw [hspecs]; exact hlen)
  refine ⟨rs, dir', h1, ?_⟩
  rw [hspecs] at h4
  refine (List.forall₂_iff_get).2 ⟨h4.length_eq, fun i h5 h6 => ?_⟩
  have h7 := (List.forall₂_iff_get.1 h4).2 i h5 h6
  refine ⟨h7, ?_⟩
  have h8 : i < ms.length := by rw [← hms.length_eq]; exact h5
  have h9 := (List.forall₂_iff_get.1 hfacts).2 i h5 h8
  have hmem : ms.get ⟨i, h8⟩ ∈ ms := List.get_mem ms ⟨i, h8⟩
  rcases h7.location with ⟨m, hm, e1, e2⟩ | ⟨e1, _⟩
  · have : m = ms.get ⟨i, h8⟩ := List.inj_on_of_nodup_map (h.names ms rfl) hm hmem (e1.trans h9.1.symm)
    subst this
    rw [e2, h9.2.1]
    rfl
  · exact absurd h9.1 (e1 _ hmem)

/-- **C131 (documented use, one model).**  Make a model for the only spec of a configuration, without a name, and run.  There is one result,
with the path of the model. -/
theorem C131_documented_single {evaluate : Evaluation ρ} {v : View ρ ω} {keras : String → Bool} {config c c' : EvalConfig}
    {s : ModelSpec} (hs : config.modelSpecs = [s]) {path : String} {m : SharedModel}
    (hm : defaultSharedModel keras { path := path, config := some config } = .ok m) (hc : updateForModels (.single m) config = .ok c)
    {o : Outputs ρ} {dir : Dir ρ EvalConfig} (h : Runs evaluate v (.single m) (some [m]) c c' 2 o dir)
    {tfma : String} (hv : tfma ≠ "") (data : String) :
    c.modelSpecs = [{ s with name := "" }] ∧ ∃ r dir', runModelAnalysis evaluate v tfma (.single m) (some config) {} data "tfrecords" dir =
      .ok (.one r, dir') ∧ IsResult v o c' data "tfrecords" (some [m]) none r ∧ r.modelLocation = path := by
  obtain ⟨s', tags, g1, _, g3, g4, _, g6, _⟩ := (C131_model keras _ config rfl _).1 hm
  have hss : s' = s := by
    rcases g1 with ⟨e, _⟩ | ⟨pre, post, e, _⟩
    · rw [hs] at e
      exact ((List.cons.inj e).1).symm
    · rw [hs] at e
      have : ([s] : List ModelSpec).length = (pre ++ s' :: post).length := congrArg _ e
      simp only [List.length_cons, List.length_nil, List.length_append] at this
      have hp : pre = [] := List.eq_nil_of_length_eq_zero (by omega)
      subst hp
      exact ((List.cons.inj e).1).symm
  subst hss
  have hspecs : c.modelSpecs = [{ s' with name := "" }] ∧ s'.isBaseline = false := by
    unfold updateForModels at hc
    rw [h.checked] at hc
    simp only [hasRubberStamp] at hc
    by_cases hb : m.isBaseline = true
    · simp [hb] at hc
    · rw [if_neg hb] at hc
      simp only [Option.map_some, List.length_singleton, lt_irrefl, decide_false] at hc
      unfold update at hc
      split at hc
      · cases hc
      · have := Except.ok.inj hc
        rw [← this]
        have hb' : s'.isBaseline = false := by
          rw [← g6]
          simpa using hb
        refine ⟨?_, hb'⟩
        simp [newSpecs, Args.adds, Args.removes, hs, hb', dropSingleName]
  refine ⟨hspecs.1, ?_⟩
  obtain ⟨ret, dir', h1, h2, _⟩ := C131_results (config := some config) (d := {}) (by
    unfold configOf
    simp only [hc]
    rfl) h hv (Or.inl rfl) data
  obtain ⟨r, rfl, h3⟩ := h2 (by rw [hspecs.1]; simp)
  refine ⟨r, dir', h1, h3, ?_⟩
  obtain ⟨m', e1, e2⟩ := h3.location
  simp only [List.head?_cons, Option.some.injEq] at e1
  subst e1
  rw [e2, g4]
  rfl

/-- **C131 (no configuration).**  One is made in which each model has a spec with its name and weights, in order, with the slices, the
confidence intervals and the minimal size of slices that are given; its output is disabled exactly if `write_config` is not set. -/
theorem C131_default_config {models : SharedModels} {ms : List SharedModel} (h : verifySharedModels models = .ok (some ms)) (d : Deprecated) :
    ∃ c, configOf models none d = .ok (c, 1) ∧
      List.Forall₂ (fun (m : SharedModel) (s : ModelSpec) => s.name = m.modelName ∧
        (∀ k, s.exampleWeightKey = k ∧ k ≠ "" → m.weightKey = .key k) ∧ (∀ k, m.weightKey = .key k → s.exampleWeightKey = k) ∧
        (∀ k, s.exampleWeightKeys = k ∧ k ≠ [] → m.weightKey = .keys k) ∧ (∀ k, m.weightKey = .keys k → s.exampleWeightKeys = k) ∧
        s.isBaseline = false ∧ s.modelType = "" ∧ s.labelKey = "" ∧ s.predictionKey = "") ms c.modelSpecs ∧
      c.slicingSpecs = d.slices ∧ c.metricsSpecs = [] ∧ c.options.computeConfidenceIntervals = d.intervals ∧
      c.options.minSliceSize = some d.minSliceSize ∧ ("eval_config" ∈ c.options.disabledOutputs ↔ d.writeConfig = false) := by
  refine ⟨defaultConfig ms d, ?_, ?_, rfl, rfl, rfl, rfl, ?_⟩
  · unfold configOf
    rw [h]
  · show List.Forall₂ _ ms (ms.map defaultSpec)
    rw [List.forall₂_map_right_iff]
    refine List.forall₂_same.2 fun m _ => ?_
    unfold defaultSpec
    cases m.weightKey with
    | none => simp
    | key k => simp
    | keys d => simp
  · cases hw : d.writeConfig <;> simp [defaultConfig, hw]

end runs

/-! ### Several runs -/

/-- **C131 (several models or data sets).**  Without an output path, `multiple_model_analysis` and `multiple_data_analysis` return the result of
every model or data set, in order, and each is that of a run of its own; they fail exactly if one of the runs fails. -/
theorem C131_each {α R D : Type} [EmptyCollection D] (run : α → D → Except Err (R × D)) (xs : List α) (rs : List R) :
    runEach run none xs = .ok rs ↔ List.Forall₂ (fun x r => ∃ dir, run x ∅ = .ok (r, dir)) xs rs := by
  induction xs generalizing rs with
  | nil => cases rs <;> simp [runEach]
  | cons x xs ih =>
    unfold runEach
    simp only [Option.getD_none, Option.map_none, bind, Except.bind, pure, Except.pure]
    cases hx : run x ∅ with
    | error e =>
      simp only [reduceCtorEq, false_iff]
      intro h
      cases h with
      | cons h _ => obtain ⟨_, h⟩ := h; rw [hx] at h; cases h
    | ok p =>
      obtain ⟨r, dir⟩ := p
      simp only
      cases hr : runEach run none xs with
      | error e =>
        simp only [reduceCtorEq, false_iff]
        intro h
        cases h with
        | cons _ h => rw [(ih _).2 h] at hr; cases hr
      | ok rest =>
        simp only [Except.ok.injEq]
        constructor
        · rintro rfl
          exact .cons ⟨dir, hx⟩ ((ih _).1 hr)
        · intro h
          cases h with
          | @cons _ b _ l h1 h2 =>
            obtain ⟨_, h1⟩ := h1
            rw [hx] at h1
            rw [(ih _).2 h2] at hr
            cases h1
            cases hr
            rfl

/-- The records as they are, whatever the model. -/
private def plainView : View ℕ ℕ := ⟨fun _ l => .ok l, fun _ l => .ok l, fun _ l => .ok l⟩

/-- One record per shard of the metrics, which depend on the model: one for the path "/a", two for other paths. -/
private def someOutputs (_data : String) : Evaluation ℕ := fun _ ms _ =>
  .ok ⟨match ms with
      | some [m] => if m.modelPath = some "/a" then [("-00000-of-00001".toList, [1])]
          else [("-00000-of-00002".toList, [2]), ("-00001-of-00002".toList, [3])]
      | _ => [],
    [([], [])], [([], [])], 0⟩

/-- The metrics of the results. -/
private def metricsOf : Returned EvalConfig ℕ → List (List ℕ)
  | .one r => [r.metrics]
  | .several rs => rs.map Result.metrics

/-- With an output path all the runs write to it, and the results of a later run can include records of an earlier one: here the record 1 of
the model at "/a" is reported for the model at "/b". -/
theorem C131_shared_path_fails :
    ((runEach (fun path => singleModelAnalysis someOutputs plainView (fun _ => false) "1" {} path "/data") none ["/a", "/b"]).map
        (List.map metricsOf)) = .ok [[[1]], [[2, 3]]] ∧
    ((runEach (fun path => singleModelAnalysis someOutputs plainView (fun _ => false) "1" {} path "/data") (some []) ["/a", "/b"]).map
        (List.map metricsOf)) = .ok [[[1]], [[1, 2, 3]]] := by
  refine ⟨?_, ?_⟩ <;> decide +kernel

/-- **C131 (a single model).**  Slices and a configuration cannot both be given.  Otherwise the run is one of a single model that is an eval
model, loaded with the tag "eval". -/
theorem C131_single {ρ ω : Type} (evaluate : String → Evaluation ρ) (v : View ρ ω) (keras : String → Bool) (tfma : String) (a : SingleArgs)
    (path data : String) (dir : Dir ρ EvalConfig) :
    (a.slices ≠ [] → a.config.isSome = true → singleModelAnalysis evaluate v keras tfma a path data dir = .error .valueError) ∧
    (¬ (a.slices ≠ [] ∧ a.config.isSome = true) → ∃ m config, m.modelPath = some path ∧ m.modelType = "tfma_eval" ∧
      m.loaderTags = some ["eval"] ∧ m.modelName = "" ∧ (a.slices = [] → config = a.config) ∧
      (a.slices ≠ [] → ∃ c, config = some c ∧ c.slicingSpecs = a.slices ∧ c.modelSpecs = [] ∧ c.metricsSpecs = []) ∧
      singleModelAnalysis evaluate v keras tfma a path data dir =
        runModelAnalysis (evaluate data) v tfma (.single m) config {} data "tfrecords" dir) := by
  constructor
  · intro h1 h2
    unfold singleModelAnalysis
    simp only [bind, Except.bind]
    rw [if_pos ⟨h1, h2⟩]
    rfl
  · intro h
    refine ⟨⟨"", false, false, some path, "tfma_eval", .none, true, some ["eval"]⟩,
      if a.slices ≠ [] then some { slicingSpecs := a.slices } else a.config, rfl, rfl, rfl, rfl, ?_, ?_, ?_⟩
    · intro h; simp [h]
    · intro h; exact ⟨{ slicingSpecs := a.slices }, if_pos h, rfl, rfl, rfl⟩
    · unfold singleModelAnalysis
      simp only [bind, Except.bind]
      rw [if_neg h]
      rfl

/-- The configuration passed to `single_model_analysis` has no effect on how the model is loaded: it is an eval model although its spec says
that it is a Keras model. -/
theorem C131_single_type_fails : ∃ (config : EvalConfig) (m : SharedModel),
    defaultSharedModel (fun _ => true) { path := "/m", config := some config } = .ok m ∧ m.modelType = "tf_keras" ∧
    (singleModelAnalysis (ρ := ℕ) (fun _ _ ms _ => if (ms.getD []).map SharedModel.modelType = ["tfma_eval"] then .error .notImplementedError
      else .error .runtimeError) plainView (fun _ => true) "1" { config := some config } "/m" "/data" []).map (fun _ => ()) =
        .error .notImplementedError :=
  ⟨{ modelSpecs := [{ modelType := "tf_keras" }] }, _, rfl, rfl, by decide +kernel⟩


/-! ### Data frames -/

/-- A key that is used for a column: the one given or the default, and there is such a column. -/
def KeyUsed (columns : List String) (given default k : String) : Prop :=
  ((given ≠ "" ∧ k = given) ∨ (given = "" ∧ k = default)) ∧ k ∈ columns

/-- The model spec that is used for a data frame. -/
def Filled (columns : List String) (s s' : ModelSpec) : Prop :=
  KeyUsed columns s.predictionKey "prediction" s'.predictionKey ∧ KeyUsed columns s.labelKey "label" s'.labelKey ∧
  s' = { s with predictionKey := s'.predictionKey, labelKey := s'.labelKey }

private theorem fillKeys_iff (columns : List String) (specs specs' : List ModelSpec) :
    fillKeys columns specs = .ok specs' ↔ List.Forall₂ (Filled columns) specs specs' := by
  have hkey : ∀ given default k, KeyUsed columns given default k ↔ k = orText given default ∧ orText given default ∈ columns := by
    intro given default k
    unfold KeyUsed orText
    by_cases h : given = ""
    · simp only [h, ne_eq, not_true_eq_false, false_and, true_and, false_or, if_true]
      constructor
      · rintro ⟨rfl, h2⟩; exact ⟨rfl, h2⟩
      · rintro ⟨rfl, h2⟩; exact ⟨rfl, h2⟩
    · simp only [h, ne_eq, not_false_eq_true, true_and, false_and, or_false, if_false]
      constructor
      · rintro ⟨rfl, h2⟩; exact ⟨rfl, h2⟩
      · rintro ⟨rfl, h2⟩; exact ⟨rfl, h2⟩
  induction specs generalizing specs' with
  | nil => cases specs' <;> simp [fillKeys]
  | cons s specs ih =>
    unfold fillKeys
    simp only [List.contains_eq_mem, decide_eq_true_eq]
    by_cases h1 : orText s.predictionKey "prediction" ∈ columns
    · rw [if_neg (not_not.2 h1)]
      by_cases h2 : orText s.labelKey "label" ∈ columns
      · rw [if_neg (not_not.2 h2)]
        cases hr : fillKeys columns specs with
        | error e =>
          simp only [Except.map, reduceCtorEq, false_iff]
          intro h
          cases h with
          | cons _ h => rw [(ih _).2 h] at hr; cases hr
        | ok rest =>
          simp only [Except.map, Except.ok.injEq]
          constructor
          · rintro rfl
            exact .cons ⟨(hkey _ _ _).2 ⟨rfl, h1⟩, (hkey _ _ _).2 ⟨rfl, h2⟩, rfl⟩ ((ih _).1 hr)
          · intro h
            cases h with
            | @cons _ s' _ l g1 g2 =>
              rw [(ih _).2 g2] at hr
              cases hr
              obtain ⟨e1, e2, e3⟩ := g1
              rw [e3, ((hkey _ _ _).1 e1).1, ((hkey _ _ _).1 e2).1]
      · rw [if_pos h2]
        simp only [reduceCtorEq, false_iff]
        intro h
        cases h with
        | cons h _ => exact h2 ((hkey _ _ _).1 h.2.1).2
    · rw [if_pos h1]
      simp only [reduceCtorEq, false_iff]
      intro h
      cases h with
      | cons h _ => exact h1 ((hkey _ _ _).1 h.1).2

private theorem fillKeys_error (columns : List String) (specs : List ModelSpec) (e : Err) (h : fillKeys columns specs = .error e) :
    e = .keyError := by
  induction specs with
  | nil => cases h
  | cons s specs ih =>
    unfold fillKeys at h
    simp only at h
    split at h
    · cases h; rfl
    · split at h
      · cases h; rfl
      · cases hr : fillKeys columns specs with
        | error e' => rw [hr] at h; cases h; exact ih hr
        | ok r => rw [hr] at h; cases h

/-- **C131 (data frames).**  Every model spec of the configuration gets "prediction" and "label" as its keys where it has none, and the columns
must exist: otherwise the call is a KeyError.  Then the result is that of a run without models on the configuration. -/
theorem C131_raw {ρ ω : Type} {evaluate : Evaluation ρ} {v : View ρ ω} {columns : List String} {config : EvalConfig}
    {specs : List ModelSpec} (hs : List.Forall₂ (Filled columns) config.modelSpecs specs) {c' : EvalConfig} {o : Outputs ρ}
    {dir : Dir ρ EvalConfig} (h : Runs evaluate v .none none { config with modelSpecs := specs } c' 2 o dir)
    (hw : "eval_config" ∉ config.options.disabledOutputs) {tfma : String} (hv : tfma ≠ "") :
    ∃ r dir', analyzeRawData evaluate v tfma columns (some config) dir = .ok (r, dir') ∧
      IsResult v o { config with modelSpecs := specs } "<user provided PCollection>" "<unknown>" none none r := by
  obtain ⟨dir', h1, h2⟩ := evaluate_ok h hv { config with modelSpecs := specs } hw none none
  obtain ⟨r, h3, h4⟩ := h2 none
  refine ⟨r, dir', ?_, h4⟩
  unfold analyzeRawData
  simp only [(fillKeys_iff _ _ _).2 hs, bind, Except.bind]
  have : evaluateAndWrite evaluate tfma .none { config with modelSpecs := specs } 2
      (fun _ _ => configArgs { config with modelSpecs := specs } none none none) dir = .ok dir' := by
    rw [← h1]
    unfold evaluateAndWrite
    rw [h.checked]
    rfl
  simp only [this, h3]
  rfl

/-- **C131 (data frames, columns).**  Without a column that is used, the call is a KeyError, and nothing is evaluated. -/
theorem C131_raw_columns {ρ ω : Type} (evaluate : Evaluation ρ) (v : View ρ ω) (tfma : String) (columns : List String) (config : EvalConfig)
    (dir : Dir ρ EvalConfig) (hs : ¬ ∃ specs, List.Forall₂ (Filled columns) config.modelSpecs specs) :
    analyzeRawData evaluate v tfma columns (some config) dir = .error .keyError := by
  unfold analyzeRawData
  cases hf : fillKeys columns config.modelSpecs with
  | ok specs => exact absurd ⟨specs, (fillKeys_iff _ _ _).1 hf⟩ hs
  | error e =>
    simp only [hf, fillKeys_error _ _ _ hf]
    rfl

/-- The configuration is declared optional, but without one the call is an AttributeError. -/
theorem C131_raw_no_config_fails {ρ ω : Type} (evaluate : Evaluation ρ) (v : View ρ ω) (tfma : String) (columns : List String)
    (dir : Dir ρ EvalConfig) : analyzeRawData evaluate v tfma columns none dir = .error .attributeError := rfl

/-- The default column names are used only if the configuration has a model spec: without one, the evaluation gets a model without keys for
labels and predictions, and the data frame needs no column at all. -/
theorem C131_raw_no_specs_fails : (analyzeRawData (ρ := ℕ)
      (fun c _ _ => if c.modelSpecs = [{}] then .error .notImplementedError else .error .runtimeError)
      plainView "1" [] (some {}) []).map (fun _ => ()) = .error .notImplementedError := by
  decide +kernel

/-- Metrics of two models. -/
private def twoModels : EvalResults.MetricsRecord Unit :=
  ⟨.slice [], [], [⟨{ name := "auc", modelName := "a" }, .double (1/2), {}⟩, ⟨{ name := "auc", modelName := "b" }, .double (1/3), {}⟩]⟩

/-- The conversion of metrics (C94), without plots and attributions. -/
private def metricsView : View (EvalResults.MetricsRecord Unit) (Slicer.ResultKey × Option (EvalResults.ByOutput (EvalResults.MetricValue Unit))) :=
  ⟨EvalResults.loadMetrics, fun _ _ => .ok [], fun _ _ => .ok []⟩

/-- A configuration with two models without a baseline is evaluated and the results are written, but `analyze_raw_data` returns a result
without any metrics: it loads the results without a model name.  `load_eval_result` with a name finds them. -/
theorem C131_raw_several_fails :
    (analyzeRawData (fun _ _ _ => .ok ⟨[([], [twoModels])], [([], [])], [([], [])], twoModels⟩) metricsView "1" ["label", "p", "q"]
      (some { modelSpecs := [{ name := "a", predictionKey := "p" }, { name := "b", predictionKey := "q" }] }) []).map
        (fun p => p.1.metrics.length) = .ok 0 ∧
    ((evaluateAndWrite (ρ := EvalResults.MetricsRecord Unit) (fun _ _ _ => .ok ⟨[([], [twoModels])], [([], [])], [([], [])], twoModels⟩) "1" .none
        { modelSpecs := [{ name := "a", predictionKey := "p" }, { name := "b", predictionKey := "q" }] } 2
        (fun c ms => configArgs c ms none none) []).bind fun dir => (loadEvalResult metricsView dir (some "b")).map fun r => r.metrics.length) =
      .ok 1 := by
  refine ⟨?_, ?_⟩ <;> decide +kernel

/-! ### Examples -/

/-- A configuration that `C131_unverified` is about: both a label key and label keys. -/
example (v : View Unit Unit) (evaluate : Evaluation Unit) : runModelAnalysis evaluate v "1" .none
    (some { modelSpecs := [{ labelKey := "a", labelKeys := [("x", "b")] }] }) {} "data" "tfrecords" [] = .error .valueError :=
  C131_unverified evaluate v rfl rfl rfl (by decide +kernel) (Or.inl rfl) _ _ _

/-- A configuration with a candidate and a baseline, and their models. -/
private def pairConfig : EvalConfig := { modelSpecs := [{ name := "candidate" }, { name := "baseline", isBaseline := true }] }
private def pairModels : List SharedModel :=
  [⟨"candidate", false, false, some "/candidate", "tf_keras", .none, true, some ["serve"]⟩,
    ⟨"baseline", true, false, some "/baseline", "tf_keras", .none, true, some ["serve"]⟩]
private def oneRecord : Outputs ℕ := ⟨[("-00000-of-00001".toList, [1])], [("-00000-of-00001".toList, [])], [("-00000-of-00001".toList, [2])], 0⟩

/-- The hypotheses of `C131_documented` are met by this configuration, whose models are made by `default_eval_shared_model`. -/
example : List.Forall₂ (fun s m => defaultSharedModel (fun _ => true) { path := "/" ++ s.name, modelName := s.name, config := some pairConfig } = .ok m)
    pairConfig.modelSpecs pairModels ∧
    Runs (fun _ _ _ => .ok oneRecord) plainView (.list pairModels) (some pairModels) pairConfig pairConfig 2 oneRecord [] := by
  refine ⟨.cons rfl (.cons rfl .nil), ⟨by decide +kernel, ?_, rfl, by decide +kernel, rfl, ?_, ?_, by decide, ?_, ?_⟩⟩
  · intro l hl
    cases hl
    decide
  · refine ⟨⟨by simp [oneRecord], by simp [oneRecord]⟩, ⟨by simp [oneRecord], by simp [oneRecord]⟩, ⟨by simp [oneRecord], by simp [oneRecord]⟩⟩
  · exact fun model => ⟨fun l _ => ⟨l, rfl⟩, fun l _ => ⟨l, rfl⟩, fun l _ => ⟨l, rfl⟩⟩
  · unfold Dict.WF; decide
  · intro n _ f hf
    cases hf

example : ((runModelAnalysis (fun _ _ _ => .ok oneRecord) plainView "1" (.list pairModels) (some pairConfig) {} "/data" "tfrecords" []).map
    fun p => match p.1 with
      | .one _ => []
      | .several rs => rs.map fun r => (r.metrics, r.attributions, r.dataLocation, r.fileFormat, r.modelLocation)) =
    .ok [([1], [2], "/data", "tfrecords", "/candidate"), ([1], [2], "/data", "tfrecords", "/baseline")] := by
  decide +kernel

example : Filled ["p", "label", "language"] { predictionKey := "p" } { predictionKey := "p", labelKey := "label" } ∧
    ¬ ∃ s, Filled ["p"] { predictionKey := "p" } s := by
  refine ⟨⟨⟨Or.inl ⟨by decide, rfl⟩, by decide⟩, ⟨Or.inr ⟨rfl, rfl⟩, by decide⟩, rfl⟩, ?_⟩
  rintro ⟨s, _, ⟨h | h, h2⟩, _⟩
  · exact h.1 rfl
  · rw [h.2] at h2
    exact absurd h2 (by decide)

end TopLevel
end TFMA
