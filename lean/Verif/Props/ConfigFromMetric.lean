import Verif.Props.MetricConfigs

/-!
# C122: configs made from metric objects
-/

namespace TFMA.MetricConfigs
open TFMA

variable {Cls : Type}

/-! ## Specification -/

/-- The settings TFMA's own class of a name does not have, of which only the default
is accepted. -/
def Ignored (name setting : String) : Prop :=
  setting = "dtype" ∨
  (name = "AUC" ∧
    (setting = "multi_label" ∨ setting = "num_labels" ∨ setting = "label_weights" ∨
      setting = "from_logits")) ∨
  ((name = "MeanAbsoluteError" ∨ name = "MeanSquaredError" ∨
      name = "MeanAbsolutePercentageError") ∧ setting = "reduction")

/-- The defaults of these settings. -/
def IsDefault (setting : String) (v : Val) : Prop :=
  (setting = "dtype" ∧ (v = .none ∨ v = .str "float32")) ∨
  ((setting = "multi_label" ∨ setting = "from_logits") ∧ v = .bool false) ∨
  ((setting = "num_labels" ∨ setting = "label_weights") ∧ v = .none) ∨
  (setting = "reduction" ∧ v = .str "auto")

/-- All the settings TFMA's class does not have are left at their defaults. -/
def Replaceable (w : World Cls) (m : Instance Cls) : Prop :=
  (∃ c, w.registered.get? (w.className m.cls) = some c) ∧
    ∀ k v, Ignored (w.className m.cls) k → m.params.get? k = some v → IsDefault k v

/-- A class under its own name: Keras does not know it under another name, it does not
wrap a function, and it has not one of the three names that are misspelled in the
table. -/
structure Plain (w : World Cls) (m : Instance Cls) : Prop where
  ownName : w.keyName m.cls = w.className m.cls
  noWrapper : w.className m.cls ≠ "MeanMetricWrapper" ∧
    w.className m.cls ≠ "LossFunctionWrapper"
  spelled : w.className m.cls ≠ "MeanSqauredLogarithmicError" ∧
    w.className m.cls ≠ "BinaryCrossEntropy" ∧ w.className m.cls ≠ "CategoricalCrossEntropy"

/-- A Keras metric or loss. -/
def IsKeras (w : World Cls) (m : Instance Cls) : Prop :=
  w.kind m.cls = .kerasMetric ∨ w.kind m.cls = .kerasLoss

/-! ## Lemmas -/

private theorem mem_settingsOf {name : String}
    (h1 : name ≠ "MeanSqauredLogarithmicError") (h2 : name ≠ "BinaryCrossEntropy")
    (h3 : name ≠ "CategoricalCrossEntropy") (k : String) :
    (∃ r ∈ settingsOf name, r.2.1 = k) ↔ Ignored name k := by
  simp only [settingsOf, unsupported, List.mem_filter, List.mem_cons, List.not_mem_nil,
    or_false, Ignored]
  constructor
  · rintro ⟨r, ⟨h | h | h | h | h | h | h | h | h | h | h, hn⟩, rfl⟩ <;> subst h <;>
      simp_all
  · rintro (rfl | ⟨rfl, rfl | rfl | rfl | rfl⟩ | ⟨rfl | rfl | rfl, rfl⟩)
    · exact ⟨("", "dtype", [.none, .str "float32"]), by simp⟩
    · exact ⟨("AUC", "multi_label", [.bool false]), by simp⟩
    · exact ⟨("AUC", "num_labels", [.none]), by simp⟩
    · exact ⟨("AUC", "label_weights", [.none]), by simp⟩
    · exact ⟨("AUC", "from_logits", [.bool false]), by simp⟩
    · exact ⟨("MeanAbsoluteError", "reduction", [.str "auto"]), by simp⟩
    · exact ⟨("MeanSquaredError", "reduction", [.str "auto"]), by simp⟩
    · exact ⟨("MeanAbsolutePercentageError", "reduction", [.str "auto"]), by simp⟩

private theorem settings_values {name : String} {r : String × String × List Val}
    (hr : r ∈ settingsOf name) (v : Val) : v ∈ r.2.2 ↔ IsDefault r.2.1 v := by
  simp only [settingsOf, unsupported, List.mem_filter, List.mem_cons, List.not_mem_nil,
    or_false] at hr
  rcases hr with ⟨h | h | h | h | h | h | h | h | h | h | h, hn⟩ <;> subst h <;>
    simp [IsDefault]

private theorem isSupported_iff {w : World Cls} {m : Instance Cls} (hp : Plain w m) :
    isSupported w m = true ↔ Replaceable w m := by
  simp only [isSupported, Replaceable, Bool.and_eq_true, List.all_eq_true, Dict.has,
    Option.isSome_iff_exists]
  refine and_congr Iff.rfl ⟨?_, ?_⟩
  · intro h k v hk hv
    obtain ⟨r, hr, rfl⟩ := (mem_settingsOf hp.spelled.1 hp.spelled.2.1 hp.spelled.2.2 k).mpr hk
    have := h r hr
    rw [hv] at this
    exact (settings_values hr v).mp (by simpa using this)
  · intro h r hr
    have hk := (mem_settingsOf hp.spelled.1 hp.spelled.2.1 hp.spelled.2.2 r.2.1).mp ⟨r, hr, rfl⟩
    cases hv : m.params.get? r.2.1 with
    | none => rfl
    | some v => simpa using (settings_values hr v).mpr (h _ v hk hv)

private theorem get?_foldl_del (rows : List (String × String × List Val))
    (p : Dict String Val) (k : String) :
    (rows.foldl (fun p r => p.del r.2.1) p).get? k =
      if rows.any (fun r => r.2.1 == k) then none else p.get? k := by
  induction rows generalizing p with
  | nil => simp
  | cons r rows ih =>
    rw [List.foldl_cons, ih, Dict.get?_del]
    by_cases h : r.2.1 = k
    · simp [h]
    · have : (r.2.1 == k) = false := by simpa using h
      simp only [h, if_false, List.any_cons, this, Bool.false_or]

private theorem serialName_plain {w : World Cls} {m : Instance Cls} (hp : Plain w m)
    {wrapper : String} (hw : wrapper = "MeanMetricWrapper" ∨ wrapper = "LossFunctionWrapper") :
    serialName w wrapper (w.keyName m.cls) m = w.className m.cls := by
  rw [serialName, hp.ownName, if_neg]
  rcases hw with rfl | rfl
  · exact hp.noWrapper.1
  · exact hp.noWrapper.2

private theorem config_cases {w : World Cls} {m : Instance Cls} (hk : IsKeras w m) :
    configFromMetric w m =
      .ok (if isSupported w m then removeUnsupported (serializeTfMetric w m)
        else if w.kind m.cls = .kerasMetric then serializeTfMetric w m
        else serializeTfLoss w m) := by
  unfold configFromMetric
  rcases hk with hk | hk <;> simp only [hk] <;> by_cases hs : isSupported w m = true <;>
    simp [hs]

/-! ## Theorems -/

/-- The config of a Keras object: it names the object's class; the settings TFMA does
not have are dropped exactly if TFMA has a class of the name and all of them are at
their defaults, and all other settings are kept; the module is kept exactly if
nothing was dropped. -/
theorem C122_config_partial (w : World Cls) (m : Instance Cls) (hk : IsKeras w m)
    (hp : Plain w m) :
    ∃ cfg, configFromMetric w m = .ok cfg ∧ cfg.className = w.className m.cls ∧
      (Replaceable w m → cfg.module = "" ∧
        ∀ k, (Ignored (w.className m.cls) k → cfg.params.get? k = none) ∧
          (¬ Ignored (w.className m.cls) k → cfg.params.get? k = m.params.get? k)) ∧
      (¬ Replaceable w m → cfg.module = w.moduleOf m.cls ∧ cfg.params = m.params) := by
  refine ⟨_, config_cases hk, ?_⟩
  by_cases hs : isSupported w m = true
  · have hr := (isSupported_iff hp).mp hs
    rw [if_pos hs]
    have hn : (serializeTfMetric w m).className = w.className m.cls :=
      serialName_plain hp (.inl rfl)
    refine ⟨hn, fun _ => ⟨rfl, fun k => ?_⟩, fun h => absurd hr h⟩
    have hm := mem_settingsOf hp.spelled.1 hp.spelled.2.1 hp.spelled.2.2 k
    have hg : (removeUnsupported (serializeTfMetric w m)).params.get? k =
        if (settingsOf (w.className m.cls)).any (fun r => r.2.1 == k) then none
        else m.params.get? k := by
      rw [← hn]; exact get?_foldl_del _ _ _
    rw [hg]
    constructor
    · intro hi
      obtain ⟨r, hr, hrk⟩ := hm.mpr hi
      rw [if_pos (List.any_eq_true.mpr ⟨r, hr, by simp [hrk]⟩)]
    · intro hi
      rw [if_neg]
      intro h
      obtain ⟨r, hr, hrk⟩ := List.any_eq_true.mp h
      exact hi (hm.mp ⟨r, hr, by simpa using hrk⟩)
  · have hr : ¬ Replaceable w m := fun h => hs ((isSupported_iff hp).mpr h)
    rw [if_neg hs]
    by_cases hkm : w.kind m.cls = .kerasMetric
    · rw [if_pos hkm]
      exact ⟨serialName_plain hp (.inl rfl), fun h => absurd h hr,
        fun _ => ⟨if_pos hp.ownName, rfl⟩⟩
    · rw [if_neg hkm]
      exact ⟨serialName_plain hp (.inr rfl), fun h => absurd h hr, fun _ => ⟨rfl, rfl⟩⟩

/-- A Keras object of a class TFMA does not have, which its module has under its name,
comes back from its config as it was. -/
theorem C122_keras_again (w : World Cls) (m : Instance Cls) (hk : IsKeras w m)
    (hp : Plain w m) (hn : w.registered.get? (w.className m.cls) = none)
    (hm : w.moduleOf m.cls ≠ "")
    (hi : w.importFrom (w.moduleOf m.cls) (w.className m.cls) = some m.cls)
    (hname : m.params.get? "name" ≠ none) (ha : w.accepts m.cls m.params = true) :
    ∃ cfg, configFromMetric w m = .ok cfg ∧ metricInstance w cfg = .ok m := by
  obtain ⟨cfg, hc, hcn, -, hrest⟩ := C122_config_partial w m hk hp
  have hr : ¬ Replaceable w m := fun h => by
    obtain ⟨c, h⟩ := h.1
    rw [hn] at h; cases h
  obtain ⟨hmod, hpar⟩ := hrest hr
  refine ⟨cfg, hc, (C121_one w cfg m).mpr ⟨.inr ⟨by rw [hcn]; exact hn, .inr ⟨?_, ?_, ?_⟩⟩, ?_, ha⟩⟩
  · rw [hmod]; exact hm
  · rw [hmod, hcn]; exact hi
  · rcases hk with h | h <;> simp [h]
  · exact ⟨fun _ => hpar.symm, fun _ _ => hpar.symm, fun _ h => absurd (hpar ▸ h) hname⟩

/-- A metric of TFMA that is registered comes back from its config as it was. -/
theorem C122_tfma_again (w : World Cls) (m : Instance Cls) (hk : w.kind m.cls = .tfma)
    (hr : w.registered.get? (w.keyName m.cls) = some m.cls)
    (ha : w.accepts m.cls m.params = true) :
    ∃ cfg, configFromMetric w m = .ok cfg ∧ metricInstance w cfg = .ok m := by
  refine ⟨serializeTfma w m, by simp only [configFromMetric, hk], (C121_one w _ m).mpr ⟨.inl hr, ?_, ha⟩⟩
  have hf : ¬ FromKeras w (serializeTfma w m) m.cls := fun h => by
    have := h.1
    rw [show (serializeTfma w m).className = w.keyName m.cls from rfl, hr] at this
    cases this
  exact ⟨fun _ => rfl, fun h => absurd h hf, fun h => absurd h hf⟩

/-- A Keras object TFMA has its own class for never comes back as a Keras object,
whether or not TFMA's class has the settings: all its config can give is an object of
TFMA's class. -/
theorem C122_replaced (w : World Cls) (m : Instance Cls) (hk : IsKeras w m) (hp : Plain w m)
    (c : Cls) (hr : w.registered.get? (w.className m.cls) = some c) (cfg : Config)
    (h : configFromMetric w m = .ok cfg) (n : Instance Cls)
    (hn : metricInstance w cfg = .ok n) : n.cls = c ∧ n.params = cfg.params := by
  obtain ⟨cfg', hc, hcn, -⟩ := C122_config_partial w m hk hp
  rw [h] at hc
  cases hc
  obtain ⟨hnamed, hs, -⟩ := (C121_one w cfg n).mp hn
  have hf : ¬ FromKeras w cfg n.cls := fun h => by
    have := h.1
    rw [hcn, hr] at this; cases this
  refine ⟨?_, hs.1 hf⟩
  rcases hnamed with h | ⟨h, -⟩
  · rw [hcn, hr] at h; exact (Option.some.inj h).symm
  · rw [hcn, hr] at h; cases h

/-- The settings TFMA does not have are not kept by running Keras' own metric: an AUC
over several labels is handed to TFMA's AUC, which refuses it. -/
theorem C122_unsupported_fails :
    ∃ m cfg, IsKeras demo m ∧ Plain demo m ∧ ¬ Replaceable demo m ∧
      configFromMetric demo m = .ok cfg ∧ cfg.module = "keras.metrics" ∧
      metricInstance demo cfg = .error .typeError := by
  refine ⟨⟨.kerasAuc, [("name", .str "auc"), ("multi_label", .bool true)]⟩,
    ⟨"AUC", "keras.metrics", [("name", .str "auc"), ("multi_label", .bool true)]⟩,
    .inl rfl, ⟨rfl, by decide, by decide⟩, ?_, rfl, rfl, rfl⟩
  intro h
  have := h.2 "multi_label" (.bool true) (by simp [Ignored, demo]) rfl
  simp [IsDefault] at this

/-- A TFMA metric that is not registered does not come back: its config does not say
its module. -/
theorem C122_custom_tfma_fails :
    ∃ m cfg, demo.kind m.cls = .tfma ∧
      demo.importFrom (demo.moduleOf m.cls) (demo.className m.cls) = some m.cls ∧
      configFromMetric demo m = .ok cfg ∧ metricInstance demo cfg = .error .valueError :=
  ⟨⟨.ownA, []⟩, ⟨"Own", "", []⟩, rfl, rfl, rfl, rfl⟩

/-- A metric that wraps a function of which Keras has a class does not come back: its
config names the class, but the module is that of the wrapper. -/
theorem C122_wrapped_fails :
    ∃ m cfg, IsKeras demo m ∧ configFromMetric demo m = .ok cfg ∧
      cfg.className = "CosineSimilarity" ∧ metricInstance demo cfg = .error .attributeError :=
  ⟨⟨.wrapped, [("name", .str "cosine_similarity")]⟩,
    ⟨"CosineSimilarity", "keras.metrics", [("name", .str "cosine_similarity")]⟩,
    .inl rfl, rfl, rfl, rfl⟩

/-- In the table three class names are misspelled: whatever the object, `reduction` is
not dropped for Keras' `MeanSquaredLogarithmicError`, `BinaryCrossentropy` and
`CategoricalCrossentropy`, and no value of it is refused. -/
theorem C122_misspelled_fails (w : World Cls) (m : Instance Cls) (hk : IsKeras w m)
    (hp : Plain w m)
    (hn : w.className m.cls ∈
      ["MeanSquaredLogarithmicError", "BinaryCrossentropy", "CategoricalCrossentropy"])
    (cfg : Config) (h : configFromMetric w m = .ok cfg) :
    cfg.params.get? "reduction" = m.params.get? "reduction" := by
  obtain ⟨cfg', hc, -, hR, hN⟩ := C122_config_partial w m hk hp
  rw [h] at hc
  cases hc
  by_cases hr : Replaceable w m
  · refine ((hR hr).2 "reduction").2 ?_
    simp only [List.mem_cons, List.not_mem_nil, or_false] at hn
    rcases hn with hn | hn | hn <;> simp [Ignored, hn]
  · rw [(hN hr).2]

/-! ## Examples -/

/-- An AUC with the defaults is TFMA's AUC, without the settings it does not have. -/
example :
    Plain demo ⟨.kerasAuc, [("name", .str "auc"), ("multi_label", .bool false),
      ("dtype", .str "float32"), ("num_thresholds", .num 200)]⟩ ∧
    configFromMetric demo ⟨.kerasAuc, [("name", .str "auc"), ("multi_label", .bool false),
      ("dtype", .str "float32"), ("num_thresholds", .num 200)]⟩ =
      .ok ⟨"AUC", "", [("name", .str "auc"), ("num_thresholds", .num 200)]⟩ :=
  ⟨⟨rfl, by decide, by decide⟩, rfl⟩

/-- A Keras metric TFMA does not have comes back. -/
example :
    ∃ cfg, configFromMetric demo ⟨.kerasMean, [("name", .str "m"), ("dtype", .str "float64")]⟩ =
      .ok cfg ∧
      metricInstance demo cfg = .ok ⟨.kerasMean, [("name", .str "m"), ("dtype", .str "float64")]⟩ :=
  C122_keras_again demo _ (.inl rfl) ⟨rfl, by decide, by decide⟩ rfl (by decide) rfl (by decide) rfl

/-- A registered metric of TFMA comes back. -/
example :
    ∃ cfg, configFromMetric demo ⟨.tfmaAuc, [("name", .str "auc")]⟩ = .ok cfg ∧
      metricInstance demo cfg = .ok ⟨.tfmaAuc, [("name", .str "auc")]⟩ :=
  C122_tfma_again demo _ rfl rfl rfl

end TFMA.MetricConfigs
