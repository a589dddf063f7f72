import Verif.Model.Config
import Verif.Py.DictLemmas

/-!
# C45, C46, C65, C66: verification and default values of the configuration
-/

namespace TFMA
namespace Config

/-! ## Verification -/

/-- At most one of the single key and the keys per output is given. -/
def ExclusiveKeys (s : ModelSpec) : Prop :=
  (s.labelKey = "" ∨ s.labelKeys = []) ∧ (s.predictionKey = "" ∨ s.predictionKeys = []) ∧
    (s.exampleWeightKey = "" ∨ s.exampleWeightKeys = [])

/-- Every per slice threshold names a slice. -/
def SlicesGiven (spec : MetricsSpec) : Prop :=
  (∀ p ∈ spec.perSlice, ∀ t ∈ p.2, t.specs ≠ []) ∧ ∀ m ∈ spec.metrics, ∀ t ∈ m.perSlice, t.specs ≠ []

private theorem verifyKeys_iff (s : ModelSpec) : verifyKeys s = .ok () ↔ ExclusiveKeys s := by
  unfold verifyKeys ExclusiveKeys
  by_cases h1 : s.labelKey ≠ "" ∧ s.labelKeys ≠ []
  · rw [if_pos h1]; simp [h1.1, h1.2]
  · rw [if_neg h1]
    by_cases h2 : s.predictionKey ≠ "" ∧ s.predictionKeys ≠ []
    · rw [if_pos h2]; simp [h2.1, h2.2]
    · rw [if_neg h2]
      by_cases h3 : s.exampleWeightKey ≠ "" ∧ s.exampleWeightKeys ≠ []
      · rw [if_pos h3]; simp [h3.1, h3.2]
      · rw [if_neg h3]
        simp only [true_iff]
        refine ⟨?_, ?_, ?_⟩ <;> tauto

private theorem verifyKeys_error (s : ModelSpec) (e : Err) (h : verifyKeys s = .error e) : e = .valueError := by
  unfold verifyKeys at h
  split_ifs at h <;> cases h <;> rfl

/-- The baselines among the specs. -/
def baselines (specs : List ModelSpec) : List ModelSpec := specs.filter ModelSpec.isBaseline

private theorem verifySpecs_cons (all : List ModelSpec) (spec : ModelSpec) (specs : List ModelSpec)
    (byName : Dict String ModelSpec) (baseline : Option ModelSpec) :
    verifySpecs all (spec :: specs) byName baseline =
    match verifyKeys spec with
    | .error e => .error e
    | .ok _ =>
      if nameInSpecs spec.name all then .error .valueError
      else if spec.isBaseline then
        match baseline with
        | some _ => .error .valueError
        | none => verifySpecs all specs (Dict.set byName spec.name spec) (some spec)
      else verifySpecs all specs (Dict.set byName spec.name spec) baseline := rfl

private theorem verifySpecs_ok (all : List ModelSpec) : ∀ (specs : List ModelSpec) (d : Dict String ModelSpec)
    (b : Option ModelSpec) (d' : Dict String ModelSpec) (b' : Option ModelSpec),
    verifySpecs all specs d b = .ok (d', b') →
      (∀ s ∈ specs, ExclusiveKeys s) ∧ (b.toList ++ baselines specs).length ≤ 1 ∧ b'.toList = b.toList ++ baselines specs ∧
      (∀ n, n ∈ Dict.keys d' ↔ n ∈ Dict.keys d ∨ n ∈ specs.map ModelSpec.name) ∧ (Dict.WF d → Dict.WF d')
  | [], d, b, d', b', h => by
    cases h
    refine ⟨by simp, ?_, by simp [baselines], by simp, id⟩
    cases b <;> simp [baselines]
  | s :: specs, d, b, d', b', h => by
    rw [verifySpecs_cons] at h
    cases hk : verifyKeys s with
    | error e => rw [hk] at h; cases h
    | ok u =>
      rw [hk] at h
      have hx : ExclusiveKeys s := (verifyKeys_iff s).1 hk
      simp only [nameInSpecs, Bool.false_eq_true, if_false] at h
      have keys : ∀ n, n ∈ Dict.keys (Dict.set d s.name s) ↔ n ∈ Dict.keys d ∨ n = s.name := by
        intro n
        rw [Dict.mem_keys_iff, Dict.mem_keys_iff]
        by_cases hn : s.name = n
        · subst hn
          simp [Dict.get?_set_self]
        · rw [Dict.get?_set_ne _ _ hn]
          simp [Ne.symm hn]
      by_cases hb : s.isBaseline = true
      · rw [if_pos hb] at h
        cases b with
        | some b => cases h
        | none =>
          obtain ⟨h1, h2, h3, h4, h5⟩ := verifySpecs_ok all specs _ _ d' b' h
          refine ⟨?_, ?_, ?_, ?_, fun hw => h5 (Dict.WF_set hw _ _)⟩
          · simpa [hx] using h1
          · simpa [baselines, List.filter_cons, hb] using h2
          · simpa [baselines, List.filter_cons, hb] using h3
          · intro n
            rw [h4, keys]
            simp only [List.map_cons, List.mem_cons]
            tauto
      · rw [if_neg hb] at h
        obtain ⟨h1, h2, h3, h4, h5⟩ := verifySpecs_ok all specs _ _ d' b' h
        refine ⟨?_, ?_, ?_, ?_, fun hw => h5 (Dict.WF_set hw _ _)⟩
        · simpa [hx] using h1
        · simpa [baselines, List.filter_cons, hb] using h2
        · simpa [baselines, List.filter_cons, hb] using h3
        · intro n
          rw [h4, keys]
          simp only [List.map_cons, List.mem_cons]
          tauto

private theorem verifySpecs_total (all : List ModelSpec) : ∀ (specs : List ModelSpec) (d : Dict String ModelSpec)
    (b : Option ModelSpec), (∀ s ∈ specs, ExclusiveKeys s) → (b.toList ++ baselines specs).length ≤ 1 →
    ∃ r, verifySpecs all specs d b = .ok r
  | [], d, b, _, _ => ⟨_, rfl⟩
  | s :: specs, d, b, hx, hb => by
    rw [verifySpecs_cons, (verifyKeys_iff s).2 (hx s (by simp))]
    simp only [nameInSpecs, Bool.false_eq_true, if_false]
    by_cases h : s.isBaseline = true
    · rw [if_pos h]
      cases b with
      | some b => simp [baselines, List.filter_cons, h] at hb
      | none =>
        refine verifySpecs_total all specs _ _ (fun s hs => hx s (by simp [hs])) ?_
        simpa [baselines, List.filter_cons, h] using hb
    · rw [if_neg h]
      refine verifySpecs_total all specs _ _ (fun s hs => hx s (by simp [hs])) ?_
      simpa [baselines, List.filter_cons, h] using hb

private theorem verifySpecs_error (all : List ModelSpec) : ∀ (specs : List ModelSpec) (d : Dict String ModelSpec)
    (b : Option ModelSpec) (e : Err), verifySpecs all specs d b = .error e → e = .valueError
  | [], d, b, e, h => by cases h
  | s :: specs, d, b, e, h => by
    rw [verifySpecs_cons] at h
    cases hk : verifyKeys s with
    | error e' => rw [hk] at h; cases h; exact verifyKeys_error s e hk
    | ok u =>
      rw [hk] at h
      simp only [nameInSpecs, Bool.false_eq_true, if_false] at h
      by_cases hb : s.isBaseline = true
      · rw [if_pos hb] at h
        cases b with
        | some b => cases h; rfl
        | none => exact verifySpecs_error all specs _ _ e h
      · rw [if_neg hb] at h
        exact verifySpecs_error all specs _ _ e h

private theorem two_names {d : Dict String ModelSpec} (hd : Dict.WF d) :
    (d.length > 1 ∧ Dict.has d "" = true) ↔ "" ∈ Dict.keys d ∧ ∃ n ∈ Dict.keys d, n ≠ "" := by
  rw [Dict.has_iff]
  have hlen : d.length = (Dict.keys d).length := by simp [Dict.keys]
  have hnd : (Dict.keys d).Nodup := hd
  rw [hlen]
  constructor
  · rintro ⟨h1, h2⟩
    refine ⟨h2, ?_⟩
    by_contra hc
    push Not at hc
    have : ∀ l : List String, l.Nodup → (∀ n ∈ l, n = "") → l.length ≤ 1 := by
      intro l hl hall
      match l with
      | [] => simp
      | [a] => simp
      | a :: b :: l =>
        have h1 := hall a (by simp)
        have h2 := hall b (by simp)
        simp [h1, h2] at hl
    have := this _ hnd hc
    omega
  · rintro ⟨h1, n, h2, h3⟩
    refine ⟨?_, h1⟩
    by_contra hc
    have : ∀ l : List String, l.length ≤ 1 → "" ∈ l → n ∈ l → n = "" := by
      intro l hl h1 h2
      match l with
      | [] => simp at h1
      | [a] => simp at h1 h2; rw [h2, ← h1]
      | a :: b :: l => simp at hl
    exact h3 (this _ (by omega) h1 h2)

private theorem emptyPerSlice_iff (spec : MetricsSpec) : emptyPerSlice spec = false ↔ SlicesGiven spec := by
  unfold emptyPerSlice SlicesGiven
  simp [List.any_eq_false]

/-- C45: what is accepted by `verify_eval_config`: at least one model, no key given both ways, at most one baseline, no
model without a name beside one with a name, a baseline if one is required, and slices for every per slice threshold. -/
theorem C45_accepts_iff (config : EvalConfig) (baselineRequired : Bool) :
    verify config baselineRequired = .ok () ↔
      config.modelSpecs ≠ [] ∧ (∀ s ∈ config.modelSpecs, ExclusiveKeys s) ∧ (baselines config.modelSpecs).length ≤ 1 ∧
      ((∃ s ∈ config.modelSpecs, s.name = "") → ∀ s ∈ config.modelSpecs, s.name = "") ∧
      (baselineRequired = true → ∃ s ∈ config.modelSpecs, s.isBaseline = true) ∧
      ∀ m ∈ config.metricsSpecs, SlicesGiven m := by
  unfold verify
  by_cases h0 : config.modelSpecs = []
  · rw [if_pos h0]; simp [h0]
  rw [if_neg h0]
  have hsg : config.metricsSpecs.any emptyPerSlice = true ↔ ¬ ∀ m ∈ config.metricsSpecs, SlicesGiven m := by
    rw [← Bool.not_eq_false, not_iff_not]
    constructor
    · intro h m hm
      exact (emptyPerSlice_iff m).1 (by simpa using List.any_eq_false.1 h m hm)
    · intro h
      exact List.any_eq_false.2 fun m hm => by simp [(emptyPerSlice_iff m).2 (h m hm)]
  cases hv : verifySpecs config.modelSpecs config.modelSpecs [] none with
  | error e =>
    simp only [reduceCtorEq, false_iff]
    rintro ⟨_, h1, h2, _⟩
    obtain ⟨r, hr⟩ := verifySpecs_total config.modelSpecs config.modelSpecs [] none h1 (by simpa using h2)
    rw [hv] at hr; cases hr
  | ok r =>
    obtain ⟨d, b⟩ := r
    obtain ⟨h1, h2, h3, h4, h5⟩ := verifySpecs_ok _ _ _ _ _ _ hv
    have hnames : ∀ n, n ∈ Dict.keys d ↔ ∃ s ∈ config.modelSpecs, s.name = n := by
      intro n; rw [h4]; simp [Dict.keys]
    have hreq : b = none ↔ ¬ ∃ s ∈ config.modelSpecs, s.isBaseline = true := by
      simp only [Option.toList_none, List.nil_append] at h3
      constructor
      · rintro rfl ⟨s, hs, hb⟩
        have : s ∈ baselines config.modelSpecs := List.mem_filter.2 ⟨hs, hb⟩
        rw [← h3] at this
        simp at this
      · intro h
        cases b with
        | none => rfl
        | some s =>
          have : s ∈ baselines config.modelSpecs := by rw [← h3]; simp
          exact absurd ⟨s, (List.mem_filter.1 this).1, (List.mem_filter.1 this).2⟩ h
    have htwo := two_names (h5 Dict.WF_nil)
    have h2' : (baselines config.modelSpecs).length ≤ 1 := by simpa using h2
    simp only []
    by_cases c1 : d.length > 1 ∧ Dict.has d "" = true
    · rw [if_pos c1]
      simp only [reduceCtorEq, false_iff]
      rintro ⟨_, _, _, h, _⟩
      obtain ⟨h6, n, h7, h8⟩ := htwo.1 c1
      obtain ⟨s, hs, rfl⟩ := (hnames n).1 h7
      exact h8 (h ((hnames "").1 h6) s hs)
    · rw [if_neg c1]
      have hn : (∃ s ∈ config.modelSpecs, s.name = "") → ∀ s ∈ config.modelSpecs, s.name = "" := by
        intro h s hs
        by_contra hne
        exact c1 (htwo.2 ⟨(hnames "").2 h, s.name, (hnames _).2 ⟨s, hs, rfl⟩, hne⟩)
      by_cases c2 : baselineRequired = true ∧ b = none
      · rw [if_pos c2]
        simp only [reduceCtorEq, false_iff]
        rintro ⟨_, _, _, _, h, _⟩
        exact (hreq.1 c2.2) (h c2.1)
      · rw [if_neg c2]
        have hr : baselineRequired = true → ∃ s ∈ config.modelSpecs, s.isBaseline = true := by
          intro h
          by_contra hne
          exact c2 ⟨h, hreq.2 hne⟩
        by_cases c3 : config.metricsSpecs.any emptyPerSlice = true
        · rw [if_pos c3]
          simp only [reduceCtorEq, false_iff]
          rintro ⟨_, _, _, _, _, h⟩
          exact hsg.1 c3 h
        · rw [if_neg c3]
          simp only [true_iff]
          refine ⟨h0, h1, h2', hn, hr, ?_⟩
          by_contra hne
          exact c3 (hsg.2 hne)

/-- C45: whatever is not accepted raises ValueError. -/
theorem C45_error (config : EvalConfig) (baselineRequired : Bool) (e : Err) (h : verify config baselineRequired = .error e) :
    e = .valueError := by
  unfold verify at h
  by_cases h0 : config.modelSpecs = []
  · rw [if_pos h0] at h; cases h; rfl
  · rw [if_neg h0] at h
    cases hv : verifySpecs config.modelSpecs config.modelSpecs [] none with
    | error e' => rw [hv] at h; cases h; exact verifySpecs_error _ _ _ _ e hv
    | ok r =>
      rw [hv] at h
      simp only at h
      split_ifs at h <;> cases h <;> rfl

/-- C45, the part that holds: an accepted configuration has at most one baseline. Missing: that its models have different
names (`C45_duplicate_names`). -/
theorem C45_unique_partial (config : EvalConfig) (baselineRequired : Bool) (h : verify config baselineRequired = .ok ()) :
    ∀ i j : ℕ, ∀ s t : ModelSpec, config.modelSpecs[i]? = some s → config.modelSpecs[j]? = some t →
      s.isBaseline = true → t.isBaseline = true → i = j := by
  have hle := ((C45_accepts_iff config baselineRequired).1 h).2.2.1
  generalize config.modelSpecs = l at hle
  unfold baselines at hle
  rw [← List.countP_eq_length_filter] at hle
  induction l with
  | nil => intro i j s t hi; simp at hi
  | cons a l ih =>
    intro i j s t hi hj hs ht
    have hmem : ∀ (n : ℕ) (x : ModelSpec), l[n]? = some x → x.isBaseline = true → 0 < l.countP ModelSpec.isBaseline :=
      fun n x hn hx => List.countP_pos_iff.2 ⟨x, List.mem_of_getElem? hn, hx⟩
    cases i with
    | zero =>
      cases j with
      | zero => rfl
      | succ j =>
        simp only [List.getElem?_cons_zero, Option.some.injEq, List.getElem?_cons_succ] at hi hj
        subst hi
        have := hmem j t hj ht
        rw [List.countP_cons, if_pos hs] at hle
        omega
    | succ i =>
      cases j with
      | zero =>
        simp only [List.getElem?_cons_zero, Option.some.injEq, List.getElem?_cons_succ] at hi hj
        subst hj
        have := hmem i s hi hs
        rw [List.countP_cons, if_pos ht] at hle
        omega
      | succ j =>
        simp only [List.getElem?_cons_succ] at hi hj
        have := ih (by rw [List.countP_cons] at hle; omega) i j s t hi hj hs ht
        omega

/-- C45 does not hold in full: two models with the same name are accepted (the check compares a name with model specs). -/
theorem C45_duplicate_names : ∃ config, verify config false = .ok () ∧
    ∃ s t, config.modelSpecs = [s, t] ∧ s.name = t.name ∧ s ≠ t :=
  ⟨{ modelSpecs := [{ name := "m", labelKey := "a" }, { name := "m", labelKey := "b" }] }, by decide +kernel, _, _, rfl, rfl,
    by decide +kernel⟩

/-- A configuration that is accepted with a required baseline. -/
example : verify { modelSpecs := [{ name := "candidate" }, { name := "baseline", isBaseline := true }] } true = .ok () := by
  decide +kernel

/-- A model without a name beside one with a name. -/
example : verify { modelSpecs := [{ name := "candidate" }, { labelKey := "l" }] } false = .error .valueError := by
  decide +kernel

/-! ## Defaults -/

/-- All thresholds of a configuration. -/
def thresholdsOf (config : EvalConfig) : List MetricThreshold :=
  config.metricsSpecs.flatMap fun spec =>
    (spec.metrics.flatMap fun m => m.threshold.toList ++ m.perSlice.flatMap (fun t => t.threshold.toList) ++
      m.crossSlice.flatMap (fun t => t.threshold.toList)) ++
    spec.thresholds.map Prod.snd ++
    spec.perSlice.flatMap (fun p => p.2.flatMap fun t => t.threshold.toList) ++
    spec.crossSlice.flatMap (fun p => p.2.flatMap fun t => t.threshold.toList)

/-- A change threshold that says something. -/
def NonEmpty (t : ChangeThreshold) : Prop := t.absolute ≠ none ∨ t.relative ≠ none ∨ t.direction ≠ .unknown

private theorem changeBytes_opt (t : Option MetricThreshold) :
    changeBytes t = t.toList.any MetricThreshold.changeBytes := by
  cases t <;> simp [changeBytes]

private theorem any_flatMap {α β : Type} (l : List α) (f : α → List β) (p : β → Bool) :
    (l.flatMap f).any p = l.any fun a => (f a).any p := by
  simp [List.any_flatMap]

private theorem hasChange_eq (config : EvalConfig) :
    hasChangeThreshold config = (thresholdsOf config).any MetricThreshold.changeBytes := by
  unfold hasChangeThreshold thresholdsOf
  simp only [changeBytes_opt, List.any_flatMap, List.any_append, List.any_map, Function.comp_def]

private theorem changeBytes_iff (t : MetricThreshold) :
    t.changeBytes = true ↔ ∃ c, t.change = some c ∧ NonEmpty c := by
  unfold MetricThreshold.changeBytes
  cases h : t.change with
  | none => simp
  | some c =>
    simp only [ChangeThreshold.hasBytes, NonEmpty, Bool.or_eq_true, decide_eq_true_eq, Option.isSome_iff_ne_none,
      Option.some.injEq, exists_eq_left']
    tauto

/-- C46: without a baseline model, non-empty change thresholds are rejected with RuntimeError unless rubber stamped; the
only other errors are those of the deprecated flags. -/
theorem C46_rejected_iff (a : Args) (config : EvalConfig) :
    update a config = .error .runtimeError ↔ a.hasBaseline ≠ some true ∧ a.rubberStamp = false ∧
      ∃ t ∈ thresholdsOf config, ∃ c, t.change = some c ∧ NonEmpty c := by
  have hex : hasChangeThreshold config = true ↔ ∃ t ∈ thresholdsOf config, ∃ c, t.change = some c ∧ NonEmpty c := by
    rw [hasChange_eq, List.any_eq_true]
    simp only [changeBytes_iff]
  unfold update Args.check
  by_cases h : a.hasBaseline ≠ some true ∧ hasChangeThreshold config = true ∧ ¬ a.rubberStamp = true
  · rw [if_pos h]
    simp only [true_iff]
    exact ⟨h.1, by simpa using h.2.2, hex.1 h.2.1⟩
  · rw [if_neg h]
    have : ¬ (a.hasBaseline ≠ some true ∧ a.rubberStamp = false ∧
        ∃ t ∈ thresholdsOf config, ∃ c, t.change = some c ∧ NonEmpty c) := by
      rintro ⟨h1, h2, h3⟩
      exact h ⟨h1, hex.2 h3, by simp [h2]⟩
    simp only [this, iff_false]
    split_ifs <;> simp

/-- C46: the use of a deprecated flag together with another one or with a baseline is the only other error. -/
theorem C46_errors (a : Args) (config : EvalConfig) (e : Err) (h : update a config = .error e) :
    e = .runtimeError ∨ e = .valueError ∧
      ((a.maybeAdd = true ∧ a.maybeRemove = true) ∨ ((a.maybeAdd = true ∨ a.maybeRemove = true) ∧ a.hasBaseline = some true)) := by
  unfold update Args.check at h
  by_cases h1 : a.hasBaseline ≠ some true ∧ hasChangeThreshold config = true ∧ ¬ a.rubberStamp = true
  · rw [if_pos h1] at h; cases h; exact .inl rfl
  · rw [if_neg h1] at h
    by_cases h2 : a.maybeAdd = true ∧ a.maybeRemove = true
    · rw [if_pos h2] at h; cases h; exact .inr ⟨rfl, .inl h2⟩
    · rw [if_neg h2] at h
      by_cases h3 : (a.maybeAdd = true ∨ a.maybeRemove = true) ∧ a.hasBaseline = some true
      · rw [if_pos h3] at h; cases h; exact .inr ⟨rfl, .inr h3⟩
      · rw [if_neg h3] at h; cases h

private theorem clear_none (t : MetricThreshold) : t.clearChange.change = none := by
  unfold MetricThreshold.clearChange
  by_cases h : t.hasBytes = true
  · rw [if_pos h]
  · rw [if_neg h]
    unfold MetricThreshold.hasBytes at h
    cases hc : t.change with
    | none => rfl
    | some c => simp [hc] at h

private theorem clear_value (t : MetricThreshold) : t.clearChange.value = t.value := by
  unfold MetricThreshold.clearChange
  split_ifs <;> rfl

private theorem thresholds_clear (specs : List MetricsSpec) (f : MetricsSpec → MetricsSpec)
    (hf : ∀ s, (f s).metrics = s.metrics ∧ (f s).thresholds = s.thresholds ∧ (f s).perSlice = s.perSlice ∧
      (f s).crossSlice = s.crossSlice) (config : EvalConfig) :
    thresholdsOf { config with metricsSpecs := (specs.map MetricsSpec.clearChange).map f } =
      (thresholdsOf { config with metricsSpecs := specs }).map MetricThreshold.clearChange := by
  unfold thresholdsOf
  simp only [List.flatMap_map, List.map_flatMap]
  refine List.flatMap_congr fun s _ => ?_
  obtain ⟨h1, h2, h3, h4⟩ := hf s.clearChange
  rw [h1, h2, h3, h4]
  have ho : ∀ t : Option MetricThreshold, (t.map MetricThreshold.clearChange).toList = t.toList.map MetricThreshold.clearChange :=
    fun t => by cases t <;> rfl
  simp only [MetricsSpec.clearChange, MetricConfig.clearChange, SliceThreshold.clearChange, List.map_append, List.flatMap_map,
    List.map_flatMap, List.map_map, Function.comp_def, ho]

private theorem fix_fields (names : List String) (s : MetricsSpec) :
    (fixModelNames names s).metrics = s.metrics ∧ (fixModelNames names s).thresholds = s.thresholds ∧
    (fixModelNames names s).perSlice = s.perSlice ∧ (fixModelNames names s).crossSlice = s.crossSlice := by
  unfold fixModelNames
  split_ifs <;> exact ⟨rfl, rfl, rfl, rfl⟩

private theorem thresholds_fix (specs : List MetricsSpec) (f : MetricsSpec → MetricsSpec)
    (hf : ∀ s, (f s).metrics = s.metrics ∧ (f s).thresholds = s.thresholds ∧ (f s).perSlice = s.perSlice ∧
      (f s).crossSlice = s.crossSlice) (config : EvalConfig) :
    thresholdsOf { config with metricsSpecs := specs.map f } = thresholdsOf { config with metricsSpecs := specs } := by
  unfold thresholdsOf
  simp only [List.flatMap_map]
  refine List.flatMap_congr fun s _ => ?_
  obtain ⟨h1, h2, h3, h4⟩ := hf s
  rw [h1, h2, h3, h4]

private theorem update_ok {a : Args} {config r : EvalConfig} (h : update a config = .ok r) :
    a.check config = .ok () ∧
    r.modelSpecs = dropSingleName (newSpecs a config.modelSpecs) ∧
    r.metricsSpecs = (if a.removes then config.metricsSpecs.map MetricsSpec.clearChange else config.metricsSpecs).map
      (fixModelNames (r.modelSpecs.map ModelSpec.name)) ∧
    r.options = defaultMethod config.options ∧ r.slicingSpecs = config.slicingSpecs ∧
    r.crossSlicingSpecs = config.crossSlicingSpecs := by
  unfold update at h
  cases hc : a.check config with
  | error e => rw [hc] at h; cases h
  | ok u =>
    rw [hc] at h
    cases h
    exact ⟨rfl, rfl, rfl, rfl, rfl, rfl⟩

/-- C46: when there is no baseline (`has_baseline` is False or the deprecated flag asks for its removal), the thresholds are
the given ones with their change thresholds removed and no model is a baseline. -/
theorem C46_no_baseline (a : Args) (config r : EvalConfig) (h : update a config = .ok r)
    (hr : a.hasBaseline = some false ∨ a.maybeRemove = true) :
    (∀ s ∈ r.modelSpecs, s.isBaseline = false) ∧
    thresholdsOf r = (thresholdsOf config).map (fun t => { t with change := none }) := by
  obtain ⟨_, h1, h2, _⟩ := update_ok h
  have hrem : a.removes = true := by
    unfold Args.removes
    rcases hr with hr | hr <;> simp [hr]
  constructor
  · have hnew : ∀ s ∈ newSpecs a config.modelSpecs, s.isBaseline = false := by
      intro s hs
      unfold newSpecs at hs
      simp only [hrem, if_true] at hs
      split_ifs at hs <;> first
        | (simp only [List.mem_singleton] at hs; rw [hs])
        | simpa using (List.mem_filter.1 hs).2
    rw [h1]
    intro s hs
    unfold dropSingleName at hs
    split at hs
    · rename_i s0 heq
      simp only [List.mem_singleton] at hs
      rw [hs]
      exact hnew s0 (by rw [heq]; simp)
    · exact hnew s hs
  · have : thresholdsOf r = thresholdsOf { config with metricsSpecs := r.metricsSpecs } := rfl
    rw [this, h2, hrem, if_pos rfl, thresholds_clear config.metricsSpecs _ (fix_fields _) config]
    refine List.map_congr_left fun t _ => ?_
    have h1 := clear_none t
    have h2 := clear_value t
    cases hq : t.clearChange with
    | mk v c => rw [hq] at h1 h2; simp only at h1 h2; rw [h1, h2]

/-- C46: otherwise the thresholds are as given. -/
theorem C46_thresholds_kept (a : Args) (config r : EvalConfig) (h : update a config = .ok r)
    (hr : a.hasBaseline ≠ some false ∧ a.maybeRemove = false) : thresholdsOf r = thresholdsOf config := by
  obtain ⟨_, h1, h2, _⟩ := update_ok h
  have hrem : a.removes = false := by
    unfold Args.removes
    simp [hr.2, hr.1]
  have : thresholdsOf r = thresholdsOf { config with metricsSpecs := r.metricsSpecs } := rfl
  rw [this, h2, hrem]
  exact thresholds_fix _ _ (fix_fields _) config

/-- C46: with `has_baseline` a single model without name becomes a candidate and a baseline with the same settings. -/
theorem C46_baseline_added (config r : EvalConfig) (stamp : Bool) (s : ModelSpec) (hs : config.modelSpecs = [s]) (hn : s.name = "")
    (h : update { hasBaseline := some true, rubberStamp := stamp } config = .ok r) :
    r.modelSpecs = [{ s with name := "candidate" }, { s with name := "baseline", isBaseline := true }] := by
  obtain ⟨_, h1, _⟩ := update_ok h
  rw [h1, hs]
  simp [newSpecs, Args.adds, Args.removes, addBaseline, hn, dropSingleName]

/-- C46: confidence intervals without a method use the jackknife. -/
theorem C46_method (a : Args) (config r : EvalConfig) (h : update a config = .ok r) :
    r.options.computeConfidenceIntervals = config.options.computeConfidenceIntervals ∧
    (r.options.computeConfidenceIntervals = true → r.options.method ≠ .unknown) ∧
    (config.options.method ≠ .unknown → r.options = config.options) := by
  obtain ⟨_, _, _, h1, _⟩ := update_ok h
  rw [h1]
  unfold defaultMethod
  by_cases hc : config.options.computeConfidenceIntervals = true ∧ config.options.method = .unknown
  · rw [if_pos hc]
    exact ⟨rfl, fun _ => by simp, fun h => absurd hc.2 h⟩
  · rw [if_neg hc]
    refine ⟨rfl, fun h hm => hc ⟨h, hm⟩, fun _ => rfl⟩

/-! ### Idempotence -/

private theorem clear_clear (t : MetricThreshold) : t.clearChange.clearChange = t.clearChange := by
  have h1 := clear_none t
  cases hq : t.clearChange with
  | mk v c =>
    rw [hq] at h1
    simp only at h1
    subst h1
    unfold MetricThreshold.clearChange
    split_ifs <;> rfl

private theorem slice_clear_clear {S : Type} (t : SliceThreshold S) : t.clearChange.clearChange = t.clearChange := by
  cases t with
  | mk sp th => cases th <;> simp [SliceThreshold.clearChange, clear_clear]

private theorem config_clear_clear (m : MetricConfig) : m.clearChange.clearChange = m.clearChange := by
  cases m with
  | mk cn mn cf th ps cs =>
    cases th <;> simp [MetricConfig.clearChange, clear_clear, slice_clear_clear, Function.comp_def]

private theorem spec_clear_clear (s : MetricsSpec) : s.clearChange.clearChange = s.clearChange := by
  cases s
  simp [MetricsSpec.clearChange, clear_clear, slice_clear_clear, config_clear_clear, Function.comp_def]

private theorem fix_clear (names : List String) (s : MetricsSpec) :
    fixModelNames names s.clearChange = (fixModelNames names s).clearChange := by
  unfold fixModelNames
  by_cases h : s.modelNames = []
  · simp [MetricsSpec.clearChange, h]
  · by_cases h2 : names.length = 1 <;> simp [MetricsSpec.clearChange, h, h2]

private theorem fix_fix (names : List String) (hn : names ≠ []) (h1 : names.length = 1 → names = [""]) (s : MetricsSpec) :
    fixModelNames names (fixModelNames names s) = fixModelNames names s := by
  unfold fixModelNames
  by_cases h : s.modelNames = []
  · simp only [h, if_true, hn, if_false]
    split_ifs with h2
    · rw [h1 h2]
    · rfl
  · simp only [h, if_false]
    by_cases h2 : names.length = 1
    · simp [h2]
    · simp [h2, h]

private theorem newSpecs_ne (a : Args) (specs : List ModelSpec) : newSpecs a specs ≠ [] := by
  unfold newSpecs
  simp only
  split_ifs with h <;> simp_all

private theorem drop_names (specs : List ModelSpec) (h : specs ≠ []) :
    (dropSingleName specs).map ModelSpec.name ≠ [] ∧
    (((dropSingleName specs).map ModelSpec.name).length = 1 → (dropSingleName specs).map ModelSpec.name = [""]) := by
  match specs with
  | [] => exact absurd rfl h
  | [s] => simp [dropSingleName]
  | s :: t :: l => simp [dropSingleName]

private theorem method_method (o : Options) : defaultMethod (defaultMethod o) = defaultMethod o := by
  unfold defaultMethod
  by_cases h : o.computeConfidenceIntervals = true ∧ o.method = .unknown
  · simp [h]
  · simp [h]

/-- The configurations for which a baseline is added at once or not at all: there are at least two models or a single one
without a name. -/
def Stable (specs : List ModelSpec) : Prop := 2 ≤ specs.length ∨ ∃ s, specs = [s] ∧ s.name = ""

private theorem specs_idem (a : Args) (specs : List ModelSpec)
    (h : a.removes = true ∨ a.adds = false ∨ Stable specs) :
    dropSingleName (newSpecs a (dropSingleName (newSpecs a specs))) = dropSingleName (newSpecs a specs) := by
  have hfilter : ∀ l : List ModelSpec, (∀ s ∈ l, s.isBaseline = false) → l.filter (fun s => !s.isBaseline) = l :=
    fun l hl => List.filter_eq_self.2 fun s hs => by simp [hl s hs]
  have hone : ∀ s : ModelSpec, ({ s with name := "" } : ModelSpec).name = "" := fun _ => rfl
  by_cases hr : a.removes = true
  · have hnb : ∀ s ∈ newSpecs a specs, s.isBaseline = false := by
      intro s hs
      unfold newSpecs at hs
      simp only [hr, if_true] at hs
      split_ifs at hs <;> first
        | (simp only [List.mem_singleton] at hs; rw [hs])
        | simpa using (List.mem_filter.1 hs).2
    have hne := newSpecs_ne a specs
    generalize newSpecs a specs = l at hnb hne
    match l with
    | [] => exact absurd rfl hne
    | [s] =>
      have hb := hnb s (by simp)
      by_cases hadd : a.adds = true
      · simp [dropSingleName, newSpecs, hr, hadd, addBaseline, hb]
      · simp [dropSingleName, newSpecs, hr, hadd, hb]
    | s :: t :: l =>
      have h1 : dropSingleName (s :: t :: l) = s :: t :: l := rfl
      have h2 : addBaseline (s :: t :: l) = s :: t :: l := rfl
      rw [h1]
      unfold newSpecs
      simp only [hr, if_true, h2, ite_self, hfilter _ hnb]
      simp [dropSingleName]
  · have hrf : a.removes = false := by simpa using hr
    by_cases hadd : a.adds = true
    · have hst : Stable specs := by
        rcases h with h | h | h
        · exact absurd h hr
        · simp [hadd] at h
        · exact h
      have : 2 ≤ (newSpecs a specs).length := by
        rcases hst with h2 | ⟨s, rfl, hs⟩
        · match specs with
          | s :: t :: l => simp [newSpecs, hrf, hadd, addBaseline]
        · simp [newSpecs, hrf, hadd, addBaseline, hs]
      generalize newSpecs a specs = l at this
      match l with
      | s :: t :: l => simp [dropSingleName, newSpecs, hrf, hadd, addBaseline]
    · have haf : a.adds = false := by simpa using hadd
      have hne := newSpecs_ne a specs
      generalize newSpecs a specs = l at hne
      match l with
      | [] => exact absurd rfl hne
      | [s] => simp [dropSingleName, newSpecs, hrf, haf]
      | s :: t :: l => simp [dropSingleName, newSpecs, hrf, haf]

private theorem check_again {a : Args} {config r : EvalConfig} (h : update a config = .ok r) : a.check r = .ok () := by
  obtain ⟨h0, _, h2, _⟩ := update_ok h
  have hch : hasChangeThreshold r = true → hasChangeThreshold config = true := by
    rw [hasChange_eq, hasChange_eq]
    by_cases hr : a.hasBaseline = some false ∨ a.maybeRemove = true
    · rw [(C46_no_baseline a config r h hr).2]
      intro hany
      obtain ⟨t, ht, hb⟩ := List.any_eq_true.1 hany
      obtain ⟨t0, _, rfl⟩ := List.mem_map.1 ht
      simp [MetricThreshold.changeBytes] at hb
    · rw [C46_thresholds_kept a config r h ⟨fun hh => hr (.inl hh), by simpa using fun hh => hr (.inr hh)⟩]
      exact id
  unfold Args.check at h0 ⊢
  by_cases c1 : a.hasBaseline ≠ some true ∧ hasChangeThreshold config = true ∧ ¬ a.rubberStamp = true
  · rw [if_pos c1] at h0; cases h0
  · rw [if_neg c1] at h0
    rw [if_neg (fun hh => c1 ⟨hh.1, hch hh.2.1, hh.2.2⟩)]
    exact h0

/-- C46, the part that holds: filling in the defaults twice gives the same as once, if the run has no baseline (or it is
removed), or there are at least two models, or a single one without a name. Missing: a single model with a name, or none, in a
run with a baseline (`C46_not_idempotent`). -/
theorem C46_idempotent_partial (a : Args) (config r : EvalConfig) (h : update a config = .ok r)
    (hst : a.removes = true ∨ a.adds = false ∨ Stable config.modelSpecs) : update a r = .ok r := by
  obtain ⟨h0, h1, h2, h3, h4, h5⟩ := update_ok h
  have hspecs : dropSingleName (newSpecs a r.modelSpecs) = r.modelSpecs := by
    rw [h1]; exact specs_idem a config.modelSpecs hst
  have hnames := drop_names (newSpecs a config.modelSpecs) (newSpecs_ne a _)
  rw [← h1] at hnames
  unfold update
  rw [check_again h]
  have hms : (if a.removes = true then r.metricsSpecs.map MetricsSpec.clearChange else r.metricsSpecs).map
      (fixModelNames (r.modelSpecs.map ModelSpec.name)) = r.metricsSpecs := by
    by_cases hr : a.removes = true
    · simp only [hr, if_true] at h2 ⊢
      rw [h2]
      simp only [List.map_map]
      refine List.map_congr_left fun s _ => ?_
      simp only [Function.comp_def, fix_clear, spec_clear_clear]
      rw [fix_fix _ hnames.1 hnames.2]
    · simp only [hr] at h2 ⊢
      simp only [if_false, Bool.false_eq_true] at h2 ⊢
      rw [h2]
      simp only [List.map_map]
      refine List.map_congr_left fun s _ => ?_
      simp only [Function.comp_def]
      exact fix_fix _ hnames.1 hnames.2 s
  have hopt : defaultMethod r.options = r.options := by rw [h3]; exact method_method _
  simp only [hspecs, hopt, hms]

/-- C46 does not hold in full: for a run with a baseline and a single model with a name, the first application drops the name
and the second adds a baseline model. -/
theorem C46_not_idempotent : ∃ (a : Args) (config r r' : EvalConfig), a.hasBaseline = some true ∧
    update a config = .ok r ∧ update a r = .ok r' ∧ r.modelSpecs.length = 1 ∧ r'.modelSpecs.length = 2 :=
  ⟨{ hasBaseline := some true }, { modelSpecs := [{ name := "m" }] }, _, _, rfl, rfl, rfl, rfl, rfl⟩

/-- A configuration meeting the hypotheses of `C46_no_baseline`: a rubber stamped run with a change threshold. -/
example : ∃ r, update { hasBaseline := some false, rubberStamp := true }
      { modelSpecs := [{ name := "candidate" }, { name := "baseline", isBaseline := true }]
        metricsSpecs := [{ metrics := [{ className := "AUC", threshold := some ⟨some ⟨some (.fin 0), none⟩, some ⟨some (.fin 1), none, .higherIsBetter⟩⟩ }] }] } = .ok r ∧
    r.modelSpecs = [{}] ∧ thresholdsOf r = [{ value := some ⟨some (.fin 0), none⟩ }] :=
  ⟨_, rfl, by decide +kernel, by decide +kernel⟩

/-! ### Model names -/

/-- Every model named in the metrics specs is one of the models. -/
def NamesKnown (config : EvalConfig) : Prop :=
  ∀ m ∈ config.metricsSpecs, ∀ n ∈ m.modelNames, n ∈ config.modelSpecs.map ModelSpec.name

/-- C65: after filling in the defaults every metrics spec names at least one model, and a metrics spec without names gets all
models. -/
theorem C65_named (a : Args) (config r : EvalConfig) (h : update a config = .ok r) :
    r.modelSpecs ≠ [] ∧ (∀ m ∈ r.metricsSpecs, m.modelNames ≠ []) ∧ r.metricsSpecs.length = config.metricsSpecs.length ∧
    ∀ (i : ℕ) (m : MetricsSpec), config.metricsSpecs[i]? = some m → m.modelNames = [] →
      ∃ m', r.metricsSpecs[i]? = some m' ∧ m'.modelNames = r.modelSpecs.map ModelSpec.name := by
  obtain ⟨_, h1, h2, _⟩ := update_ok h
  have hnames := drop_names (newSpecs a config.modelSpecs) (newSpecs_ne a _)
  rw [← h1] at hnames
  refine ⟨?_, ?_, ?_, ?_⟩
  · intro hnil; rw [hnil] at hnames; exact hnames.1 rfl
  · intro m hm
    rw [h2] at hm
    obtain ⟨m0, _, rfl⟩ := List.mem_map.1 hm
    unfold fixModelNames
    by_cases h : m0.modelNames = []
    · simpa [h] using hnames.1
    · by_cases h2 : (r.modelSpecs.map ModelSpec.name).length = 1
      · simp only [h, h2, if_false, if_true]; simp
      · simp only [h, h2, if_false]; exact h
  · rw [h2]; split_ifs <;> simp
  · intro i m hi hm
    rw [h2]
    by_cases hr : a.removes = true
    · refine ⟨fixModelNames (r.modelSpecs.map ModelSpec.name) m.clearChange, ?_, ?_⟩
      · simp [hr, hi]
      · simp [fixModelNames, MetricsSpec.clearChange, hm]
    · refine ⟨fixModelNames (r.modelSpecs.map ModelSpec.name) m, ?_, ?_⟩
      · simp [hr, hi]
      · simp [fixModelNames, hm]

/-- C65: if a single model is left, every metrics spec names exactly the model with the empty name. -/
theorem C65_single (a : Args) (config r : EvalConfig) (h : update a config = .ok r) (h1 : r.modelSpecs.length = 1) :
    r.modelSpecs.map ModelSpec.name = [""] ∧ ∀ m ∈ r.metricsSpecs, m.modelNames = [""] := by
  obtain ⟨_, h1', h2, _⟩ := update_ok h
  have hnames := drop_names (newSpecs a config.modelSpecs) (newSpecs_ne a _)
  rw [← h1'] at hnames
  have hn := hnames.2 (by simpa using h1)
  refine ⟨hn, ?_⟩
  intro m hm
  rw [h2] at hm
  obtain ⟨m0, _, rfl⟩ := List.mem_map.1 hm
  rw [hn]
  unfold fixModelNames
  split_ifs <;> simp_all

/-- C65, the part that holds: the models named in the metrics specs are models of the updated configuration, provided they
are models of the given one and neither a baseline that is removed nor the unnamed model that gets a name. Missing: the two
excluded cases (`C65_removed_baseline`, `C65_unnamed_candidate`). -/
theorem C65_known_partial (a : Args) (config r : EvalConfig) (h : update a config = .ok r) (hk : NamesKnown config)
    (hrem : a.removes = true → ∀ m ∈ config.metricsSpecs, ∀ n ∈ m.modelNames,
      ∃ s ∈ config.modelSpecs, s.name = n ∧ s.isBaseline = false)
    (hadd : a.adds = true → ∀ m ∈ config.metricsSpecs, "" ∉ m.modelNames) : NamesKnown r := by
  by_cases h1 : r.modelSpecs.length = 1
  · obtain ⟨hn, hm⟩ := C65_single a config r h h1
    intro m hmem n hn'
    rw [hm m hmem] at hn'
    rw [hn]; exact hn'
  · obtain ⟨_, h1', h2, _⟩ := update_ok h
    have hdrop : r.modelSpecs = newSpecs a config.modelSpecs := by
      rw [h1'] at h1 ⊢
      generalize newSpecs a config.modelSpecs = l at h1
      match l with
      | [] => rfl
      | [s] => simp [dropSingleName] at h1
      | s :: t :: l => rfl
    have key : ∀ (m : MetricsSpec), m ∈ config.metricsSpecs → ∀ n ∈ m.modelNames, n ∈ r.modelSpecs.map ModelSpec.name := by
      intro m hm n hn
      have hadd' : a.adds = true → addBaseline config.modelSpecs = config.modelSpecs := by
        intro ha
        have hk' := hk m hm n hn
        have hne : n ≠ "" := fun he => hadd ha m hm (he ▸ hn)
        unfold addBaseline
        split
        · rename_i s heq
          rw [heq] at hk'
          simp only [List.map_cons, List.map_nil, List.mem_singleton] at hk'
          rw [if_neg (by rw [← hk']; exact hne), heq]
        · rfl
      have hspecs : (if a.adds = true then addBaseline config.modelSpecs else config.modelSpecs) = config.modelSpecs := by
        split_ifs with ha
        · exact hadd' ha
        · rfl
      rw [hdrop]
      unfold newSpecs
      simp only [hspecs]
      by_cases hr : a.removes = true
      · obtain ⟨s, hs, hsn, hsb⟩ := hrem hr m hm n hn
        have : s ∈ config.modelSpecs.filter fun s => !s.isBaseline := List.mem_filter.2 ⟨hs, by simp [hsb]⟩
        simp only [hr, if_true]
        rw [if_neg (fun hnil => by rw [hnil] at this; simp at this)]
        exact List.mem_map.2 ⟨s, this, hsn⟩
      · simp only [hr, if_false, Bool.false_eq_true]
        have hk' := hk m hm n hn
        rw [if_neg (fun hnil => by rw [hnil] at hk'; simp at hk')]
        exact hk'
    intro m hm n hn
    rw [h2] at hm
    obtain ⟨m0, hm0, rfl⟩ := List.mem_map.1 hm
    have hm1 : m0.modelNames = [] ∨ ∃ m1 ∈ config.metricsSpecs, m1.modelNames = m0.modelNames := by
      right
      by_cases hr : a.removes = true
      · simp only [hr, if_true] at hm0
        obtain ⟨m1, h3, rfl⟩ := List.mem_map.1 hm0
        exact ⟨m1, h3, rfl⟩
      · simp only [hr, if_false, Bool.false_eq_true] at hm0
        exact ⟨m0, hm0, rfl⟩
    unfold fixModelNames at hn
    by_cases hnil : m0.modelNames = []
    · simpa [hnil] using hn
    · simp only [hnil, if_false, List.length_map, h1] at hn
      obtain ⟨m1, h3, h4⟩ := hm1.resolve_left hnil
      exact key m1 h3 n (h4 ▸ hn)

/-- C65 does not hold in full: a metrics spec for the baseline still names it after the baseline has been removed from three
models. -/
theorem C65_removed_baseline : ∃ (a : Args) (config r : EvalConfig), NamesKnown config ∧ update a config = .ok r ∧
    ¬ NamesKnown r := by
  refine ⟨{ hasBaseline := some false },
    { modelSpecs := [{ name := "a" }, { name := "b" }, { name := "base", isBaseline := true }]
      metricsSpecs := [{ modelNames := ["base"] }] }, _, ?_, rfl, ?_⟩
  · intro m hm n hn
    simp only [List.mem_singleton] at hm
    subst hm
    simp only [List.mem_singleton] at hn
    subst hn
    decide +kernel
  · intro hk
    have := hk _ List.mem_cons_self "base" (by decide +kernel)
    revert this
    decide +kernel

/-- C65 does not hold in full: a metrics spec for the model without a name still names it after the model has become the
candidate. -/
theorem C65_unnamed_candidate : ∃ (a : Args) (config r : EvalConfig), NamesKnown config ∧ update a config = .ok r ∧
    ¬ NamesKnown r := by
  refine ⟨{ hasBaseline := some true },
    { modelSpecs := [{}], metricsSpecs := [{ modelNames := [""] }] }, _, ?_, rfl, ?_⟩
  · intro m hm n hn
    simp only [List.mem_singleton] at hm
    subst hm
    simp only [List.mem_singleton] at hn
    subst hn
    decide +kernel
  · intro hk
    have := hk _ List.mem_cons_self "" (by decide +kernel)
    revert this
    decide +kernel

/-! ### The list of models -/

private theorem fromDict_spec : ∀ (d : List (String × SharedModel)) (l : List SharedModel), namedFromDict d = .ok l →
    l.length = d.length ∧ ∀ (i : ℕ) (k : String) (m : SharedModel), d[i]? = some (k, m) →
      (m.modelName = "" ∨ k = "" ∨ k = m.modelName) ∧
      l[i]? = some { m with modelName := if m.modelName = "" then k else m.modelName }
  | [], l, h => by cases h; simp
  | (k, v) :: d, l, h => by
    rw [namedFromDict] at h
    by_cases hc : v.modelName ≠ "" ∧ k ≠ "" ∧ k ≠ v.modelName
    · rw [if_pos hc] at h; cases h
    · rw [if_neg hc] at h
      cases hr : namedFromDict d with
      | error e => rw [hr] at h; cases h
      | ok l' =>
        rw [hr] at h
        cases h
        obtain ⟨h1, h2⟩ := fromDict_spec d l' hr
        refine ⟨by simp [h1], fun i k' m hi => ?_⟩
        cases i with
        | zero =>
          simp only [List.getElem?_cons_zero, Option.some.injEq, Prod.mk.injEq] at hi
          obtain ⟨rfl, rfl⟩ := hi
          refine ⟨by tauto, ?_⟩
          simp only [List.getElem?_cons_zero, Option.some.injEq]
          by_cases h3 : v.modelName = ""
          · by_cases h4 : k = ""
            · cases v; simp_all
            · simp [h3, h4]
          · cases v; simp_all
        | succ i => simpa using h2 i k' m (by simpa using hi)

/-- C66: the models are returned in order; each has its own name or the key it was given under; if there are several all have
names, and a single one has none. -/
theorem C66_dict (d : Dict String SharedModel) (hd : d ≠ []) (r : Option (List SharedModel))
    (h : verifySharedModels (.dict d) = .ok r) :
    ∃ l, r = some l ∧ l.length = d.length ∧
      (l.length = 1 → ∀ m ∈ l, m.modelName = "") ∧ (1 < l.length → ∀ m ∈ l, m.modelName ≠ "") ∧
      ∀ (i : ℕ) (k : String) (m : SharedModel), d[i]? = some (k, m) →
        (m.modelName = "" ∨ k = "" ∨ k = m.modelName) ∧
        l[i]? = some { m with modelName := if 1 < d.length then (if m.modelName = "" then k else m.modelName) else "" } := by
  have h' : (match namedFromDict d with
      | .error e => .error e
      | .ok ms => (normalizeNames ms).map some) = Except.ok r := by
    cases d with
    | nil => exact absurd rfl hd
    | cons p d => exact h
  cases hf : namedFromDict d with
  | error e => rw [hf] at h'; cases h'
  | ok ms =>
    rw [hf] at h'
    obtain ⟨h1, h2⟩ := fromDict_spec d ms hf
    simp only [normalizeNames] at h'
    by_cases hl : ms.length > 1
    · rw [if_pos hl] at h'
      by_cases ha : ms.any (fun m => m.modelName == "") = true
      · rw [if_pos ha] at h'; cases h'
      · rw [if_neg ha] at h'
        cases h'
        refine ⟨ms, rfl, h1, fun h => by omega, ?_, ?_⟩
        · intro _ m hm he
          exact ha (List.any_eq_true.2 ⟨m, hm, by simp [he]⟩)
        · intro i k m hi
          rw [if_pos (by omega)]
          exact h2 i k m hi
    · rw [if_neg hl] at h'
      cases h'
      refine ⟨_, rfl, by simpa using h1, ?_, ?_, ?_⟩
      · intro _ m hm
        obtain ⟨m0, _, rfl⟩ := List.mem_map.1 hm
        rfl
      · intro h; simp only [List.length_map] at h; omega
      · intro i k m hi
        obtain ⟨h3, h4⟩ := h2 i k m hi
        refine ⟨h3, ?_⟩
        rw [if_neg (by omega), List.getElem?_map, h4]
        rfl

/-- C66: for a list nothing but the name of a single model is changed. -/
theorem C66_list (ms : List SharedModel) (hne : ms ≠ []) :
    verifySharedModels (.list ms) =
      if 1 < ms.length ∧ ∃ m ∈ ms, m.modelName = "" then .error .valueError
      else .ok (some (if 1 < ms.length then ms else ms.map fun m => { m with modelName := "" })) := by
  have h0 : verifySharedModels (.list ms) = (normalizeNames ms).map some := by
    cases ms with
    | nil => exact absurd rfl hne
    | cons m ms => rfl
  rw [h0]
  unfold normalizeNames
  by_cases hl : 1 < ms.length
  · rw [if_pos hl]
    by_cases ha : ms.any (fun m => m.modelName == "") = true
    · rw [if_pos ha, if_pos]
      · rfl
      · obtain ⟨m, hm, he⟩ := List.any_eq_true.1 ha
        exact ⟨hl, m, hm, by simpa using he⟩
    · rw [if_neg ha, if_neg, if_pos hl]
      · rfl
      · rintro ⟨_, m, hm, he⟩
        exact ha (List.any_eq_true.2 ⟨m, hm, by simp [he]⟩)
  · rw [if_neg hl, if_neg (fun h => hl h.1), if_neg hl]
    rfl

/-- C66: verifying what has been verified changes nothing. -/
theorem C66_idempotent (models : SharedModels) (l : List SharedModel) (h : verifySharedModels models = .ok (some l)) :
    verifySharedModels (.list l) = .ok (some l) := by
  have key : ∀ ms : List SharedModel, ms ≠ [] → (normalizeNames ms).map some = .ok (some l) →
      verifySharedModels (.list l) = .ok (some l) := by
    intro ms hne h
    unfold normalizeNames at h
    by_cases hl : ms.length > 1
    · rw [if_pos hl] at h
      by_cases ha : ms.any (fun m => m.modelName == "") = true
      · rw [if_pos ha] at h; cases h
      · rw [if_neg ha] at h
        cases h
        rw [C66_list l hne, if_neg, if_pos hl]
        rintro ⟨_, m, hm, he⟩
        exact ha (List.any_eq_true.2 ⟨m, hm, by simp [he]⟩)
    · rw [if_neg hl] at h
      cases h
      rw [C66_list _ (by simpa using hne), if_neg (fun hh => hl (by simpa using hh.1)), if_neg (by simpa using hl)]
      simp
  cases models with
  | none => cases h
  | single m => exact key [m] (by simp) h
  | list ms => cases ms with
    | nil => cases h
    | cons m ms => exact key (m :: ms) (by simp) h
  | dict d => cases d with
    | nil => cases h
    | cons p d =>
      have h' : (match namedFromDict (p :: d) with
        | .error e => .error e
        | .ok ms => (normalizeNames ms).map some) = Except.ok (some l) := h
      cases hf : namedFromDict (p :: d) with
      | error e => rw [hf] at h'; cases h'
      | ok ms =>
        rw [hf] at h'
        refine key ms ?_ h'
        intro hnil
        have := (fromDict_spec _ _ hf).1
        rw [hnil] at this
        simp at this

example : verifySharedModels (.dict [("a", { modelName := "", isBaseline := false, rubberStamp := false }), ("b", { modelName := "b", isBaseline := true, rubberStamp := false })]) =
    .ok (some [{ modelName := "a", isBaseline := false, rubberStamp := false }, { modelName := "b", isBaseline := true, rubberStamp := false }]) := by rfl

/-- C66: rubber stamping of several models asks for every model that is not a baseline to be rubber stamped, and a lone
baseline model is an error. -/
theorem C66_rubber_stamp (ms : List SharedModel) :
    ((∃ m, ms = [m] ∧ m.isBaseline = true) → hasRubberStamp (some ms) = .error .valueError) ∧
    (¬ (∃ m, ms = [m] ∧ m.isBaseline = true) →
      hasRubberStamp (some ms) = .ok (decide (∀ m ∈ ms, m.isBaseline = false → m.rubberStamp = true))) := by
  have hall : ∀ ms : List SharedModel, (ms.all fun m => m.isBaseline || m.rubberStamp) =
      decide (∀ m ∈ ms, m.isBaseline = false → m.rubberStamp = true) := by
    intro ms
    rw [Bool.eq_iff_iff]
    simp only [List.all_eq_true, Bool.or_eq_true, decide_eq_true_eq]
    constructor
    · intro h m hm hb
      rcases h m hm with h | h
      · rw [h] at hb; cases hb
      · exact h
    · intro h m hm
      cases hb : m.isBaseline with
      | true => exact .inl rfl
      | false => exact .inr (h m hm hb)
  refine ⟨?_, ?_⟩
  · rintro ⟨m, rfl, hb⟩
    simp [hasRubberStamp, hb]
  · intro hn
    match ms with
    | [] => simp [hasRubberStamp]
    | [m] =>
      have hb : m.isBaseline = false := by
        by_contra hb
        exact hn ⟨m, rfl, by simpa using hb⟩
      simp [hasRubberStamp, hb]
    | m :: m' :: ms => exact congrArg Except.ok (hall _)

/-- C46 for runs: without models, change thresholds are rejected even if the configuration describes a baseline. -/
theorem C46_model_agnostic (config : EvalConfig) :
    updateForModels .none config = .error .runtimeError ↔ ∃ t ∈ thresholdsOf config, ∃ c, t.change = some c ∧ NonEmpty c := by
  have : updateForModels .none config = update { hasBaseline := none, rubberStamp := false } config := rfl
  rw [this, C46_rejected_iff]
  simp

/-- C46 for runs: a single model that is no baseline is a run without baseline. -/
theorem C46_single_model (m : SharedModel) (hb : m.isBaseline = false) (config : EvalConfig) :
    updateForModels (.list [m]) config = update { hasBaseline := some false, rubberStamp := m.rubberStamp } config := by
  unfold updateForModels
  rw [C66_list [m] (by simp), if_neg (by simp)]
  simp [hasRubberStamp, hb]

/-- C46 for runs: several named models are a run with baseline, rubber stamped if all candidates are. -/
theorem C46_several_models (ms : List SharedModel) (hl : 1 < ms.length) (hn : ∀ m ∈ ms, m.modelName ≠ "") (config : EvalConfig) :
    updateForModels (.list ms) config =
      update { hasBaseline := some true, rubberStamp := decide (∀ m ∈ ms, m.isBaseline = false → m.rubberStamp = true) }
        config := by
  have hne : ms ≠ [] := by rintro rfl; simp at hl
  have h1 : verifySharedModels (.list ms) = .ok (some ms) := by
    rw [C66_list ms hne, if_neg (by rintro ⟨-, m, hm, h⟩; exact hn m hm h), if_pos hl]
  have h2 := (C66_rubber_stamp ms).2 (by rintro ⟨m, rfl, -⟩; simp at hl)
  unfold updateForModels
  rw [h1]
  simp only [h2, Option.map_some, hl, decide_true]

/-- Two named models, the second one the baseline. -/
example : updateForModels (.list [{ modelName := "candidate", isBaseline := false, rubberStamp := false }, { modelName := "baseline", isBaseline := true, rubberStamp := false }]) {} =
    update { hasBaseline := some true, rubberStamp := false } {} := by
  rw [C46_several_models _ (by simp) (by decide)]
  rfl

end Config
end TFMA
