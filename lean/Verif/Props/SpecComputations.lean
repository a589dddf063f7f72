import Verif.Props.MetricSpecs
import Verif.Props.Aggregation

/-!
# C82: the metrics that are validated are computed; C83: averages find their inputs
-/

namespace TFMA
namespace MetricSpecs

open MetricKeys Evaluate

variable {B S T : Type}

/-! ### Specification -/

/-- The key of the metric created by a call. -/
def Call.key (c : Call) : MetricKey :=
  { name := c.name, modelName := c.model, outputName := c.output, subKey := c.subKey, aggregationType := c.aggregation,
    exampleWeighted := some c.exampleWeighted }

/-- A metric that yields its value under the key it is created for. -/
def Standard (m : Metric B S T) : Prop := ∀ c xs, m.create c = .ok xs → ∃ x ∈ xs, c.key ∈ x.keys

/-- A metric that yields no keys of other aggregations than the one it is created for (helper values have none). -/
def OwnAggregation (m : Metric B S T) : Prop :=
  ∀ c xs, m.create c = .ok xs → ∀ x ∈ xs, ∀ k ∈ x.keys, k.aggregationType = none ∨ k.aggregationType = c.aggregation

/-- All metrics of the specs are standard, and equal configurations are configurations of equally named metrics. -/
structure StandardSpecs (specs : List (Spec B S T)) : Prop where
  standard : ∀ s ∈ specs, ∀ m ∈ s.metrics, Standard m
  config : ∀ s ∈ specs, ∀ s' ∈ specs, ∀ m ∈ s.metrics, ∀ m' ∈ s'.metrics, m.config = m'.config → m.name = m'.name

/-! ### Helpers -/

private theorem lift_keys (c : Computation B) : (Body.lift c).keys = c.keys := rfl

private theorem mem_metricComputations {m : Metric B S T} {name : String} {models outputs : List String}
    {sks : List (Option SubKey)} {agg : Option AggregationType} {cw : Option (Dict ℤ ℚ)} {ew : Bool} {q : String}
    {r : List (Computation (Body B))} (h : metricComputations m name models outputs sks agg cw ew q = .ok r)
    (x : Computation (Body B)) :
    x ∈ r ↔ ∃ model ∈ models, ∃ output ∈ outputs, ∃ sk ∈ sks, ∃ ys, m.create ⟨name, model, output, sk, agg, cw, ew, q⟩ = .ok ys ∧
      ∃ y ∈ ys, x = Body.lift y := by
  unfold metricComputations at h
  rw [mem_flatMapE h]
  constructor
  · rintro ⟨model, h1, r1, h2, h3⟩
    rw [mem_flatMapE h2] at h3
    obtain ⟨output, h3, r2, h4, h5⟩ := h3
    rw [mem_flatMapE h4] at h5
    obtain ⟨sk, h5, r3, h6, h7⟩ := h5
    refine ⟨model, h1, output, h3, sk, h5, ?_⟩
    cases hv : validateArgs m ⟨name, model, output, sk, agg, cw, ew, q⟩ with
    | error e => simp only [hv] at h6; cases h6
    | ok u =>
      simp only [hv] at h6
      cases hc : m.create ⟨name, model, output, sk, agg, cw, ew, q⟩ with
      | error e => rw [hc] at h6; cases h6
      | ok ys =>
        rw [hc] at h6
        simp only [Except.map, Except.ok.injEq] at h6
        subst h6
        obtain ⟨y, hy, rfl⟩ := List.mem_map.1 h7
        exact ⟨ys, rfl, y, hy, rfl⟩
  · rintro ⟨model, h1, output, h2, sk, h3, ys, hc, y, hy, rfl⟩
    obtain ⟨r1, e1⟩ := (flatMapE_ok h).1 model h1
    obtain ⟨r2, e2⟩ := (flatMapE_ok e1).1 output h2
    obtain ⟨r3, e3⟩ := (flatMapE_ok e2).1 sk h3
    refine ⟨model, h1, r1, e1, ?_⟩
    rw [mem_flatMapE e1]
    refine ⟨output, h2, r2, e2, ?_⟩
    rw [mem_flatMapE e2]
    refine ⟨sk, h3, r3, e3, ?_⟩
    cases hv : validateArgs m ⟨name, model, output, sk, agg, cw, ew, q⟩ with
    | error e => simp only [hv] at e3; cases e3
    | ok u =>
      simp only [hv, hc, Except.map, Except.ok.injEq] at e3
      subst e3
      exact List.mem_map_of_mem hy

private theorem metricComputations_create {m : Metric B S T} {name : String} {models outputs : List String}
    {sks : List (Option SubKey)} {agg : Option AggregationType} {cw : Option (Dict ℤ ℚ)} {ew : Bool} {q : String}
    {r : List (Computation (Body B))} (h : metricComputations m name models outputs sks agg cw ew q = .ok r)
    {model output : String} {sk : Option SubKey} (h1 : model ∈ models) (h2 : output ∈ outputs) (h3 : sk ∈ sks) :
    ∃ ys, m.create ⟨name, model, output, sk, agg, cw, ew, q⟩ = .ok ys := by
  unfold metricComputations at h
  obtain ⟨r1, e1⟩ := (flatMapE_ok h).1 model h1
  obtain ⟨r2, e2⟩ := (flatMapE_ok e1).1 output h2
  obtain ⟨r3, e3⟩ := (flatMapE_ok e2).1 sk h3
  cases hv : validateArgs m ⟨name, model, output, sk, agg, cw, ew, q⟩ with
  | error e => simp only [hv] at e3; cases e3
  | ok u =>
    simp only [hv] at e3
    cases hc : m.create ⟨name, model, output, sk, agg, cw, ew, q⟩ with
    | error e => rw [hc] at e3; cases e3
    | ok ys => exact ⟨ys, rfl⟩

private theorem standard_key {m : Metric B S T} (hm : Standard m) {name : String} {models outputs : List String}
    {sks : List (Option SubKey)} {agg : Option AggregationType} {cw : Option (Dict ℤ ℚ)} {ew : Bool} {q : String}
    {r : List (Computation (Body B))} (h : metricComputations m name models outputs sks agg cw ew q = .ok r)
    {model output : String} {sk : Option SubKey} (h1 : model ∈ models) (h2 : output ∈ outputs) (h3 : sk ∈ sks) :
    ∃ x ∈ r, (⟨name, model, output, sk, agg, some ew, false⟩ : MetricKey) ∈ x.keys := by
  obtain ⟨ys, hy⟩ := metricComputations_create h h1 h2 h3
  obtain ⟨y, hy1, hy2⟩ := hm _ _ hy
  exact ⟨Body.lift y, (mem_metricComputations h _).2 ⟨model, h1, output, h2, sk, h3, ys, hy, y, hy1, rfl⟩, hy2⟩

/-- The aggregation types that occur in a spec. -/
private theorem types_of {s : Spec B S T} {subs : SubKeys} (h : createSubKeys s = .ok subs) {t : Option AggregationType}
    {sks : List (Option SubKey)} (hm : (t, sks) ∈ subs) : t = none ∨ ∃ a, s.aggregate = some a ∧ t = aggregationType a := by
  unfold createSubKeys at h
  cases hb : binarizePart s.binarize with
  | error e => rw [hb] at h; cases h
  | ok r =>
    have hr : ∀ p ∈ r, p.1 = none := by
      unfold binarizePart at hb
      cases hbb : s.binarize with
      | none => rw [hbb] at hb; cases hb; simp
      | some b =>
        rw [hbb] at hb
        simp only at hb
        cases hk : binarizeKeys b with
        | error e => rw [hk] at hb; cases hb
        | ok ks =>
          rw [hk] at hb
          simp only [Except.ok.injEq] at hb
          subst hb
          split <;> simp
    rw [hb] at h
    simp only at h
    cases ha : s.aggregate with
    | none =>
      rw [ha] at h
      simp only [Except.ok.injEq] at h
      subst h
      left
      split at hm
      · simp only [List.mem_singleton, Prod.mk.injEq] at hm; exact hm.1
      · exact hr _ hm
    | some a =>
      rw [ha] at h
      simp only at h
      cases hk : aggregateKeys a with
      | error e => rw [hk] at h; cases h
      | ok ks =>
        rw [hk] at h
        simp only [Except.ok.injEq] at h
        subst h
        have : t ∈ Dict.keys (Dict.set r (aggregationType a) ks) := List.mem_map_of_mem hm
        rw [Dict.keys_set] at this
        split at this
        · obtain ⟨p, hp, rfl⟩ := List.mem_map.1 this
          exact .inl (hr p hp)
        · rcases List.mem_append.1 this with this | this
          · obtain ⟨p, hp, rfl⟩ := List.mem_map.1 this
            exact .inl (hr p hp)
          · exact .inr ⟨a, rfl, List.mem_singleton.1 this⟩

private theorem types_cases {s : Spec B S T} {subs : SubKeys} (h : createSubKeys s = .ok subs) {t : Option AggregationType}
    {sks : List (Option SubKey)} (hm : (t, sks) ∈ subs) :
    t = none ∨ t = some ⟨some true, none, none⟩ ∨ t = some ⟨none, some true, none⟩ ∨ t = some ⟨none, none, some true⟩ := by
  rcases types_of h hm with rfl | ⟨a, -, rfl⟩
  · exact .inl rfl
  · unfold aggregationType
    rcases a.kind with _ | _ | _ | _ <;> simp

theorem toComputations_ok {models : List WeightSpec} {specs : List (Spec B S T)} {cs : List (Computation (Body B))}
    (h : toComputations models specs = .ok cs) :
    ∃ a b, processSpecs models specs = .ok a ∧ flatMapE (specAggregations models) specs = .ok b ∧ cs = a ++ b := by
  unfold toComputations at h
  cases ha : processSpecs models specs with
  | error e => rw [ha] at h; cases h
  | ok a =>
    cases hb : flatMapE (specAggregations models) specs with
    | error e => rw [ha, hb] at h; cases h
    | ok b =>
      rw [ha, hb] at h
      cases h
      exact ⟨a, b, rfl, rfl, rfl⟩

/-- The computations of a metric of a spec are among the processed ones. -/
private theorem processed {models : List WeightSpec} {specs : List (Spec B S T)} {a : List (Computation (Body B))}
    (hstd : StandardSpecs specs) (h : processSpecs models specs = .ok a) {s : Spec B S T} {m : Metric B S T} (hs : s ∈ specs) (hm : m ∈ s.metrics)
    {subs : SubKeys} (hsub : createSubKeys s = .ok subs) {agg : Option AggregationType} {sks : List (Option SubKey)}
    (he : (agg, sks) ∈ subs) :
    ∃ m' r, Standard m' ∧ m'.name = m.name ∧
      aggregationComputations models m' s ((Dict.get? subs none).getD []) agg sks = .ok r ∧ ∀ x ∈ r, x ∈ a := by
  obtain ⟨e, he1, he2, he3, s', hs', hm'⟩ := byConfig_complete hs hm
  unfold processSpecs at h
  obtain ⟨r1, h1⟩ := (flatMapE_ok h).1 e he1
  obtain ⟨r2, h2⟩ := (flatMapE_ok h1).1 s he2
  have h2' := h2
  unfold specComputations at h2
  rw [hsub] at h2
  simp only [bind, Except.bind] at h2
  obtain ⟨r3, h3⟩ := (flatMapE_ok h2).1 (agg, sks) he
  refine ⟨e.2.1, r3, hstd.standard s' hs' _ hm', hstd.config s' hs' s hs _ hm' m hm he3, h3, ?_⟩
  intro x hx
  rw [mem_flatMapE h]
  refine ⟨e, he1, r1, h1, ?_⟩
  rw [mem_flatMapE h1]
  refine ⟨s, he2, r2, h2', ?_⟩
  rw [mem_flatMapE h2]
  exact ⟨(agg, sks), he, r3, h3, hx⟩

private theorem plain_key {models : List WeightSpec} {m : Metric B S T} {s : Spec B S T} {shared : List (Option SubKey)}
    {agg : Option AggregationType} {sks : List (Option SubKey)} {r : List (Computation (Body B))} (hm : Standard m)
    (hmac : isMacro agg = false) (h : aggregationComputations models m s shared agg sks = .ok r) {model output : String}
    {sk : Option SubKey} {ew : Bool} (h1 : model ∈ orEmpty s.modelNames) (h2 : output ∈ orEmpty s.outputNames) (h3 : sk ∈ sks)
    (h4 : ew ∈ weightOptions models s) :
    ∃ x ∈ r, (⟨m.name, model, output, sk, agg, some ew, false⟩ : MetricKey) ∈ x.keys := by
  unfold aggregationComputations at h
  cases hc : weightsFor s agg with
  | error e => rw [hc] at h; cases h
  | ok cw =>
    rw [hc] at h
    simp only [bind, Except.bind, hmac, Bool.false_eq_true, if_false] at h
    obtain ⟨r1, e1⟩ := (flatMapE_ok h).1 ew h4
    obtain ⟨x, hx, hk⟩ := standard_key hm e1 h1 h2 h3
    exact ⟨x, (mem_flatMapE h x).2 ⟨ew, h4, r1, e1, hx⟩, hk⟩

/-- **C82**: every metric of a spec, for every model, output, sub key, aggregation and variant, is computed under the key under which
its thresholds are checked.  Missing: weighted macro averages, see `C82_weighted_missing`. -/
theorem C82_computed_partial (models : List WeightSpec) (specs : List (Spec B S T)) (hstd : StandardSpecs specs)
    (cs : List (Computation (Body B))) (h : toComputations models specs = .ok cs) (s : Spec B S T) (hs : s ∈ specs) (m : Metric B S T)
    (hm : m ∈ s.metrics) (ew : Bool) (hew : Variant models s ew) (k : MetricKey) (hk : KeyOf s m.name (some ew) k)
    (hw : k.aggregationType ≠ some ⟨none, none, some true⟩) :
    ∃ c ∈ cs, k ∈ c.keys := by
  obtain ⟨a, b, ha, hb, rfl⟩ := toComputations_ok h
  obtain ⟨i1, i2, i3, ⟨subs, hsub, sks, he, i4⟩, i5, i6⟩ := hk
  have hew' := (C81_variants models s ew).2 hew
  have hmod : k.modelName ∈ orEmpty s.modelNames := by unfold orEmpty; rcases i2 with h | ⟨h, h'⟩ <;> [cases hl : s.modelNames; skip] <;> simp_all
  have hout : k.outputName ∈ orEmpty s.outputNames := by unfold orEmpty; rcases i3 with h | ⟨h, h'⟩ <;> [cases hl : s.outputNames; skip] <;> simp_all
  have hkey : k = ⟨m.name, k.modelName, k.outputName, k.subKey, k.aggregationType, some ew, false⟩ := by
    rw [← i1, ← i5, ← i6]
  by_cases hmac : isMacro k.aggregationType = true
  · have ht : k.aggregationType = some ⟨none, some true, none⟩ := by
      rcases types_cases hsub he with h | h | h | h
      · rw [h] at hmac; cases hmac
      · rw [h] at hmac; simp [isMacro] at hmac
      · exact h
      · exact absurd h hw
    obtain ⟨r1, e1⟩ := (flatMapE_ok hb).1 s hs
    have e1' := e1
    unfold specAggregations at e1
    obtain ⟨r2, e2⟩ := (flatMapE_ok e1).1 ew hew'
    have e2' := e2
    rw [hsub] at e2
    simp only [bind, Except.bind] at e2
    obtain ⟨r3, e3⟩ := (flatMapE_ok e2).1 _ he
    have e3' := e3
    simp only at e3
    split at e3
    · cases e3
    obtain ⟨r4, e4⟩ := (flatMapE_ok e3).1 _ hmod
    obtain ⟨r5, e5⟩ := (flatMapE_ok e4).1 _ i4
    obtain ⟨r6, e6⟩ := (flatMapE_ok e5).1 m hm
    have e6' := e6
    unfold metricAggregations at e6
    rw [ht] at e6
    have hmm : isMacro (some ⟨none, some true, none⟩) = true := rfl
    simp only [hmm, if_true, bind, Except.bind] at e6
    cases hcw : classWeights s with
    | error e => rw [hcw] at e6; cases e6
    | ok cw =>
      rw [hcw] at e6
      simp only at e6
      split at e6
      · cases e6
      · rename_i avg havg
        simp only [pure, Except.pure, Except.ok.injEq] at e6
        obtain ⟨r7, e7⟩ := (flatMapE_ok havg).1 _ hout
        have e7' := e7
        cases hms : macroSubKeys k.subKey (some (cw.getD [])) with
        | error e => rw [hms] at e7; cases e7
        | ok ms =>
          rw [hms] at e7
          simp only [pure, Except.pure, Except.ok.injEq] at e7
          refine ⟨macroComputation m.name k.modelName k.outputName k.subKey ms (cw.getD []) ew, ?_, ?_⟩
          · refine List.mem_append_right _ ?_
            rw [mem_flatMapE hb]
            refine ⟨s, hs, r1, e1', ?_⟩
            rw [mem_flatMapE e1]
            refine ⟨ew, hew', r2, e2', ?_⟩
            rw [mem_flatMapE e2]
            refine ⟨_, he, r3, e3', ?_⟩
            rw [mem_flatMapE e3]
            refine ⟨_, hmod, r4, e4, ?_⟩
            rw [mem_flatMapE e4]
            refine ⟨_, i4, r5, e5, ?_⟩
            rw [mem_flatMapE e5]
            refine ⟨m, hm, r6, e6', ?_⟩
            rw [← e6]
            refine List.mem_append_left _ ?_
            rw [mem_flatMapE havg]
            refine ⟨_, hout, r7, e7', ?_⟩
            rw [← e7]
            simp
          · rw [hkey, ht]
            simp [macroComputation, Aggregation.macroKey]
  · obtain ⟨m', r, hm', hn, hr, hsubset⟩ := processed hstd ha hs hm hsub he
    obtain ⟨x, hx, hxk⟩ := plain_key hm' (by simpa using hmac) hr hmod hout i4 hew'
    refine ⟨x, List.mem_append_left _ (hsubset x hx), ?_⟩
    rw [hkey, ← hn]
    exact hxk

/-! ### Inversions -/

/-- Where a computation of the aggregations comes from. -/
theorem of_specAggregations {models : List WeightSpec} {specs : List (Spec B S T)} {b : List (Computation (Body B))}
    (h : flatMapE (specAggregations models) specs = .ok b) {x : Computation (Body B)} (hx : x ∈ b) :
    ∃ s ∈ specs, ∃ ew ∈ weightOptions models s, ∃ subs, createSubKeys s = .ok subs ∧
      (∀ o ∈ s.outputWeights, o.1 ∈ orEmpty s.outputNames) ∧ ∃ agg sks, (agg, sks) ∈ subs ∧
      ∃ model ∈ orEmpty s.modelNames, ∃ sk ∈ sks, ∃ m ∈ s.metrics, ∃ r, metricAggregations s ew agg model sk m = .ok r ∧ x ∈ r ∧
        ∀ y ∈ r, y ∈ b := by
  rw [mem_flatMapE h] at hx
  obtain ⟨s, hs, r1, e1, hx⟩ := hx
  have e1' := e1
  unfold specAggregations at e1
  rw [mem_flatMapE e1] at hx
  obtain ⟨ew, hew, r2, e2, hx⟩ := hx
  have e2' := e2
  cases hsub : createSubKeys s with
  | error e => rw [hsub] at e2; cases e2
  | ok subs =>
    rw [hsub] at e2
    simp only [bind, Except.bind] at e2
    rw [mem_flatMapE e2] at hx
    obtain ⟨⟨agg, sks⟩, he, r3, e3, hx⟩ := hx
    have e3' := e3
    simp only at e3
    split at e3
    · cases e3
    · rename_i hout
      rw [mem_flatMapE e3] at hx
      obtain ⟨model, hmod, r4, e4, hx⟩ := hx
      rw [mem_flatMapE e4] at hx
      obtain ⟨sk, hsk, r5, e5, hx⟩ := hx
      rw [mem_flatMapE e5] at hx
      obtain ⟨m, hm, r6, e6, hx⟩ := hx
      refine ⟨s, hs, ew, hew, subs, hsub, ?_, agg, sks, he, model, hmod, sk, hsk, m, hm, r6, e6, hx, ?_⟩
      · intro o ho
        simp only [List.any_eq_true, not_exists, not_and, Bool.not_eq_true, Bool.not_eq_false', decide_eq_true_eq] at hout
        exact hout o ho
      · intro y hy
        exact (mem_flatMapE h y).2 ⟨s, hs, r1, e1', (mem_flatMapE e1 y).2 ⟨ew, hew, r2, e2', (mem_flatMapE e2 y).2
          ⟨_, he, r3, e3', (mem_flatMapE e3 y).2 ⟨model, hmod, r4, e4, (mem_flatMapE e4 y).2 ⟨sk, hsk, r5, e5,
            (mem_flatMapE e5 y).2 ⟨m, hm, r6, e6, hy⟩⟩⟩⟩⟩⟩

/-- The aggregations of one metric. -/
theorem of_metricAggregations {s : Spec B S T} {ew : Bool} {agg : Option AggregationType} {model : String}
    {sk : Option SubKey} {m : Metric B S T} {r : List (Computation (Body B))} (h : metricAggregations s ew agg model sk m = .ok r)
    {x : Computation (Body B)} (hx : x ∈ r) :
    (∃ a, agg = some a ∧ isMacro agg = true ∧ ∃ cw, classWeights s = .ok cw ∧ ∃ output ∈ orEmpty s.outputNames,
      ∃ sks, macroSubKeys sk (some (cw.getD [])) = .ok sks ∧
      ((a.macroAvg = some true ∧ x = macroComputation m.name model output sk sks (cw.getD []) ew) ∨
       (a.macroAvg ≠ some true ∧ x ∈ weightedComputations m.name model output sk sks (cw.getD []) ew ∧
        ∀ y ∈ weightedComputations m.name model output sk sks (cw.getD []) ew, y ∈ r))) ∨
    (s.outputWeights ≠ [] ∧ x = outputComputation m.name model sk s.outputWeights ew) := by
  have hlast : ∀ {avg : List (Computation (Body B))},
      x ∈ avg ++ (if s.outputWeights.isEmpty then [] else [outputComputation m.name model sk s.outputWeights ew]) →
      x ∈ avg ∨ (s.outputWeights ≠ [] ∧ x = outputComputation m.name model sk s.outputWeights ew) := by
    intro avg hx
    rcases List.mem_append.1 hx with hx | hx
    · exact .inl hx
    · right
      cases ho : s.outputWeights with
      | nil => rw [ho] at hx; simp at hx
      | cons o os =>
        rw [ho] at hx
        simp only [List.isEmpty_cons, Bool.false_eq_true, if_false, List.mem_singleton] at hx
        exact ⟨by simp, hx⟩
  unfold metricAggregations at h
  cases agg with
  | none =>
    simp only [bind, Except.bind, pure, Except.pure, Except.ok.injEq] at h
    subst h
    rcases hlast hx with hx | hx
    · cases hx
    · exact .inr hx
  | some a =>
    simp only [bind, Except.bind] at h
    by_cases hmac : isMacro (some a) = true
    · simp only [hmac, if_true] at h
      cases hcw : classWeights s with
      | error e => rw [hcw] at h; cases h
      | ok cw =>
        rw [hcw] at h
        simp only at h
        split at h
        · cases h
        · rename_i avg havg
          simp only [pure, Except.pure, Except.ok.injEq] at h
          subst h
          rcases hlast hx with hx | hx
          · left
            rw [mem_flatMapE havg] at hx
            obtain ⟨output, ho, r7, e7, hx⟩ := hx
            have e7' := e7
            cases hms : macroSubKeys sk (some (cw.getD [])) with
            | error e => rw [hms] at e7; cases e7
            | ok ms =>
              rw [hms] at e7
              simp only [pure, Except.pure, Except.ok.injEq] at e7
              subst e7
              refine ⟨a, rfl, hmac, cw, rfl, output, ho, ms, hms, ?_⟩
              split at hx
              · rename_i hm
                exact .inl ⟨hm, List.mem_singleton.1 hx⟩
              · rename_i hm
                refine .inr ⟨hm, hx, fun y hy => List.mem_append_left _ ((mem_flatMapE havg y).2 ⟨output, ho, _, e7', ?_⟩)⟩
                rw [if_neg hm]
                exact hy
          · exact .inr hx
    · simp only [hmac, Bool.false_eq_true, if_false, pure, Except.pure, Except.ok.injEq] at h
      subst h
      rcases hlast hx with hx | hx
      · cases hx
      · exact .inr hx

/-- Where a processed computation comes from. -/
private theorem of_processSpecs {models : List WeightSpec} {specs : List (Spec B S T)} {a : List (Computation (Body B))}
    (h : processSpecs models specs = .ok a) {x : Computation (Body B)} (hx : x ∈ a) :
    ∃ s ∈ specs, ∃ m ∈ s.metrics, ∃ c ys, m.create c = .ok ys ∧ ∃ y ∈ ys, x = Body.lift y ∧
      ∃ t ∈ specs, ∃ subs, createSubKeys t = .ok subs ∧ ∃ agg sks, (agg, sks) ∈ subs ∧
        ((isMacro agg = true ∧ c.aggregation = none) ∨ (isMacro agg = false ∧ c.aggregation = agg)) := by
  unfold processSpecs at h
  rw [mem_flatMapE h] at hx
  obtain ⟨e, he, r1, e1, hx⟩ := hx
  rw [mem_flatMapE e1] at hx
  obtain ⟨t, ht, r2, e2, hx⟩ := hx
  obtain ⟨⟨s, hs, hm⟩, hsound⟩ := byConfig_sound he
  refine ⟨s, hs, _, hm, ?_⟩
  unfold specComputations at e2
  cases hsub : createSubKeys t with
  | error e => rw [hsub] at e2; cases e2
  | ok subs =>
    rw [hsub] at e2
    simp only [bind, Except.bind] at e2
    rw [mem_flatMapE e2] at hx
    obtain ⟨⟨agg, sks⟩, hmem, r3, e3, hx⟩ := hx
    simp only at e3
    unfold aggregationComputations at e3
    cases hc : weightsFor t agg with
    | error e => rw [hc] at e3; cases e3
    | ok cw =>
      rw [hc] at e3
      simp only [bind, Except.bind] at e3
      by_cases hmac : isMacro agg = true
      · simp only [hmac, if_true] at e3
        split at e3
        · cases e3
        · rename_i ks hks
          split at e3
          · cases e3; cases hx
          · rw [mem_flatMapE e3] at hx
            obtain ⟨ew, -, r4, e4, hx⟩ := hx
            rw [mem_metricComputations e4] at hx
            obtain ⟨model, -, output, -, sk, -, ys, hy, y, hyy, rfl⟩ := hx
            exact ⟨_, ys, hy, y, hyy, rfl, t, (hsound t ht).1, subs, hsub, agg, sks, hmem, .inl ⟨hmac, rfl⟩⟩
      · simp only [hmac, Bool.false_eq_true, if_false] at e3
        rw [mem_flatMapE e3] at hx
        obtain ⟨ew, -, r4, e4, hx⟩ := hx
        rw [mem_metricComputations e4] at hx
        obtain ⟨model, -, output, -, sk, -, ys, hy, y, hyy, rfl⟩ := hx
        exact ⟨_, ys, hy, y, hyy, rfl, t, (hsound t ht).1, subs, hsub, agg, sks, hmem, .inr ⟨by simpa using hmac, rfl⟩⟩

/-- **C82** (weighted macro averages): no computation provides the key under which the thresholds of a weighted macro average are
checked: the averages are computed under the key of a macro average. -/
theorem C82_weighted_missing (models : List WeightSpec) (specs : List (Spec B S T))
    (hown : ∀ s ∈ specs, ∀ m ∈ s.metrics, OwnAggregation m) (cs : List (Computation (Body B)))
    (h : toComputations models specs = .ok cs) (k : MetricKey) (hk : k.aggregationType = some ⟨none, none, some true⟩) :
    ∀ c ∈ cs, k ∉ c.keys := by
  obtain ⟨a, b, ha, hb, rfl⟩ := toComputations_ok h
  intro x hx hkx
  rcases List.mem_append.1 hx with hx | hx
  · obtain ⟨s, hs, m, hm, c, ys, hy, y, hyy, rfl, t, -, subs, -, agg, sks, -, hagg⟩ := of_processSpecs ha hx
    rcases hown s hs m hm c ys hy y hyy k hkx with h1 | h1
    · rw [hk] at h1; cases h1
    · rw [hk] at h1
      rcases hagg with ⟨-, h2⟩ | ⟨h2, h3⟩
      · rw [h2] at h1; cases h1
      · rw [← h3, ← h1] at h2
        simp [isMacro] at h2
  · obtain ⟨s, hs, ew, hew, subs, hsub, -, agg, sks, he, model, hmod, sk, hsk, m, hm, r, hr, hx, hsib⟩ := of_specAggregations hb hx
    rcases of_metricAggregations hr hx with ⟨t, -, -, cw, -, output, -, ms, -, ⟨-, rfl⟩ | ⟨-, hx, -⟩⟩ | ⟨-, rfl⟩
    · simp only [macroComputation, Aggregation.macroKey, List.mem_singleton] at hkx
      rw [hkx] at hk; cases hk
    · simp only [weightedComputations, labelWeights, labelWeightsKey, Aggregation.weightedMacroKey, List.mem_cons, List.not_mem_nil,
        or_false] at hx
      rcases hx with rfl | rfl <;> simp only [List.mem_singleton] at hkx <;> rw [hkx] at hk <;> cases hk
    · simp only [outputComputation, List.mem_singleton] at hkx
      rw [hkx] at hk; cases hk

/-! ### C83 -/

/-- The dictionary handed to the aggregations: the values of the metrics called `name` (or privately so) are there and are numbers. -/
structure Available (cs : List (Computation (Body B))) (name : String) (metrics : Aggregation.Metrics) : Prop where
  computed : ∀ x ∈ cs, ∀ b, x.body = .own b → ∀ k ∈ x.keys, k.name = name ∨ k.name = "_" ++ name →
    ∃ v, Dict.get? metrics k = some (some v)
  numbers : ∀ k, k.name = name → Dict.get? metrics k ≠ some none

private theorem macroWeight_ok (d : Dict ℤ ℚ) (sk : Option SubKey) : ∃ w, Aggregation.macroWeight (some d) sk = .ok w := by
  unfold Aggregation.macroWeight
  dsimp only
  split
  · exact ⟨_, rfl⟩
  · split <;> exact ⟨_, rfl⟩

private theorem weightedWeight_ok (f d : Dict ℤ ℚ) (sk : Option SubKey) :
    ∃ w, Aggregation.weightedWeight f (some d) sk = .ok w := by
  rcases sk with _ | ⟨_ | c, _ | k, t⟩
  · exact ⟨_, rfl⟩
  · exact ⟨_, rfl⟩
  · simp [Aggregation.weightedWeight, Aggregation.offset, bind, Except.bind, pure, Except.pure]
  all_goals
    by_cases h1 : ∃ x, Dict.get? f c = some x
    · obtain ⟨x, h1⟩ := h1
      by_cases h2 : ∃ y, Dict.get? d c = some y
      · obtain ⟨y, h2⟩ := h2
        simp only [Aggregation.weightedWeight, Aggregation.offset, Option.bind_some, Dict.has, h1, h2, bind, Except.bind, pure, Except.pure]
        split_ifs <;> simp_all
      · have h2 : Dict.get? d c = none := by cases h : Dict.get? d c <;> simp_all
        simp only [Aggregation.weightedWeight, Aggregation.offset, Option.bind_some, Dict.has, h1, h2, bind, Except.bind, pure, Except.pure]
        split_ifs <;> simp_all
    · have h1 : Dict.get? f c = none := by cases h : Dict.get? f c <;> simp_all
      by_cases h2 : ∃ y, Dict.get? d c = some y
      · obtain ⟨y, h2⟩ := h2
        simp only [Aggregation.weightedWeight, Aggregation.offset, Option.bind_some, Dict.has, h1, h2, bind, Except.bind, pure, Except.pure]
        split_ifs <;> simp_all
      · have h2 : Dict.get? d c = none := by cases h : Dict.get? d c <;> simp_all
        simp only [Aggregation.weightedWeight, Aggregation.offset, Option.bind_some, Dict.has, h1, h2, bind, Except.bind, pure, Except.pure]
        split_ifs <;> simp_all

private theorem averageLoop_ok {U : Type} (weight : U → Except Err ℚ) (val : U → Except Err Fl) (l : List U)
    (hw : ∀ u ∈ l, ∃ w, weight u = .ok w) (hv : ∀ u ∈ l, ∃ v, val u = .ok v) (t : Aggregation.Totals) :
    ∃ t', Aggregation.averageLoop weight val t l = .ok t' := by
  induction l generalizing t with
  | nil => exact ⟨t, rfl⟩
  | cons u us ih =>
    obtain ⟨w, hw'⟩ := hw u (by simp)
    obtain ⟨v, hv'⟩ := hv u (by simp)
    obtain ⟨t', ht⟩ := ih (fun u hu => hw u (by simp [hu])) (fun u hu => hv u (by simp [hu])) (t.add v w)
    exact ⟨t', by simp [Aggregation.averageLoop, hw', hv', ht, bind, Except.bind]⟩

private theorem child_ok {metrics : Aggregation.Metrics} {name model output : String} {sk : Option SubKey} {ew : Bool} {v : Fl}
    (h : Aggregation.HasValue metrics name model output ew sk v) :
    Aggregation.value metrics (Aggregation.childKey metrics name model output sk ew) = .ok v := by
  unfold Aggregation.childKey
  rcases h with h | ⟨h1, h2⟩
  · simp only
    rw [if_pos (by simp [Dict.has, h])]
    simp [Aggregation.value, h]
  · simp only
    rw [if_neg (by simp [Dict.has, h1])]
    simp [Aggregation.value, h2]

private theorem weightsFor_eq (s : Spec B S T) (a : AggregationType) : weightsFor s (some a) = classWeights s := rfl

private theorem macroSubKeys_getD {sk : Option SubKey} {cw : Option (Dict ℤ ℚ)} {l : List (Option SubKey)}
    (h : macroSubKeys sk (some (cw.getD [])) = .ok l) : macroSubKeys sk cw = .ok l := by
  cases cw with
  | some d => exact h
  | none =>
    cases sk with
    | none => cases h
    | some s => exact h

/-- Every sub key of a macro average is provided by the processed metrics, under the name of the metric or its private name. -/
private theorem provided {models : List WeightSpec} {specs : List (Spec B S T)} {a : List (Computation (Body B))}
    (hstd : StandardSpecs specs) (h : processSpecs models specs = .ok a) {s : Spec B S T} {m : Metric B S T} (hs : s ∈ specs)
    (hm : m ∈ s.metrics) {subs : SubKeys} (hsub : createSubKeys s = .ok subs) {t : AggregationType} {sks : List (Option SubKey)}
    (he : (some t, sks) ∈ subs) (hmac : isMacro (some t) = true) {sk : Option SubKey} (hsk : sk ∈ sks) {cw : Option (Dict ℤ ℚ)}
    (hcw : classWeights s = .ok cw) {ms : List (Option SubKey)} (hms : macroSubKeys sk (some (cw.getD [])) = .ok ms)
    {model output : String} (hmod : model ∈ orEmpty s.modelNames) (hout : output ∈ orEmpty s.outputNames) {ew : Bool}
    (hew : ew ∈ weightOptions models s) {k : Option SubKey} (hk : k ∈ ms) :
    ∃ name, (name = m.name ∨ name = "_" ++ m.name) ∧ ∃ x ∈ a, (⟨name, model, output, k, none, some ew, false⟩ : MetricKey) ∈ x.keys := by
  by_cases hshared : k ∈ (Dict.get? subs none).getD []
  · cases hg : Dict.get? subs none with
    | none => rw [hg] at hshared; cases hshared
    | some l =>
      rw [hg] at hshared
      have hl : (none, l) ∈ subs := Dict.mem_of_get? hg
      obtain ⟨m', r, hm', hn, hr, hsubset⟩ := processed hstd h hs hm hsub hl
      obtain ⟨x, hx, hxk⟩ := plain_key hm' rfl hr hmod hout hshared hew
      exact ⟨m.name, .inl rfl, x, hsubset x hx, hn ▸ hxk⟩
  · obtain ⟨m', r, hm', hn, hr, hsubset⟩ := processed hstd h hs hm hsub he
    unfold aggregationComputations at hr
    rw [weightsFor_eq, hcw] at hr
    simp only [bind, Except.bind, hmac, if_true] at hr
    split at hr
    · cases hr
    · rename_i ks hks
      have hmem : k ∈ ks := by
        rw [mem_flatMapE hks]
        exact ⟨sk, hsk, ms, macroSubKeys_getD hms, hk⟩
      have hup : k ∈ ks.filter fun k => !decide (k ∈ (Dict.get? subs none).getD []) := by
        simp only [List.mem_filter, Bool.not_eq_true', decide_eq_false_iff_not]
        exact ⟨hmem, hshared⟩
      split at hr
      · rename_i hemp
        rw [List.isEmpty_iff] at hemp
        rw [hemp] at hup; cases hup
      · obtain ⟨r1, e1⟩ := (flatMapE_ok hr).1 ew hew
        obtain ⟨x, hx, hxk⟩ := standard_key hm' e1 hmod hout hup
        refine ⟨privateName m'.name, ?_, x, hsubset x ((mem_flatMapE hr x).2 ⟨ew, hew, r1, e1, hx⟩), hxk⟩
        rw [hn]
        unfold privateName
        split
        · exact .inl rfl
        · exact .inr rfl

/-- Sources of a computation by its body. -/
theorem own_processed {models : List WeightSpec} {specs : List (Spec B S T)} {a : List (Computation (Body B))}
    (h : processSpecs models specs = .ok a) {x : Computation (Body B)} (hx : x ∈ a) : ∃ b, x.body = .own b := by
  obtain ⟨_, _, _, _, _, _, _, y, _, rfl, -⟩ := of_processSpecs h hx
  exact ⟨y.body, rfl⟩

private theorem found {a b : List (Computation (Body B))} {models : List WeightSpec} {specs : List (Spec B S T)}
    (ha : processSpecs models specs = .ok a) {metrics : Aggregation.Metrics} {mname : String}
    (hav : Available (a ++ b) mname metrics) {model output : String} {k : Option SubKey} {ew : Bool}
    (h : ∃ name, (name = mname ∨ name = "_" ++ mname) ∧
      ∃ x ∈ a, (⟨name, model, output, k, none, some ew, false⟩ : MetricKey) ∈ x.keys) :
    ∃ v, Aggregation.HasValue metrics mname model output ew k v := by
  obtain ⟨name, hname, x, hx, hk⟩ := h
  obtain ⟨body, hb⟩ := own_processed ha hx
  obtain ⟨v, hv⟩ := hav.computed x (List.mem_append_left _ hx) body hb _ hk hname
  rcases hname with rfl | rfl
  · exact ⟨v, .inl hv⟩
  · cases hg : Dict.get? metrics ⟨mname, model, output, k, none, some ew, false⟩ with
    | none => exact ⟨v, .inr ⟨hg, hv⟩⟩
    | some o =>
      cases o with
      | none => exact absurd hg (hav.numbers _ rfl)
      | some v' => exact ⟨v', .inl hg⟩

/-- **C83**: a macro average finds the values of all its classes (or ranks), whether or not they are also asked for themselves, and
does not fail. -/
theorem C83_macro (models : List WeightSpec) (specs : List (Spec B S T)) (hstd : StandardSpecs specs)
    (cs : List (Computation (Body B))) (h : toComputations models specs = .ok cs) (c : Computation (Body B)) (hc : c ∈ cs)
    (name model output : String) (sks : List (Option SubKey)) (cw : Option (Dict ℤ ℚ)) (ew : Bool)
    (hb : c.body = .macroAverage name model output sks cw ew) (metrics : Aggregation.Metrics) (hav : Available cs name metrics) :
    (∀ sk ∈ sks, ∃ v, Aggregation.HasValue metrics name model output ew sk v) ∧
      ∃ r, Aggregation.macroAverage name model output sks cw ew metrics = .ok r := by
  obtain ⟨a, b, ha, hb', rfl⟩ := toComputations_ok h
  rcases List.mem_append.1 hc with hx | hx
  · obtain ⟨b', hb''⟩ := own_processed ha hx
    rw [hb''] at hb; cases hb
  obtain ⟨s, hs, w, hew, subs, hsub, -, agg, sks', he, model', hmod, sk, hsk, m, hm, r, hr, hx, hsib⟩ := of_specAggregations hb' hx
  rcases of_metricAggregations hr hx with ⟨t, rfl, hmac, cw', hcw, output', hout, ms, hms, ⟨-, rfl⟩ | ⟨-, hx, -⟩⟩ | ⟨-, rfl⟩
  · simp only [macroComputation, Body.macroAverage.injEq] at hb
    obtain ⟨rfl, rfl, rfl, rfl, rfl, rfl⟩ := hb
    have hall : ∀ k ∈ ms, ∃ v, Aggregation.HasValue metrics m.name model' output' w k v := fun k hk =>
      found ha hav (provided hstd ha hs hm hsub he hmac hsk hcw hms hmod hout hew hk)
    refine ⟨hall, ?_⟩
    obtain ⟨t', ht⟩ := averageLoop_ok (Aggregation.macroWeight (some (cw'.getD [])))
      (fun sk => Aggregation.value metrics (Aggregation.childKey metrics m.name model' output' sk w)) ms
      (fun u _ => macroWeight_ok _ u) (fun u hu => by obtain ⟨v, hv⟩ := hall u hu; exact ⟨v, child_ok hv⟩) ⟨.fin 0, 0⟩
    exact ⟨t'.average, by simp [Aggregation.macroAverage, ht, bind, Except.bind, pure, Except.pure]⟩
  · simp only [weightedComputations, labelWeights, List.mem_cons, List.not_mem_nil, or_false] at hx
    rcases hx with rfl | rfl <;> cases hb
  · cases hb

/-- **C83** (weighted macro averages): a weighted macro average finds the values of all its classes, whatever label weights it is
given, and the weights of the labels of its classes are computed. -/
theorem C83_weighted (models : List WeightSpec) (specs : List (Spec B S T)) (hstd : StandardSpecs specs)
    (cs : List (Computation (Body B))) (h : toComputations models specs = .ok cs) (c : Computation (Body B)) (hc : c ∈ cs)
    (name model output : String) (sks : List (Option SubKey)) (cw : Option (Dict ℤ ℚ)) (ew : Bool)
    (hb : c.body = .weightedMacroAverage name model output sks cw ew) (metrics : Aggregation.Metrics)
    (hav : Available cs name metrics) (fromLabels : Dict ℤ ℚ) :
    (∀ sk ∈ sks, ∃ v, Aggregation.HasValue metrics name model output ew sk v) ∧
      (∃ r, Aggregation.weightedMacroAverage name model output sks fromLabels cw ew metrics = .ok r) ∧
      ∃ c' ∈ cs, c'.keys = [{ name := "_class_weights_from_labels", modelName := model, outputName := output, exampleWeighted := some ew }] ∧
        ∃ ids, c'.body = .labelWeights ids ∧ ∀ i, i ∈ ids ↔ ∃ sk ∈ sks, sk.bind SubKey.classId = some i := by
  obtain ⟨a, b, ha, hb', rfl⟩ := toComputations_ok h
  rcases List.mem_append.1 hc with hx | hx
  · obtain ⟨b', hb''⟩ := own_processed ha hx
    rw [hb''] at hb; cases hb
  have hx0 := hx
  obtain ⟨s, hs, w, hew, subs, hsub, hoo, agg, sks', he, model', hmod, sk, hsk, m, hm, r, hr, hx, hsib⟩ := of_specAggregations hb' hx
  rcases of_metricAggregations hr hx with ⟨t, rfl, hmac, cw', hcw, output', hout, ms, hms, ⟨-, rfl⟩ | ⟨-, hx, hsib'⟩⟩ | ⟨-, rfl⟩
  · cases hb
  · have hx' := hx
    simp only [weightedComputations, labelWeights, List.mem_cons, List.not_mem_nil, or_false] at hx
    rcases hx with rfl | rfl
    · cases hb
    simp only [Body.weightedMacroAverage.injEq] at hb
    obtain ⟨rfl, rfl, rfl, rfl, rfl, rfl⟩ := hb
    have hall : ∀ k ∈ ms, ∃ v, Aggregation.HasValue metrics m.name model' output' w k v := fun k hk =>
      found ha hav (provided hstd ha hs hm hsub he hmac hsk hcw hms hmod hout hew hk)
    refine ⟨hall, ?_, ?_⟩
    · obtain ⟨t', ht⟩ := averageLoop_ok (Aggregation.weightedWeight fromLabels (some (cw'.getD [])))
        (fun sk => Aggregation.value metrics (Aggregation.childKey metrics m.name model' output' sk w)) ms
        (fun u _ => weightedWeight_ok _ _ u) (fun u hu => by obtain ⟨v, hv⟩ := hall u hu; exact ⟨v, child_ok hv⟩) ⟨.fin 0, 0⟩
      exact ⟨t'.average, by simp [Aggregation.weightedMacroAverage, ht, bind, Except.bind, pure, Except.pure]⟩
    · refine ⟨labelWeights (ms.filterMap fun k => k.bind SubKey.classId) model' output' w, ?_, rfl, _, rfl, ?_⟩
      · exact List.mem_append_right _ (hsib _ (hsib' _ (by simp [weightedComputations])))
      · intro i
        simp only [List.mem_filterMap]
  · cases hb

/-! ### C84: averages over outputs -/

/-- **C84**: the average of a metric over outputs finds the values of all outputs that have a weight, and does not fail, provided
the specs with output weights have no aggregation options.  Missing: the others, see `C84_micro_fails`. -/
theorem C84_output_partial (models : List WeightSpec) (specs : List (Spec B S T)) (hstd : StandardSpecs specs)
    (hagg : ∀ s ∈ specs, s.outputWeights ≠ [] → s.aggregate = none) (cs : List (Computation (Body B)))
    (h : toComputations models specs = .ok cs) (c : Computation (Body B)) (hc : c ∈ cs) (name model : String) (sk : Option SubKey)
    (weights : Dict String ℚ) (ew : Bool) (hb : c.body = .outputAverage name model sk weights ew) (metrics : Aggregation.Metrics)
    (hav : Available cs name metrics) :
    (∀ o ∈ weights, ∃ v, Dict.get? metrics ⟨name, model, o.1, sk, none, some ew, false⟩ = some (some v)) ∧
      ∃ r, Aggregation.outputAverage name model sk weights ew metrics = .ok r := by
  obtain ⟨a, b, ha, hb', rfl⟩ := toComputations_ok h
  rcases List.mem_append.1 hc with hx | hx
  · obtain ⟨b', hb''⟩ := own_processed ha hx
    rw [hb''] at hb; cases hb
  obtain ⟨s, hs, w, hew, subs, hsub, hoo, agg, sks', he, model', hmod, sk', hsk, m, hm, r, hr, hx, hsib⟩ := of_specAggregations hb' hx
  rcases of_metricAggregations hr hx with ⟨t, rfl, hmac, cw', hcw, output', hout, ms, hms, ⟨-, rfl⟩ | ⟨-, hx, -⟩⟩ | ⟨hne, rfl⟩
  · cases hb
  · simp only [weightedComputations, labelWeights, List.mem_cons, List.not_mem_nil, or_false] at hx
    rcases hx with rfl | rfl <;> cases hb
  · simp only [outputComputation, Body.outputAverage.injEq] at hb
    obtain ⟨rfl, rfl, rfl, rfl, rfl⟩ := hb
    have hnone : agg = none := by
      rcases types_of hsub he with h | ⟨x, hx, -⟩
      · exact h
      · rw [hagg s hs hne] at hx; cases hx
    subst hnone
    have hall : ∀ o ∈ s.outputWeights, ∃ v, Dict.get? metrics ⟨m.name, model', o.1, sk', none, some w, false⟩ = some (some v) := by
      intro o ho
      obtain ⟨m', r', hm', hn, hr', hsubset⟩ := processed hstd ha hs hm hsub he
      obtain ⟨x, hx, hxk⟩ := plain_key hm' rfl hr' hmod (hoo o ho) hsk hew
      obtain ⟨body, hbody⟩ := own_processed ha (hsubset x hx)
      exact hav.computed x (List.mem_append_left _ (hsubset x hx)) body hbody _ (hn ▸ hxk) (.inl rfl)
    refine ⟨hall, ?_⟩
    obtain ⟨t', ht⟩ := averageLoop_ok (fun ow : String × ℚ => (.ok ow.2 : Except Err ℚ))
      (fun ow => Aggregation.value metrics
        { name := m.name, modelName := model', outputName := ow.1, subKey := sk', exampleWeighted := some w }) s.outputWeights
      (fun u _ => ⟨_, rfl⟩) (fun u hu => by obtain ⟨v, hv⟩ := hall u hu; exact ⟨v, by simp [Aggregation.value, hv]⟩) ⟨.fin 0, 0⟩
    exact ⟨t'.average, by simp [Aggregation.outputAverage, ht, bind, Except.bind, pure, Except.pure]⟩

private theorem averageLoop_error {U : Type} (weight : U → Except Err ℚ) (val : U → Except Err Fl) (l : List U) {u : U} (hu : u ∈ l)
    (hv : ∀ v, val u ≠ .ok v) (t t' : Aggregation.Totals) : Aggregation.averageLoop weight val t l ≠ .ok t' := by
  induction l generalizing t with
  | nil => cases hu
  | cons x xs ih =>
    intro h
    simp only [Aggregation.averageLoop] at h
    cases hw : weight x with
    | error e => rw [hw] at h; cases h
    | ok w =>
      cases hx : val x with
      | error e => rw [hw, hx] at h; cases h
      | ok v =>
        rw [hw, hx] at h
        rcases List.mem_cons.1 hu with rfl | hu
        · exact hv _ hx
        · exact ih hu _ h

/-- The values of the metrics named `name` are those for the aggregation asked for. -/
def OnlyAggregated (m : Metric B S T) (name : String) : Prop :=
  ∀ c ys, m.create c = .ok ys → ∀ y ∈ ys, ∀ k ∈ y.keys, k.name = name → k.aggregationType = c.aggregation

/-- **C84** (micro averages): with output weights and micro averaging in one spec the average over outputs always fails: the values
are computed with the aggregation type in the key and looked up without. -/
theorem C84_micro_fails (models : List WeightSpec) (s : Spec B S T) (a : Aggregate) (hagg : s.aggregate = some a)
    (hmicro : a.kind = some .micro) (hbin : s.binarize = none) (name : String)
    (hown : ∀ m ∈ s.metrics, OnlyAggregated m name) (cs : List (Computation (Body B)))
    (h : toComputations models [s] = .ok cs) (model : String) (sk : Option SubKey)
    (weights : Dict String ℚ) (ew : Bool) (metrics : Aggregation.Metrics)
    (hfrom : ∀ k ∈ Dict.keys metrics, ∃ x ∈ cs, k ∈ x.keys) (o : String × ℚ) (ho : o ∈ weights) (hname : o.1 ≠ "")
    (hlabel : name ≠ "_class_weights_from_labels") :
    ∀ r, Aggregation.outputAverage name model sk weights ew metrics ≠ .ok r := by
  obtain ⟨p, b, hp, hb, rfl⟩ := toComputations_ok h
  have htype : ∀ subs t sks, createSubKeys s = .ok subs → (t, sks) ∈ subs → t = some ⟨some true, none, none⟩ := by
    intro subs t sks hsub hm
    unfold createSubKeys at hsub
    rw [hbin, hagg] at hsub
    simp only [binarizePart] at hsub
    cases hk : aggregateKeys a with
    | error e => rw [hk] at hsub; cases hsub
    | ok ks =>
      rw [hk] at hsub
      simp only [Except.ok.injEq] at hsub
      subst hsub
      simp only [Dict.set, List.mem_singleton, Prod.mk.injEq] at hm
      rw [hm.1]
      simp [aggregationType, hmicro]
  have hmiss : Dict.get? metrics ⟨name, model, o.1, sk, none, some ew, false⟩ = none := by
    cases hg : Dict.get? metrics ⟨name, model, o.1, sk, none, some ew, false⟩ with
    | none => rfl
    | some v =>
      exfalso
      obtain ⟨x, hx, hk⟩ := hfrom _ ((Dict.mem_keys_iff _ _).2 ⟨v, hg⟩)
      rcases List.mem_append.1 hx with hx | hx
      · obtain ⟨s', hs', m, hm, c, ys, hy, y, hyy, rfl, t, ht, subs, hsub, agg, sks, he, hca⟩ := of_processSpecs hp hx
        rw [List.mem_singleton] at hs' ht
        subst hs'
        subst ht
        have h1 : none = c.aggregation := hown m hm c ys hy y hyy _ hk rfl
        have h2 := htype subs agg sks hsub he
        subst h2
        rcases hca with ⟨h3, -⟩ | ⟨-, h3⟩
        · simp [isMacro] at h3
        · rw [← h1] at h3; cases h3
      · obtain ⟨s', hs', w, hew, subs, hsub, hoo, agg, sks', he, model', hmod, sk', hsk, m, hm, r, hr, hx, hsib⟩ :=
          of_specAggregations hb hx
        rcases of_metricAggregations hr hx with ⟨t, rfl, hmac, cw', hcw, output', hout, ms, hms, ⟨-, rfl⟩ | ⟨-, hx, -⟩⟩ | ⟨hne, rfl⟩
        · simp only [macroComputation, Aggregation.macroKey, List.mem_singleton] at hk; cases hk
        · simp only [weightedComputations, labelWeights, List.mem_cons, List.not_mem_nil, or_false] at hx
          rcases hx with rfl | rfl
          · simp only [labelWeightsKey, List.mem_singleton, MetricKey.mk.injEq] at hk; exact hlabel hk.1
          · simp only [Aggregation.weightedMacroKey, List.mem_singleton] at hk; cases hk
        · simp only [outputComputation, List.mem_singleton, MetricKey.mk.injEq] at hk; exact hname hk.2.2.1
  intro r hr
  unfold Aggregation.outputAverage at hr
  cases ht : Aggregation.averageLoop (fun ow : String × ℚ => (.ok ow.2 : Except Err ℚ))
      (fun ow => Aggregation.value metrics
        { name := name, modelName := model, outputName := ow.1, subKey := sk, exampleWeighted := some ew })
      ⟨.fin 0, 0⟩ weights with
  | error e => rw [ht] at hr; cases hr
  | ok t => exact averageLoop_error _ _ weights ho (by simp [Aggregation.value, hmiss]) _ _ ht

/-! ### Examples -/

/-- A standard metric. -/
private def auc : Metric Unit String ℕ :=
  { name := "auc", config := "AUC", create := fun c => .ok [⟨.metric, "Auc", [c.key], [], ()⟩], thresholds := [] }

private theorem auc_standard : Standard auc := by
  intro c xs h
  cases h
  exact ⟨_, List.mem_singleton.2 rfl, List.mem_singleton.2 rfl⟩

private theorem auc_own : OwnAggregation auc := by
  intro c xs h x hx k hk
  cases h
  simp only [List.mem_singleton] at hx
  subst hx
  simp only [List.mem_singleton] at hk
  subst hk
  exact .inr rfl

/-- Class 0 is asked for, the average is over the classes 0 and 1: class 1 is computed under a private name. -/
private def macroSpec : Spec Unit String ℕ :=
  { metrics := [auc], binarize := some { classIds := [0] }, aggregate := some { kind := some .macroAvg, classWeights := [(0, 1), (1, 3)] } }

private theorem macro_standard : StandardSpecs [macroSpec] := by
  constructor
  · intro s hs m hm
    simp only [List.mem_singleton] at hs
    subst hs
    simp only [macroSpec, List.mem_singleton] at hm
    subst hm
    exact auc_standard
  · intro s hs s' hs' m hm m' hm' _
    simp only [List.mem_singleton] at hs hs'
    subst hs hs'
    simp only [macroSpec, List.mem_singleton] at hm hm'
    subst hm hm'
    rfl

example : StandardSpecs [macroSpec] ∧ (toComputations [] [macroSpec]).map (List.map fun c => c.keys) = .ok [
    [⟨"auc", "", "", some ⟨some 0, none, none⟩, none, some false, false⟩],
    [⟨"_auc", "", "", some ⟨some 1, none, none⟩, none, some false, false⟩],
    [⟨"auc", "", "", none, some ⟨none, some true, none⟩, some false, false⟩]] ∧
    KeyOf macroSpec "auc" (some false) ⟨"auc", "", "", none, some ⟨none, some true, none⟩, some false, false⟩ ∧
    Variant [] macroSpec false :=
  ⟨macro_standard, by decide +kernel, ⟨rfl, .inr ⟨rfl, rfl⟩, .inr ⟨rfl, rfl⟩, ⟨_, rfl, _, List.mem_cons_of_mem _ (List.mem_singleton.2 rfl),
    by simp⟩, rfl, rfl⟩, by simp [Variant, macroSpec, DefaultWeighted]⟩

/-- The macro average of the example, over the values 1/2 of class 0 and 1 of class 1. -/
example : ((toComputations [] [macroSpec]).toOption.bind fun cs => cs.findSome? fun c => match c.body with
      | .macroAverage name model output sks cw ew =>
        (Aggregation.macroAverage name model output sks cw ew
          [(⟨"auc", "", "", some ⟨some 0, none, none⟩, none, some false, false⟩, some (.fin (1 / 2))),
           (⟨"_auc", "", "", some ⟨some 1, none, none⟩, none, some false, false⟩, some (.fin 1))]).toOption
      | _ => none) = some (.fin (7 / 8)) := by
  decide +kernel

/-- A weighted macro average: its threshold is checked under a key that is not computed. -/
private def weightedSpec : Spec Unit String ℕ :=
  { metrics := [auc], aggregate := some { kind := some .weighted, classWeights := [(0, 1), (1, 1)] } }

example : OwnAggregation auc ∧ (toComputations [] [weightedSpec]).map (List.map fun c => c.keys) = .ok [
    [⟨"_auc", "", "", some ⟨some 0, none, none⟩, none, some false, false⟩],
    [⟨"_auc", "", "", some ⟨some 1, none, none⟩, none, some false, false⟩],
    [⟨"_class_weights_from_labels", "", "", none, none, some false, false⟩],
    [⟨"auc", "", "", none, some ⟨none, some true, none⟩, some false, false⟩]] ∧
    (keysAndMetrics [] [weightedSpec]).map (List.map Prod.fst) =
      .ok [⟨"auc", "", "", none, some ⟨none, none, some true⟩, some false, false⟩] :=
  ⟨auc_own, by decide +kernel, by decide +kernel⟩

/-- Output weights with micro averaging: the values of the outputs have the aggregation type in their keys. -/
example : (toComputations [] [({
      metrics := [auc]
      outputNames := ["a", "b"]
      outputWeights := [("a", 1), ("b", 2)]
      aggregate := some { kind := some .micro } } : Spec Unit String ℕ)]).map (List.map fun c => c.keys) = .ok [
    [⟨"auc", "", "a", none, some ⟨some true, none, none⟩, some false, false⟩],
    [⟨"auc", "", "b", none, some ⟨some true, none, none⟩, some false, false⟩],
    [⟨"auc", "", "", none, none, some false, false⟩]] := by
  decide +kernel

end MetricSpecs
end TFMA
