import Verif.Props.SpecComputations

/-!
# C83 and C84: which specs are accepted and what macro averages are taken over
-/

namespace TFMA
namespace MetricSpecs

open MetricKeys Evaluate

variable {B S T : Type}

/-- The classes or ranks an average is taken over, with the weights given for them: without `top_k_list` the classes that have weights,
with the top `t` the ranks 1 to `t`. `sub` is the sub key under which the average is reported. -/
def AveragedOver (a : Aggregate) (sub : Option SubKey) (sks : List (Option SubKey)) (cw : Dict ℤ ℚ) : Prop :=
  (a.topK.getD [] = [] ∧ sub = none ∧ cw = a.classWeights ∧ sks = a.classWeights.map fun e => some ⟨some e.1, none, none⟩) ∨
    (∃ l t, a.topK = some l ∧ t ∈ l ∧ sub = some ⟨none, none, some t⟩ ∧ cw = [] ∧
      sks = (List.range t.toNat).map fun i => some ⟨none, some (i + 1), none⟩)

/-- The aggregation options of a spec are consistent: weights of classes are not given together with `top_k_list`, and macro averages
have classes or ranks to average over. -/
def Consistent (a : Aggregate) : Prop :=
  (a.topK ≠ none → a.classWeights = []) ∧ (a.kind ≠ some .micro → a.topK.getD [] = [] → a.classWeights ≠ [])

/-- A spec that is accepted. -/
def Sound (s : Spec B S T) : Prop :=
  Positive s ∧ (∀ o ∈ s.outputWeights, o.1 ∈ orEmpty s.outputNames) ∧ ∀ a, s.aggregate = some a → a.kind ≠ none → Consistent a

/-- A metric that can be created, and takes the weights the specs ask for: class weights if a micro average has some, example weights if
some spec is weighted. -/
def Flexible (models : List WeightSpec) (specs : List (Spec B S T)) (m : Metric B S T) : Prop :=
  (∀ c, ∃ xs, m.create c = .ok xs) ∧
  (m.classWeightsArg = true ∨ ∀ s ∈ specs, ∀ a, s.aggregate = some a → a.kind = some .micro → a.classWeights = []) ∧
  (m.exampleWeightedArg = true ∨ ∀ s ∈ specs, ¬ Variant models s true)

/-! ### Helpers -/

theorem aggregated {s : Spec B S T} {subs : SubKeys} (h : createSubKeys s = .ok subs) {t : AggregationType}
    {sks : List (Option SubKey)} (hm : (some t, sks) ∈ subs) :
    ∃ a, s.aggregate = some a ∧ aggregationType a = some t ∧ aggregateKeys a = .ok sks := by
  unfold createSubKeys at h
  cases hb : binarizePart s.binarize with
  | error e => rw [hb] at h; cases h
  | ok r =>
    have hr : ∀ p ∈ r, p.1 = none := by
      unfold binarizePart at hb
      cases hbb : s.binarize with
      | none => rw [hbb] at hb; cases hb; simp
      | some b =>
        rw [hbb] at hb
        simp only at hb
        cases hk : binarizeKeys b with
        | error e => rw [hk] at hb; cases hb
        | ok ks =>
          rw [hk] at hb
          simp only [Except.ok.injEq] at hb
          subst hb
          split <;> simp
    have hwf : Dict.WF r := by
      unfold binarizePart at hb
      cases hbb : s.binarize with
      | none => rw [hbb] at hb; cases hb; exact Dict.WF_nil
      | some b =>
        rw [hbb] at hb
        simp only at hb
        cases hk : binarizeKeys b with
        | error e => rw [hk] at hb; cases hb
        | ok ks =>
          rw [hk] at hb
          simp only [Except.ok.injEq] at hb
          subst hb
          split <;> simp [Dict.WF, Dict.keys]
    rw [hb] at h
    simp only at h
    cases ha : s.aggregate with
    | none =>
      rw [ha] at h
      simp only [Except.ok.injEq] at h
      subst h
      split at hm
      · simp at hm
      · cases hr _ hm
    | some a =>
      rw [ha] at h
      simp only at h
      cases hk : aggregateKeys a with
      | error e => rw [hk] at h; cases h
      | ok ks =>
        rw [hk] at h
        simp only [Except.ok.injEq] at h
        subst h
        have hg := Dict.get?_of_mem (Dict.WF_set hwf _ _) hm
        rw [Dict.get?_set] at hg
        split at hg
        · rename_i he
          cases hg
          exact ⟨a, rfl, by simpa using he, hk⟩
        · cases hr _ (Dict.mem_of_get? hg)

private theorem new_top' (v : ℤ) : SubKey.new none none (some v) = if v < 1 then .error .valueError else .ok ⟨none, none, some v⟩ := rfl

private theorem forall₂_left {α β : Type} {R : α → β → Prop} {l : List α} {r : List β} (h : List.Forall₂ R l r) {x : α} (hx : x ∈ l) :
    ∃ y ∈ r, R x y := by
  induction h with
  | nil => cases hx
  | cons h _ ih =>
    rcases List.mem_cons.1 hx with rfl | hx
    · exact ⟨_, List.mem_cons_self, h⟩
    · obtain ⟨y, hy, h⟩ := ih hx
      exact ⟨y, List.mem_cons_of_mem _ hy, h⟩

theorem aggregateKeys_eq {a : Aggregate} {sks : List (Option SubKey)} (h : aggregateKeys a = .ok sks) :
    (∀ v ∈ a.topK.getD [], 1 ≤ v) ∧
      sks = if a.topK.getD [] = [] then [none] else (a.topK.getD []).map fun v => some ⟨none, none, some v⟩ := by
  unfold aggregateKeys at h
  cases hm : mapE (fun v => SubKey.new none none (some v)) (a.topK.getD []) with
  | error e => rw [hm] at h; cases h
  | ok t =>
    rw [hm] at h
    cases h
    have h1 : ∀ v ∈ a.topK.getD [], 1 ≤ v := by
      intro v hv
      obtain ⟨y, -, hy⟩ := forall₂_left (mapE_eq_ok hm) hv
      rw [new_top'] at hy
      split_ifs at hy with hlt
      omega
    refine ⟨h1, ?_⟩
    rw [mapE_of (g := fun v => (⟨none, none, some v⟩ : SubKey)) (fun v hv => by rw [new_top', if_neg (by have := h1 v hv; omega)])] at hm
    cases hm
    cases a.topK.getD [] <;> simp

theorem flatMapE_total {α β : Type} {f : α → Except Err (List β)} {l : List α} (h : ∀ x ∈ l, ∃ y, f x = .ok y) :
    ∃ r, flatMapE f l = .ok r := by
  induction l with
  | nil => exact ⟨_, rfl⟩
  | cons x xs ih =>
    obtain ⟨y, hy⟩ := h x (by simp)
    obtain ⟨r, hr⟩ := ih fun z hz => h z (by simp [hz])
    simp only [flatMapE, hy, hr]
    exact ⟨_, rfl⟩

theorem classWeights_eq {s : Spec B S T} {a : Aggregate} (ha : s.aggregate = some a) {cw : Option (Dict ℤ ℚ)} :
    classWeights s = .ok cw ↔ (a.topK ≠ none → a.classWeights = []) ∧ cw = if a.classWeights = [] then none else some a.classWeights := by
  unfold classWeights
  rw [ha]
  cases ht : a.topK with
  | none => cases hc : a.classWeights <;> simp [ht, hc] <;> exact eq_comm
  | some l => cases hc : a.classWeights <;> simp [ht, hc] <;> exact eq_comm

theorem weights_getD (d : Dict ℤ ℚ) : (if d = [] then none else some d).getD [] = d := by
  split_ifs with h
  · exact h.symm
  · rfl

theorem macro_over {a : Aggregate} {sks : List (Option SubKey)} (hk : aggregateKeys a = .ok sks) {sk : Option SubKey} (hsk : sk ∈ sks)
    (hw : a.topK ≠ none → a.classWeights = []) {ms : List (Option SubKey)} (h : macroSubKeys sk (some a.classWeights) = .ok ms) :
    AveragedOver a sk ms a.classWeights := by
  obtain ⟨hpos, rfl⟩ := aggregateKeys_eq hk
  split_ifs at hsk with h0
  · rw [List.mem_singleton] at hsk
    subst hsk
    left
    simp only [macroSubKeys] at h
    split_ifs at h with he
    rw [mapE_of (f := fun e : ℤ × ℚ => SubKey.new (some e.1) none none) (g := fun e : ℤ × ℚ => (⟨some e.1, none, none⟩ : SubKey))
      (fun _ _ => rfl)] at h
    simp only [Except.map, Except.ok.injEq] at h
    refine ⟨h0, rfl, rfl, ?_⟩
    rw [← h, List.map_map]
    rfl
  · obtain ⟨t, ht, rfl⟩ := List.mem_map.1 hsk
    right
    cases hl : a.topK with
    | none => rw [hl] at ht; cases ht
    | some l =>
      rw [hl] at ht
      have h1 := hpos t (by rw [hl]; exact ht)
      refine ⟨l, t, rfl, ht, rfl, hw (by simp [hl]), ?_⟩
      simp only [macroSubKeys] at h
      rw [if_neg (by omega), mapE_of (g := fun i : ℕ => (⟨none, some ((i : ℤ) + 1), none⟩ : SubKey)) (fun i _ => by
        simp only [SubKey.new, Option.isSome_none, Bool.false_eq_true, if_false]
        rw [if_neg (by omega)])] at h
      simp only [Except.map, Except.ok.injEq] at h
      rw [← h, List.map_map]
      rfl

theorem macro_total {a : Aggregate} {sks : List (Option SubKey)} (hk : aggregateKeys a = .ok sks) {sk : Option SubKey} (hsk : sk ∈ sks)
    (hne : a.topK.getD [] = [] → a.classWeights ≠ []) {cw : Option (Dict ℤ ℚ)} (hcw : cw.getD [] = a.classWeights) :
    ∃ ms, macroSubKeys sk cw = .ok ms := by
  obtain ⟨hpos, rfl⟩ := aggregateKeys_eq hk
  split_ifs at hsk with h0
  · rw [List.mem_singleton] at hsk
    subst hsk
    cases cw with
    | none => exact absurd hcw.symm (hne h0)
    | some d =>
      have hd : d ≠ [] := by rintro rfl; exact hne h0 hcw.symm
      simp only [macroSubKeys]
      rw [if_neg (by simpa using hd), mapE_of (f := fun e : ℤ × ℚ => SubKey.new (some e.1) none none) (g := fun e : ℤ × ℚ => (⟨some e.1, none, none⟩ : SubKey))
      (fun _ _ => rfl)]
      exact ⟨_, rfl⟩
  · obtain ⟨t, ht, rfl⟩ := List.mem_map.1 hsk
    have h1 := hpos t ht
    simp only [macroSubKeys]
    rw [if_neg (by omega), mapE_of (g := fun i : ℕ => (⟨none, some ((i : ℤ) + 1), none⟩ : SubKey)) (fun i _ => by
      simp only [SubKey.new, Option.isSome_none, Bool.false_eq_true, if_false]
      rw [if_neg (by omega)])]
    exact ⟨_, rfl⟩

theorem isMacro_iff {a : Aggregate} {t : AggregationType} (h : aggregationType a = some t) :
    isMacro (some t) = true ↔ a.kind = some .macroAvg ∨ a.kind = some .weighted := by
  unfold aggregationType at h
  rcases hk : a.kind with - | - | - | - <;> rw [hk] at h <;> cases h <;> simp [isMacro]

/-! ### The properties -/

/-- **C83**: what a macro average is taken over: the classes that have weights, with these weights, or with `top_k_list` the ranks 1 to
`t` for each of its values `t`, without weights; it is reported for the metric, model and output of its spec. -/
theorem C83_averaged (models : List WeightSpec) (specs : List (Spec B S T)) (cs : List (Computation (Body B)))
    (h : toComputations models specs = .ok cs) (c : Computation (Body B)) (hc : c ∈ cs) (name model output : String)
    (sks : List (Option SubKey)) (cw : Option (Dict ℤ ℚ)) (ew weighted : Bool)
    (hb : c.body = if weighted then .weightedMacroAverage name model output sks cw ew else .macroAverage name model output sks cw ew) :
    ∃ s ∈ specs, ∃ a sub d, s.aggregate = some a ∧ a.kind = some (if weighted then .weighted else .macroAvg) ∧ cw = some d ∧
      AveragedOver a sub sks d ∧ (∃ m ∈ s.metrics, m.name = name) ∧ model ∈ orEmpty s.modelNames ∧ output ∈ orEmpty s.outputNames ∧
      c.keys = [⟨name, model, output, sub, some ⟨none, some true, none⟩, some ew, false⟩] := by
  obtain ⟨a, b, ha, hb', rfl⟩ := toComputations_ok h
  rcases List.mem_append.1 hc with hx | hx
  · obtain ⟨b', hb''⟩ := own_processed ha hx
    rw [hb''] at hb; split at hb <;> cases hb
  obtain ⟨s, hs, w, hew, subs, hsub, -, agg, sks', he, model', hmod, sk, hsk, m, hm, r, hr, hx, -⟩ := of_specAggregations hb' hx
  rcases of_metricAggregations hr hx with ⟨t, rfl, hmac, cw', hcw, output', hout, ms, hms, hcase⟩ | ⟨-, rfl⟩
  · obtain ⟨a', ha', ht, hkeys⟩ := aggregated hsub he
    obtain ⟨hw, rfl⟩ := (classWeights_eq ha').1 hcw
    rw [weights_getD] at hms hcase
    have hover := macro_over hkeys hsk hw hms
    have hkind : ∀ k, aggregationType a' = some t → (t.macroAvg = some true ↔ k = AggKind.macroAvg) → (k = .macroAvg ∨ k = .weighted) →
        a'.kind = some k := by
      intro k h1 h2 h3
      have h4 := (isMacro_iff h1).1 hmac
      unfold aggregationType at h1
      rcases h4 with h4 | h4 <;> rw [h4] at h1 <;> cases h1 <;> rcases h3 with rfl | rfl <;> simp_all
    rcases hcase with ⟨h1, rfl⟩ | ⟨h1, hx, -⟩
    · cases weighted with
      | true => cases hb
      | false =>
        simp only [macroComputation, Bool.false_eq_true, if_false, Body.macroAverage.injEq] at hb
        obtain ⟨rfl, rfl, rfl, rfl, rfl, rfl⟩ := hb
        exact ⟨s, hs, a', sk, _, ha', hkind _ ht (by simp [h1]) (by simp), rfl, hover, ⟨m, hm, rfl⟩, hmod, hout, rfl⟩
    · simp only [weightedComputations, labelWeights, List.mem_cons, List.not_mem_nil, or_false] at hx
      rcases hx with rfl | rfl
      · split at hb <;> cases hb
      · cases weighted with
        | false => cases hb
        | true =>
          simp only [if_true, Body.weightedMacroAverage.injEq] at hb
          obtain ⟨rfl, rfl, rfl, rfl, rfl, rfl⟩ := hb
          exact ⟨s, hs, a', sk, _, ha', hkind _ ht (by simp [h1]) (by simp), rfl, hover, ⟨m, hm, rfl⟩, hmod, hout, rfl⟩
  · split at hb <;> cases hb

private theorem metricComputations_total {m : Metric B S T} (hm : ∀ c, ∃ xs, m.create c = .ok xs) (name : String) (models outputs : List String)
    (sks : List (Option SubKey)) (agg : Option AggregationType) (cw : Option (Dict ℤ ℚ)) (ew : Bool) (query : String)
    (h1 : m.classWeightsArg = true ∨ Aggregation.noWeights cw = true) (h2 : m.exampleWeightedArg = true ∨ ew = false) :
    ∃ r, metricComputations m name models outputs sks agg cw ew query = .ok r := by
  refine flatMapE_total fun model _ => flatMapE_total fun output _ => flatMapE_total fun sk _ => ?_
  obtain ⟨xs, hx⟩ := hm ⟨name, model, output, sk, agg, cw, ew, query⟩
  have hv : validateArgs m ⟨name, model, output, sk, agg, cw, ew, query⟩ = .ok () := by
    unfold validateArgs
    rw [if_neg, if_neg]
    · rintro ⟨h3, h4⟩
      rcases h2 with h2 | h2
      · rw [h2] at h3; cases h3
      · simp only at h4; rw [h2] at h4; cases h4
    · rintro ⟨h3, h4⟩
      rcases h1 with h1 | h1
      · rw [h1] at h3; cases h3
      · simp only at h4; rw [h1] at h4; cases h4
  simp only [hv, hx, Except.map]
  exact ⟨_, rfl⟩

/-- **C83** and **C84**: specs are accepted if their k's are positive, output weights are given for outputs of the spec, class weights
are not given together with `top_k_list`, and macro averages have classes or ranks to average over. -/
theorem C83_accepted (models : List WeightSpec) (specs : List (Spec B S T)) (hm : ∀ s ∈ specs, ∀ m ∈ s.metrics, Flexible models specs m)
    (hs : ∀ s ∈ specs, Sound s) : ∃ cs, toComputations models specs = .ok cs := by
  have weights : ∀ s ∈ specs, ∀ subs t sks, createSubKeys s = .ok subs → (some t, sks) ∈ subs →
      ∃ a, s.aggregate = some a ∧ aggregationType a = some t ∧ aggregateKeys a = .ok sks ∧ Consistent a ∧
        ∃ cw, classWeights s = .ok cw ∧ cw.getD [] = a.classWeights := by
    intro s h1 subs t sks h2 h3
    obtain ⟨a, h4, h5, h6⟩ := aggregated h2 h3
    have hc := (hs s h1).2.2 a h4 (by unfold aggregationType at h5; intro hk; rw [hk] at h5; cases h5)
    exact ⟨a, h4, h5, h6, hc, _, (classWeights_eq h4).2 ⟨hc.1, rfl⟩, weights_getD _⟩
  have not_micro : ∀ {a : Aggregate} {t : AggregationType}, aggregationType a = some t → isMacro (some t) = true → a.kind ≠ some .micro := by
    intro a t h1 h2 h3
    rcases (isMacro_iff h1).1 h2 with h4 | h4 <;> rw [h4] at h3 <;> cases h3
  have hp : ∃ a, processSpecs models specs = .ok a := by
    refine flatMapE_total fun e he => flatMapE_total fun s hse => ?_
    obtain ⟨⟨s', hs', hm'⟩, hall⟩ := byConfig_sound he
    have hflex := hm s' hs' _ hm'
    have h1 := (hall s hse).1
    obtain ⟨subs, hsub⟩ := (C80_error s).2 (hs s h1).1
    have hew : ∀ ew ∈ weightOptions models s, e.2.1.exampleWeightedArg = true ∨ ew = false := by
      intro ew hew
      rcases hflex.2.2 with h | h
      · exact .inl h
      · right
        cases ew with
        | false => rfl
        | true => exact absurd ((C81_variants _ _ _).1 hew) (h s h1)
    unfold specComputations
    rw [hsub]
    refine flatMapE_total fun p hpm => ?_
    obtain ⟨agg, sks⟩ := p
    unfold aggregationComputations
    cases agg with
    | none =>
      simp only [weightsFor, Option.isSome_none, Bool.false_eq_true, if_false, bind, Except.bind, isMacro]
      exact flatMapE_total fun ew h => metricComputations_total hflex.1 _ _ _ _ _ _ _ _ (.inr rfl) (hew ew h)
    | some t =>
      obtain ⟨a, h4, h5, h6, hc, cw, hcw, hd⟩ := weights s h1 subs t sks hsub hpm
      simp only [weightsFor, Option.isSome_some, if_true, hcw, bind, Except.bind]
      by_cases hmac : isMacro (some t) = true
      · simp only [hmac, if_true]
        obtain ⟨ks, hks⟩ := flatMapE_total (f := fun sk => macroSubKeys sk cw) (l := sks) fun sk hsk =>
          macro_total h6 hsk (hc.2 (not_micro h5 hmac)) hd
        rw [hks]
        simp only
        split
        · exact ⟨_, rfl⟩
        · exact flatMapE_total fun ew h => metricComputations_total hflex.1 _ _ _ _ _ _ _ _ (.inr rfl) (hew ew h)
      · simp only [hmac, Bool.false_eq_true, if_false]
        have hmicro : a.kind = some .micro := by
          rcases hk : a.kind with - | - | - | -
          · unfold aggregationType at h5; rw [hk] at h5; cases h5
          · rfl
          · exact absurd ((isMacro_iff h5).2 (.inl hk)) hmac
          · exact absurd ((isMacro_iff h5).2 (.inr hk)) hmac
        refine flatMapE_total fun ew h => metricComputations_total hflex.1 _ _ _ _ _ _ _ _ ?_ (hew ew h)
        rcases hflex.2.1 with h' | h'
        · exact .inl h'
        · right
          have := h' s h1 a h4 hmicro
          rw [this] at hd
          cases cw with
          | none => rfl
          | some d => simp only [Option.getD_some] at hd; subst hd; rfl
  have hq : ∃ b, flatMapE (specAggregations models) specs = .ok b := by
    refine flatMapE_total fun s h1 => flatMapE_total fun ew _ => ?_
    obtain ⟨subs, hsub⟩ := (C80_error s).2 (hs s h1).1
    rw [hsub]
    refine flatMapE_total fun p hpm => ?_
    obtain ⟨agg, sks⟩ := p
    have hout : ¬ (s.outputWeights.any fun o => !decide (o.1 ∈ orEmpty s.outputNames)) = true := by
      simp only [List.any_eq_true, not_exists, not_and, Bool.not_eq_true, Bool.not_eq_false', decide_eq_true_eq]
      exact (hs s h1).2.1
    simp only [hout, if_false]
    refine flatMapE_total fun model _ => flatMapE_total fun sk hsk => flatMapE_total fun m _ => ?_
    unfold metricAggregations
    cases agg with
    | none => exact ⟨_, rfl⟩
    | some t =>
      obtain ⟨a, h4, h5, h6, hc, cw, hcw, hd⟩ := weights s h1 subs t sks hsub hpm
      by_cases hmac : isMacro (some t) = true
      · obtain ⟨ms, hms⟩ := macro_total (cw := some (cw.getD [])) h6 hsk (hc.2 (not_micro h5 hmac)) hd
        have hms' : ∃ r, flatMapE (fun output => do
            let sks ← macroSubKeys sk (some (cw.getD []))
            return if t.macroAvg = some true then [macroComputation m.name model output sk sks (cw.getD []) ew]
              else weightedComputations m.name model output sk sks (cw.getD []) ew) (orEmpty s.outputNames) =
            (.ok r : Except Err (List (Computation (Body B)))) :=
          flatMapE_total fun output _ => by rw [hms]; exact ⟨_, rfl⟩
        obtain ⟨r, hr⟩ := hms'
        simp only [hmac, if_true, hcw, bind, Except.bind] at hr ⊢
        rw [hr]
        exact ⟨_, rfl⟩
      · simp only [hmac, Bool.false_eq_true, if_false, bind, Except.bind]
        exact ⟨_, rfl⟩
  obtain ⟨a, ha⟩ := hp
  obtain ⟨b, hb⟩ := hq
  exact ⟨a ++ b, by simp [toComputations, ha, hb, bind, Except.bind, pure, Except.pure]⟩

/-- **C83** and **C84**: specs with metrics, in some variant, are rejected otherwise. -/
theorem C83_rejected (models : List WeightSpec) (specs : List (Spec B S T)) (cs : List (Computation (Body B)))
    (h : toComputations models specs = .ok cs) (s : Spec B S T) (hs : s ∈ specs) (hm : s.metrics ≠ []) (hw : ∃ ew, Variant models s ew) :
    Sound s := by
  obtain ⟨p, b, hp, hb, rfl⟩ := toComputations_ok h
  obtain ⟨m, hm⟩ := List.exists_mem_of_ne_nil _ hm
  have hpos : Positive s := by
    by_contra hn
    obtain ⟨e, he1, he2, -⟩ := byConfig_complete hs hm
    obtain ⟨r1, h1⟩ := (flatMapE_ok hp).1 e he1
    obtain ⟨r2, h2⟩ := (flatMapE_ok h1).1 s he2
    unfold specComputations at h2
    rw [(C80_error s).1 hn] at h2
    cases h2
  obtain ⟨subs, hsub⟩ := (C80_error s).2 hpos
  obtain ⟨ew, hew⟩ := hw
  rw [← C81_variants] at hew
  refine ⟨hpos, ?_, ?_⟩
  · obtain ⟨r1, h1⟩ := (flatMapE_ok hb).1 s hs
    obtain ⟨r2, h2⟩ := (flatMapE_ok h1).1 ew hew
    rw [hsub] at h2
    simp only [bind, Except.bind] at h2
    have hne : subs ≠ [] := by
      rintro rfl
      unfold createSubKeys at hsub
      cases hbp : binarizePart s.binarize with
      | error e => rw [hbp] at hsub; cases hsub
      | ok r =>
        rw [hbp] at hsub
        simp only at hsub
        cases hag : s.aggregate with
        | none =>
          rw [hag] at hsub
          simp only [Except.ok.injEq] at hsub
          split at hsub
          · cases hsub
          · rename_i hr; simp [hsub] at hr
        | some a =>
          rw [hag] at hsub
          simp only at hsub
          cases hk : aggregateKeys a with
          | error e => rw [hk] at hsub; cases hsub
          | ok ks =>
            rw [hk] at hsub
            simp only [Except.ok.injEq] at hsub
            have := Dict.get?_set_self r (aggregationType a) ks
            rw [hsub] at this
            cases this
    obtain ⟨e, he⟩ := List.exists_mem_of_ne_nil _ hne
    obtain ⟨r3, h3⟩ := (flatMapE_ok h2).1 e he
    split at h3
    · cases h3
    · rename_i hout
      intro o ho
      simp only [List.any_eq_true, not_exists, not_and, Bool.not_eq_true, Bool.not_eq_false', decide_eq_true_eq] at hout
      exact hout o ho
  · intro a ha hk
    obtain ⟨t, ht⟩ : ∃ t, aggregationType a = some t := by
      unfold aggregationType
      rcases hk' : a.kind with - | - | - | -
      · exact absurd hk' hk
      all_goals exact ⟨_, rfl⟩
    obtain ⟨ks, hks, hmem⟩ : ∃ ks, aggregateKeys a = .ok ks ∧ (some t, ks) ∈ subs := by
      unfold createSubKeys at hsub
      cases hbp : binarizePart s.binarize with
      | error e => rw [hbp] at hsub; cases hsub
      | ok r =>
        rw [hbp, ha] at hsub
        simp only at hsub
        cases hks : aggregateKeys a with
        | error e => rw [hks] at hsub; cases hsub
        | ok ks =>
          rw [hks] at hsub
          simp only [Except.ok.injEq] at hsub
          subst hsub
          exact ⟨ks, rfl, Dict.mem_of_get? (by rw [ht, Dict.get?_set_self])⟩
    obtain ⟨e, he1, he2, -⟩ := byConfig_complete hs hm
    obtain ⟨r1, h1⟩ := (flatMapE_ok hp).1 e he1
    obtain ⟨r2, h2⟩ := (flatMapE_ok h1).1 s he2
    unfold specComputations at h2
    rw [hsub] at h2
    simp only [bind, Except.bind] at h2
    obtain ⟨r3, h3⟩ := (flatMapE_ok h2).1 _ hmem
    simp only at h3
    unfold aggregationComputations at h3
    cases hcw : classWeights s with
    | error e => simp [weightsFor, hcw, bind, Except.bind] at h3
    | ok cw =>
      obtain ⟨hc1, hc2⟩ := (classWeights_eq ha).1 hcw
      refine ⟨hc1, fun hmicro htop hempty => ?_⟩
      rw [hempty, if_pos rfl] at hc2
      subst hc2
      have hmac : isMacro (some t) = true := by
        rw [isMacro_iff ht]
        rcases hk' : a.kind with - | - | - | - <;> simp_all
      obtain ⟨-, rfl⟩ := aggregateKeys_eq hks
      simp [weightsFor, hcw, bind, Except.bind, hmac, htop, flatMapE, macroSubKeys] at h3

/-! ### Non-vacuity -/

private def topSpec : Spec Unit String ℕ :=
  { metrics := [{ name := "auc", config := "AUC", create := fun c => .ok [⟨.metric, "Auc", [c.key], [], ()⟩] }],
    aggregate := some { kind := some .macroAvg, topK := some [2] } }

/-- A macro average over the two best classes: sound, and computed from the ranks 1 and 2. -/
example : Sound topSpec ∧ (∀ m ∈ topSpec.metrics, Flexible [] [topSpec] m) ∧ (toComputations [] [topSpec]).map (List.map fun c => c.keys) = .ok [
    [⟨"_auc", "", "", some ⟨none, some 1, none⟩, none, some false, false⟩],
    [⟨"_auc", "", "", some ⟨none, some 2, none⟩, none, some false, false⟩],
    [⟨"auc", "", "", some ⟨none, none, some 2⟩, some ⟨none, some true, none⟩, some false, false⟩]] := by
  refine ⟨⟨⟨by simp [topSpec], ?_⟩, by simp [topSpec], ?_⟩, ?_, by decide +kernel⟩
  · intro a l h1 h2
    cases h1
    cases h2
    simp
  · intro a h1 _
    cases h1
    exact ⟨fun _ => rfl, fun _ h => by cases h⟩
  · intro m hm
    simp only [topSpec, List.mem_singleton] at hm
    subst hm
    exact ⟨fun c => ⟨_, rfl⟩, .inl rfl, .inl rfl⟩

/-- Class weights together with `top_k_list` are rejected. -/
example : (toComputations [] [{ topSpec with aggregate := some { kind := some .macroAvg, classWeights := [(1, 1)], topK := some [2] } }]).toOption
    = none := by
  decide +kernel

end MetricSpecs
end TFMA
