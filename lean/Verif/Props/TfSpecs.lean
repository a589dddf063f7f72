import Verif.Model.TfSpecs
import Verif.Props.MacroSpecs
import Verif.Props.TfMetricKeys

/-!
# C120: Keras metrics and losses of metrics specs
-/

namespace TFMA
namespace TfSpecs

open MetricKeys MetricSpecs

variable {W V B S T C : Type}

/-! ### What is asked for -/

/-- The same metric under another name, private unless it already is. -/
def PrivateCopy (m m' : TfMetrics.Metric W V) : Prop :=
  m' = { m with name := m'.name } ∧
    ((∃ rest, m.name.toList = '_' :: rest) → m'.name = m.name) ∧ ((¬ ∃ rest, m.name.toList = '_' :: rest) → m'.name = "_" ++ m.name)

/-- The spec binarizes with the sub key. -/
def Binarized (s : Spec B S T) (sk : Option SubKey) : Prop := ∃ b k, s.binarize = some b ∧ sk = some k ∧ b.Asks k

/-- What a Keras model has to be run for: a model, a sub key, an aggregation with class weights, with or without example weights; and
the metrics it has to have for an output.  These are the metrics of a spec for the sub keys it asks for, for micro averages with the
class weights; and for macro averages the metrics for what they are averaged over, under a private name unless it is asked for anyway. -/
inductive Needs (models : List WeightSpec) (specs : List (Spec B S T × List (TfMetrics.Metric W V))) (model : String) (ew : Bool)
    (output : String) : Option SubKey → Option AggregationType → Dict ℤ ℚ → TfMetrics.Metric W V → Prop where
  | plain {s : Spec B S T} {ms : List (TfMetrics.Metric W V)} {m : TfMetrics.Metric W V} {sk : Option SubKey} : (s, ms) ∈ specs → m ∈ ms →
      Names s.modelNames model → Names s.outputNames output → Variant models s ew → Asks s none sk → Needs models specs model ew output sk none [] m
  | micro {s : Spec B S T} {ms : List (TfMetrics.Metric W V)} {m : TfMetrics.Metric W V} {a : Aggregate} {sk : Option SubKey} :
      (s, ms) ∈ specs → m ∈ ms → Names s.modelNames model → Names s.outputNames output → Variant models s ew → s.aggregate = some a →
      a.kind = some .micro → a.Asks sk → Needs models specs model ew output sk (some ⟨some true, none, none⟩) a.classWeights m
  | part {s : Spec B S T} {ms : List (TfMetrics.Metric W V)} {m m' : TfMetrics.Metric W V} {a : Aggregate} {sub sk : Option SubKey}
      {sks : List (Option SubKey)} {d : Dict ℤ ℚ} : (s, ms) ∈ specs → m ∈ ms → Names s.modelNames model → Names s.outputNames output →
      Variant models s ew → s.aggregate = some a → (a.kind = some .macroAvg ∨ a.kind = some .weighted) → a.Asks sub →
      AveragedOver a sub sks d → sk ∈ sks → (Binarized s sk → m' = m) → (¬ Binarized s sk → PrivateCopy m m') →
      Needs models specs model ew output sk none [] m'

/-- A run has the metric for the output. -/
def Run.Has (r : Run W V) (output : String) (m : TfMetrics.Metric W V) : Prop := ∃ l, (output, l) ∈ r.metrics ∧ m ∈ l

/-- The specs do not combine a binarization with an aggregation that has no type (see C80). -/
def Typed (specs : List (Spec B S T × List (TfMetrics.Metric W V))) : Prop :=
  ∀ p ∈ specs, ∀ a b, p.1.aggregate = some a → p.1.binarize = some b → a.kind = none → ∀ sk, ¬ b.Asks sk

/-! ### Helpers -/

private theorem insertWeight_perm (x : ℤ × ℚ) (l : List (ℤ × ℚ)) : (insertWeight x l).Perm (x :: l) := by
  induction l with
  | nil => exact List.Perm.refl _
  | cons y ys ih =>
    unfold insertWeight
    split
    · exact List.Perm.refl _
    · exact (ih.cons y).trans (List.Perm.swap x y ys)

private theorem sortedWeights_perm (l : List (ℤ × ℚ)) : (sortedWeights l).Perm l := by
  induction l with
  | nil => exact List.Perm.refl _
  | cons x xs ih => exact (insertWeight_perm x _).trans (ih.cons x)

private theorem private_iff (m m' : TfMetrics.Metric W V) : PrivateCopy m m' ↔ m' = privateTf m := by
  unfold PrivateCopy privateTf privateName
  constructor
  · rintro ⟨h1, h2, h3⟩
    rw [h1]
    congr 1
    split
    · rename_i rest he
      exact h2 ⟨rest, he⟩
    · rename_i hne
      exact h3 fun ⟨rest, he⟩ => hne rest he
  · rintro rfl
    refine ⟨rfl, ?_, ?_⟩
    · rintro ⟨rest, he⟩
      simp only [he]
    · intro hne
      simp only
      split
      · rename_i rest he
        exact absurd ⟨rest, he⟩ hne
      · rfl

/-- The pairs of metric and output in a group. -/
private def In (d : ByOutput W V) (o : String) (m : TfMetrics.Metric W V) : Prop := m ∈ (Dict.get? d o).getD []

private theorem in_append (d : ByOutput W V) (o o' : String) (m m' : TfMetrics.Metric W V) :
    In (append d o m) o' m' ↔ In d o' m' ∨ (o' = o ∧ m' = m) := by
  unfold In append
  rw [Dict.get?_set]
  split
  · rename_i h
    subst h
    simp [eq_comm]
  · rename_i h
    constructor
    · exact Or.inl
    · rintro (h' | ⟨rfl, -⟩)
      · exact h'
      · exact absurd rfl h

/-- The metrics of a group in one variant. -/
private def pick (g : ByOutput W V × ByOutput W V) (ew : Bool) : ByOutput W V := if ew then g.1 else g.2

private theorem in_variant (g : ByOutput W V × ByOutput W V) (o o' : String) (m m' : TfMetrics.Metric W V) (ew ew' : Bool) :
    In (pick (addVariant o m g ew) ew') o' m' ↔ In (pick g ew') o' m' ∨ (o' = o ∧ m' = m ∧ ew' = ew) := by
  cases ew <;> cases ew' <;> simp [pick, addVariant, in_append]

private theorem in_variants (l : List Bool) (g : ByOutput W V × ByOutput W V) (o o' : String) (m m' : TfMetrics.Metric W V) (ew' : Bool) :
    In (pick (l.foldl (addVariant o m) g) ew') o' m' ↔ In (pick g ew') o' m' ∨ (o' = o ∧ m' = m ∧ ew' ∈ l) := by
  induction l generalizing g with
  | nil => simp
  | cons x xs ih =>
    rw [List.foldl_cons, ih, in_variant]
    simp only [List.mem_cons]
    constructor
    · rintro ((h | ⟨h1, h2, h3⟩) | ⟨h1, h2, h3⟩)
      · exact .inl h
      · exact .inr ⟨h1, h2, .inl h3⟩
      · exact .inr ⟨h1, h2, .inr h3⟩
    · rintro (h | ⟨h1, h2, h3 | h3⟩)
      · exact .inl (.inl h)
      · exact .inl (.inr ⟨h1, h2, h3⟩)
      · exact .inr ⟨h1, h2, h3⟩

private theorem in_entry (ms : List (TfMetrics.Metric W V)) (l : List Bool) (g : ByOutput W V × ByOutput W V) (o o' : String)
    (m' : TfMetrics.Metric W V) (ew' : Bool) :
    In (pick (ms.foldl (fun g m => l.foldl (addVariant o m) g) g) ew') o' m' ↔ In (pick g ew') o' m' ∨ (o' = o ∧ m' ∈ ms ∧ ew' ∈ l) := by
  induction ms generalizing g with
  | nil => simp
  | cons x xs ih =>
    rw [List.foldl_cons, ih, in_variants]
    simp only [List.mem_cons]
    constructor
    · rintro ((h | ⟨h1, h2, h3⟩) | ⟨h1, h2, h3⟩)
      · exact .inl h
      · exact .inr ⟨h1, .inl h2, h3⟩
      · exact .inr ⟨h1, .inr h2, h3⟩
    · rintro (h | ⟨h1, h2 | h2, h3⟩)
      · exact .inl (.inl h)
      · exact .inl (.inr ⟨h1, h2, h3⟩)
      · exact .inr ⟨h1, h2, h3⟩

private theorem in_fold (es : List (Entry W V)) (d : Dict UniqueArgs (ByOutput W V × ByOutput W V)) (a : UniqueArgs) (o : String)
    (m : TfMetrics.Metric W V) (ew : Bool) :
    In (pick ((Dict.get? (es.foldl addEntry d) a).getD ([], [])) ew) o m ↔
      In (pick ((Dict.get? d a).getD ([], [])) ew) o m ∨ ∃ e ∈ es, e.args = a ∧ e.output = o ∧ m ∈ e.metrics ∧ ew ∈ e.options := by
  induction es generalizing d with
  | nil => simp
  | cons e es ih =>
    rw [List.foldl_cons, ih]
    have : In (pick ((Dict.get? (addEntry d e) a).getD ([], [])) ew) o m ↔
        In (pick ((Dict.get? d a).getD ([], [])) ew) o m ∨ (e.args = a ∧ e.output = o ∧ m ∈ e.metrics ∧ ew ∈ e.options) := by
      unfold addEntry
      rw [Dict.get?_set]
      split
      · rename_i h
        subst h
        rw [Option.getD_some, in_entry]
        simp [eq_comm]
      · rename_i h
        constructor
        · exact Or.inl
        · rintro (h' | ⟨h', -⟩)
          · exact h'
          · exact absurd h' h
    rw [this]
    simp only [List.mem_cons, exists_eq_or_imp, or_assoc]

private theorem wf_fold (es : List (Entry W V)) (d : Dict UniqueArgs (ByOutput W V × ByOutput W V)) (h : Dict.WF d) :
    Dict.WF (es.foldl addEntry d) := by
  induction es generalizing d with
  | nil => exact h
  | cons e es ih => exact ih _ (Dict.WF_set h _ _)

private theorem wf_append {d : ByOutput W V} (h : Dict.WF d) (o : String) (m : TfMetrics.Metric W V) : Dict.WF (append d o m) :=
  Dict.WF_set h _ _

private theorem wf_groups (es : List (Entry W V)) (d : Dict UniqueArgs (ByOutput W V × ByOutput W V))
    (h : ∀ p ∈ d, Dict.WF p.2.1 ∧ Dict.WF p.2.2) (hd : Dict.WF d) :
    ∀ p ∈ es.foldl addEntry d, Dict.WF p.2.1 ∧ Dict.WF p.2.2 := by
  induction es generalizing d with
  | nil => exact h
  | cons e es ih =>
    refine ih _ ?_ (Dict.WF_set hd _ _)
    intro p hp
    have hg := Dict.get?_of_mem (Dict.WF_set hd _ _) hp
    have hg : Dict.get? (Dict.set d e.args (e.metrics.foldl (fun g m => e.options.foldl (addVariant e.output m) g)
        ((Dict.get? d e.args).getD ([], [])))) p.1 = some p.2 := hg
    rw [Dict.get?_set] at hg
    split at hg
    · have h0 : Dict.WF ((Dict.get? d e.args).getD ([], [])).1 ∧ Dict.WF ((Dict.get? d e.args).getD ([], [])).2 := by
        cases hx : Dict.get? d e.args with
        | none => exact ⟨Dict.WF_nil, Dict.WF_nil⟩
        | some g => exact h _ (Dict.mem_of_get? hx)
      simp only [Option.some.injEq] at hg
      rw [← hg]
      have hv : ∀ (l : List Bool) m (g : ByOutput W V × ByOutput W V), Dict.WF g.1 ∧ Dict.WF g.2 →
          Dict.WF (l.foldl (addVariant e.output m) g).1 ∧ Dict.WF (l.foldl (addVariant e.output m) g).2 := by
        intro l m
        induction l with
        | nil => intro g hg; exact hg
        | cons x xs ihx =>
          intro g hg
          refine ihx _ ?_
          unfold addVariant
          split
          · exact ⟨wf_append hg.1 _ _, hg.2⟩
          · exact ⟨hg.1, wf_append hg.2 _ _⟩
      have hm : ∀ (ms : List (TfMetrics.Metric W V)) (g : ByOutput W V × ByOutput W V), Dict.WF g.1 ∧ Dict.WF g.2 →
          Dict.WF (ms.foldl (fun g m => e.options.foldl (addVariant e.output m) g) g).1 ∧
            Dict.WF (ms.foldl (fun g m => e.options.foldl (addVariant e.output m) g) g).2 := by
        intro ms
        induction ms with
        | nil => intro g hg; exact hg
        | cons x xs ihx => intro g hg; exact ihx _ (hv _ _ _ hg)
      exact hm _ _ h0
    · exact h p (Dict.mem_of_get? hg)

/-- The runs of the groups. -/
private theorem mem_runs {d : Dict UniqueArgs (ByOutput W V × ByOutput W V)} {r : Run W V} :
    (r ∈ d.flatMap fun p => runOf p.1 true p.2.1 ++ runOf p.1 false p.2.2) ↔
      ∃ p ∈ d, ∃ ew, pick p.2 ew ≠ [] ∧
        r = ⟨{ modelName := p.1.model, subKey := p.1.subKey, aggregation := p.1.aggregation, exampleWeighted := ew }, p.1.weights, pick p.2 ew⟩ := by
  simp only [List.mem_flatMap, List.mem_append]
  have key : ∀ (a : UniqueArgs) ew (ms : ByOutput W V), r ∈ runOf a ew ms ↔ ms ≠ [] ∧
      r = ⟨{ modelName := a.model, subKey := a.subKey, aggregation := a.aggregation, exampleWeighted := ew }, a.weights, ms⟩ := by
    intro a ew ms
    unfold runOf
    cases ms <;> simp
  simp only [key]
  constructor
  · rintro ⟨p, hp, h | h⟩
    · exact ⟨p, hp, true, h⟩
    · exact ⟨p, hp, false, h⟩
  · rintro ⟨p, hp, ew, h⟩
    cases ew
    · exact ⟨p, hp, .inr h⟩
    · exact ⟨p, hp, .inl h⟩

private theorem weights_inj {a b : UniqueArgs} (h : a.weights = b.weights) : a.classWeights = b.classWeights := by
  unfold UniqueArgs.weights at h
  split at h <;> split at h
  · rename_i h1 h2
    rw [List.isEmpty_iff.1 h1, List.isEmpty_iff.1 h2]
  · cases h
  · cases h
  · exact Option.some.inj h

private theorem weights_getD' (a : UniqueArgs) : a.weights.getD [] = a.classWeights := by
  unfold UniqueArgs.weights
  split
  · rename_i h; rw [List.isEmpty_iff.1 h]; rfl
  · rfl

/-- A run in terms of the entries. -/
private theorem has_iff_entry {es : List (Entry W V)} {model : String} {sk : Option SubKey} {agg : Option AggregationType}
    {ew : Bool} {o : String} {m : TfMetrics.Metric W V} (cw : List (ℤ × ℚ)) :
    (∃ r ∈ (es.foldl addEntry []).flatMap fun p => runOf p.1 true p.2.1 ++ runOf p.1 false p.2.2,
      r.request = { modelName := model, subKey := sk, aggregation := agg, exampleWeighted := ew } ∧ r.classWeights.getD [] = cw ∧
        r.Has o m) ↔
    ∃ e ∈ es, e.args = ⟨model, sk, agg, cw⟩ ∧ e.output = o ∧ m ∈ e.metrics ∧ ew ∈ e.options := by
  have hwf := wf_fold es ([] : Dict UniqueArgs (ByOutput W V × ByOutput W V)) Dict.WF_nil
  have hwg := wf_groups es ([] : Dict UniqueArgs (ByOutput W V × ByOutput W V)) (by simp) Dict.WF_nil
  have hin := in_fold es ([] : Dict UniqueArgs (ByOutput W V × ByOutput W V)) ⟨model, sk, agg, cw⟩ o m ew
  have hnil : ¬ In (pick ((Dict.get? ([] : Dict UniqueArgs (ByOutput W V × ByOutput W V)) ⟨model, sk, agg, cw⟩).getD ([], [])) ew) o m := by
    cases ew <;> simp [In, pick, Dict.get?]
  rw [or_iff_right hnil] at hin
  rw [← hin]
  constructor
  · rintro ⟨r, hr, h1, h2, l, hl, hm⟩
    obtain ⟨p, hp, ew', hne, rfl⟩ := mem_runs.1 hr
    obtain ⟨⟨model', sk', agg', cw'⟩, g⟩ := p
    simp only [TfMetrics.Request.mk.injEq] at h1
    obtain ⟨rfl, rfl, rfl, rfl, -⟩ := h1
    simp only at h2
    rw [weights_getD'] at h2
    simp only at h2
    subst h2
    rw [Dict.get?_of_mem hwf hp]
    unfold In
    have hw : Dict.WF (pick g ew') := by cases ew'; exact (hwg _ hp).2; exact (hwg _ hp).1
    rw [Option.getD_some, Dict.get?_of_mem hw hl]
    exact hm
  · intro h
    cases hg : Dict.get? (es.foldl addEntry []) (⟨model, sk, agg, cw⟩ : UniqueArgs) with
    | none => rw [hg] at h; cases ew <;> simp [In, pick, Dict.get?] at h
    | some g =>
      rw [hg, Option.getD_some] at h
      unfold In at h
      cases hl : Dict.get? (pick g ew) o with
      | none => rw [hl] at h; simp at h
      | some l =>
        rw [hl] at h
        refine ⟨_, mem_runs.2 ⟨_, Dict.mem_of_get? hg, ew, ?_, rfl⟩, rfl, weights_getD' _, l, Dict.mem_of_get? hl, h⟩
        intro h0
        rw [h0] at hl
        simp [Dict.get?] at hl

private theorem createSubKeys_wf {s : Spec B S T} {subs : SubKeys} (h : createSubKeys s = .ok subs) : Dict.WF subs := by
  unfold createSubKeys at h
  cases hb : binarizePart s.binarize with
  | error e => rw [hb] at h; cases h
  | ok r =>
    have hwf : Dict.WF r := by
      unfold binarizePart at hb
      cases hbb : s.binarize with
      | none => rw [hbb] at hb; cases hb; exact Dict.WF_nil
      | some b =>
        rw [hbb] at hb
        simp only at hb
        cases hk : binarizeKeys b with
        | error e => rw [hk] at hb; cases hb
        | ok ks =>
          rw [hk] at hb
          simp only [Except.ok.injEq] at hb
          subst hb
          split <;> simp [Dict.WF, Dict.keys]
    rw [hb] at h
    simp only at h
    cases ha : s.aggregate with
    | none =>
      rw [ha] at h
      simp only [Except.ok.injEq] at h
      subst h
      split
      · simp [Dict.WF, Dict.keys]
      · exact hwf
    | some a =>
      rw [ha] at h
      simp only at h
      cases hk : aggregateKeys a with
      | error e => rw [hk] at h; cases h
      | ok ks =>
        rw [hk] at h
        simp only [Except.ok.injEq] at h
        subst h
        exact Dict.WF_set hwf _ _

private theorem mem_shared {s : Spec B S T} {subs : SubKeys} (h : createSubKeys s = .ok subs) (sk : Option SubKey) :
    sk ∈ (Dict.get? subs none).getD [] ↔ Pairs subs none sk := by
  have hwf := createSubKeys_wf h
  unfold Pairs
  constructor
  · intro hm
    cases hg : Dict.get? subs none with
    | none => rw [hg] at hm; simp at hm
    | some l => rw [hg] at hm; exact ⟨l, Dict.mem_of_get? hg, hm⟩
  · rintro ⟨l, hl, hm⟩
    rw [Dict.get?_of_mem hwf hl]
    exact hm

private theorem asks_binarized {s : Spec B S T} {a : Aggregate} (ha : s.aggregate = some a) (hk : a.kind ≠ none) (sk : Option SubKey) :
    Asks s none sk ↔ Binarized s sk := by
  constructor
  · intro h
    cases h with
    | binarize h1 h2 => exact ⟨_, _, h1, rfl, h2⟩
    | aggregate h1 h2 h3 =>
      rw [ha] at h1
      cases h1
      exact absurd h2 hk
    | plain h1 => rw [ha] at h1; cases h1
  · rintro ⟨b, k, h1, rfl, h2⟩
    exact .binarize h1 h2

private theorem over_weights {a : Aggregate} {sub : Option SubKey} {sks : List (Option SubKey)} {d : Dict ℤ ℚ} (h : AveragedOver a sub sks d)
    {sks' : List (Option SubKey)} {d' : Dict ℤ ℚ} (h' : AveragedOver a sub sks' d') : sks = sks' := by
  rcases h with ⟨h1, h2, -, h4⟩ | ⟨l, t, h1, h2, h3, -, h5⟩ <;> rcases h' with ⟨g1, g2, -, g4⟩ | ⟨l', t', g1, g2, g3, -, g5⟩
  · rw [h4, g4]
  · rw [h2] at g3; cases g3
  · rw [h3] at g2; cases g2
  · rw [h3] at g3; cases g3
    rw [h5, g5]

private theorem of_entry {models : List WeightSpec} {s : Spec B S T} {ms : List (TfMetrics.Metric W V)} {es : List (Entry W V)}
    {specs : List (Spec B S T × List (TfMetrics.Metric W V))} (hs : (s, ms) ∈ specs) (ht : Typed specs) (h : specEntries models (s, ms) = .ok es)
    {e : Entry W V} (he : e ∈ es) {m : TfMetrics.Metric W V} (hm : m ∈ e.metrics) {ew : Bool} (hew : ew ∈ e.options) :
    ∃ d, Needs models specs e.args.model ew e.output e.args.subKey e.args.aggregation d m ∧ e.args.classWeights.Perm d := by
  unfold specEntries at h
  cases hsub : createSubKeys s with
  | error x => simp only [hsub] at h; cases h
  | ok subs =>
    have hpos : Positive s := by
      by_contra hn
      rw [(C80_error s).1 hn] at hsub
      cases hsub
    obtain ⟨subs', hsub', hpairs⟩ := C80_sub_keys_partial s hpos (ht _ hs)
    rw [hsub] at hsub'
    cases hsub'
    simp only [hsub] at h
    obtain ⟨⟨agg, parents⟩, hp, es', hagg, he⟩ := (mem_flatMapE h _).1 he
    unfold aggregationEntries at hagg
    cases agg with
    | none =>
      simp only [weightsFor, Option.isSome_none, Bool.false_eq_true, if_false, isMacro, Except.ok.injEq] at hagg
      subst hagg
      simp only [List.mem_flatMap, List.mem_map] at he
      obtain ⟨sk, hsk, o, ho, model, hmod, rfl⟩ := he
      exact ⟨[], .plain hs hm ((mem_orEmpty _ _).1 hmod) ((mem_orEmpty _ _).1 ho) ((C81_variants _ _ _).1 hew) ((hpairs _ _).1 ⟨_, hp, hsk⟩),
        List.Perm.refl _⟩
    | some t =>
      obtain ⟨a, ha, hty, hkeys⟩ := aggregated hsub hp
      have hkind : a.kind ≠ none := by
        intro hk
        unfold aggregationType at hty
        rw [hk] at hty
        cases hty
      simp only [weightsFor, Option.isSome_some, if_true] at hagg
      cases hcw : classWeights s with
      | error x => rw [hcw] at hagg; cases hagg
      | ok cw =>
        rw [hcw] at hagg
        simp only at hagg
        obtain ⟨hw, rfl⟩ := (classWeights_eq ha).1 hcw
        have hasks : ∀ sk ∈ parents, a.Asks sk := by
          intro sk hsk
          have := (hpairs (some t) sk).1 ⟨_, hp, hsk⟩
          cases this with
          | aggregate h1 h2 h3 => rw [ha] at h1; cases h1; exact h3
        split at hagg
        · rename_i hmac
          obtain ⟨sub, hsubm, es'', hch, he⟩ := (mem_flatMapE hagg _).1 he
          cases hmk : macroSubKeys sub (if a.classWeights = [] then none else some a.classWeights) with
          | error x => rw [hmk] at hch; cases hch
          | ok children =>
            rw [hmk] at hch
            simp only [Except.ok.injEq] at hch
            subst hch
            simp only [List.mem_flatMap, List.mem_map] at he
            obtain ⟨o, ho, sk, hsk, model, hmod, rfl⟩ := he
            have hmk' : macroSubKeys sub (some a.classWeights) = .ok children := by
              by_cases hc : a.classWeights = []
              · rw [if_pos hc] at hmk
                rw [hc]
                cases sub with
                | none => simp [macroSubKeys] at hmk
                | some x => simpa [macroSubKeys] using hmk
              · rwa [if_neg hc] at hmk
            have hover := macro_over hkeys hsubm hw hmk'
            have hsh : sk ∈ (Dict.get? subs none).getD [] ↔ Binarized s sk := by
              rw [mem_shared hsub, hpairs, asks_binarized ha hkind]
            have hneed : ∀ m0 ∈ ms, (Binarized s sk → m = m0) → (¬ Binarized s sk → PrivateCopy m0 m) →
                Needs models specs model ew o sk none [] m := fun m0 h0 h1 h2 =>
              .part hs h0 ((mem_orEmpty _ _).1 hmod) ((mem_orEmpty _ _).1 ho) ((C81_variants _ _ _).1 hew) ha
                ((isMacro_iff hty).1 hmac) (hasks _ hsubm) hover hsk h1 h2
            refine ⟨[], ?_, List.Perm.refl _⟩
            simp only at hm
            by_cases hb : Binarized s sk
            · rw [if_pos (hsh.2 hb)] at hm
              exact hneed m hm (fun _ => rfl) (fun h => absurd hb h)
            · rw [if_neg (fun h => hb (hsh.1 h))] at hm
              obtain ⟨m0, h0, rfl⟩ := List.mem_map.1 hm
              exact hneed m0 h0 (fun h => absurd h hb) (fun _ => (private_iff _ _).2 rfl)
        · rename_i hmac
          simp only [Except.ok.injEq] at hagg
          subst hagg
          simp only [List.mem_flatMap, List.mem_map] at he
          obtain ⟨sk, hsk, o, ho, model, hmod, rfl⟩ := he
          have hmicro : a.kind = some .micro := by
            rcases hk : a.kind with - | - | - | -
            · exact absurd hk hkind
            · rfl
            · exact absurd ((isMacro_iff hty).2 (.inl hk)) hmac
            · exact absurd ((isMacro_iff hty).2 (.inr hk)) hmac
          have hty' : t = ⟨some true, none, none⟩ := by
            unfold aggregationType at hty
            rw [hmicro] at hty
            cases hty
            rfl
          subst hty'
          refine ⟨a.classWeights, .micro hs hm ((mem_orEmpty _ _).1 hmod) ((mem_orEmpty _ _).1 ho) ((C81_variants _ _ _).1 hew) ha hmicro
            (hasks _ hsk), ?_⟩
          rw [weights_getD]
          exact sortedWeights_perm _

private theorem entry_of {models : List WeightSpec} {specs : List (Spec B S T × List (TfMetrics.Metric W V))} {es : List (Entry W V)}
    (ht : Typed specs) (h : flatMapE (specEntries models) specs = .ok es) {model : String} {ew : Bool} {o : String} {sk : Option SubKey}
    {agg : Option AggregationType} {d : Dict ℤ ℚ} {m : TfMetrics.Metric W V} (hn : Needs models specs model ew o sk agg d m) :
    ∃ cw, cw.Perm d ∧ ∃ e ∈ es, e.args = ⟨model, sk, agg, cw⟩ ∧ e.output = o ∧ m ∈ e.metrics ∧ ew ∈ e.options := by
  have spec : ∀ s ms, (s, ms) ∈ specs → ∃ subs es', createSubKeys s = .ok subs ∧ (∀ t sk, Pairs subs t sk ↔ Asks s t sk) ∧
      flatMapE (fun e => aggregationEntries models s ms ((Dict.get? subs none).getD []) e.1 e.2) subs = .ok es' ∧ ∀ e ∈ es', e ∈ es := by
    intro s ms hs
    obtain ⟨es', he⟩ := (flatMapE_ok h).1 _ hs
    have he0 := he
    unfold specEntries at he
    cases hsub : createSubKeys s with
    | error x => simp only [hsub] at he; cases he
    | ok subs =>
      have hpos : Positive s := by
        by_contra hn
        rw [(C80_error s).1 hn] at hsub
        cases hsub
      obtain ⟨subs', hsub', hpairs⟩ := C80_sub_keys_partial s hpos (ht _ hs)
      rw [hsub] at hsub'
      cases hsub'
      simp only [hsub] at he
      exact ⟨subs, es', rfl, hpairs, he, fun e hx => (mem_flatMapE h e).2 ⟨_, hs, es', he0, hx⟩⟩
  cases hn with
  | @plain s ms _ _ hs hm h1 h2 h3 h4 =>
    obtain ⟨subs, es', hsub, hpairs, hes, hin⟩ := spec s ms hs
    obtain ⟨sks, hp, hsk⟩ := (hpairs _ _).2 h4
    obtain ⟨l, hl⟩ := (flatMapE_ok hes).1 _ hp
    have hl' := hl
    simp only [aggregationEntries, weightsFor, Option.isSome_none, Bool.false_eq_true, if_false, isMacro, Except.ok.injEq] at hl'
    subst hl'
    refine ⟨[], List.Perm.refl _, ⟨⟨model, sk, none, []⟩, o, ms, weightOptions models s⟩, hin _ ((mem_flatMapE hes _).2 ⟨_, hp, _, hl, ?_⟩),
      rfl, rfl, hm, (C81_variants _ _ _).2 h3⟩
    simp only [List.mem_flatMap, List.mem_map]
    exact ⟨sk, hsk, o, (mem_orEmpty _ _).2 h2, model, (mem_orEmpty _ _).2 h1, rfl⟩
  | @micro s ms _ a _ hs hm h1 h2 h3 ha hk h4 =>
    obtain ⟨subs, es', hsub, hpairs, hes, hin⟩ := spec s ms hs
    obtain ⟨sks, hp, hsk⟩ := (hpairs (some ⟨some true, none, none⟩) sk).2 (.aggregate ha (.inl ⟨hk, rfl⟩) h4)
    obtain ⟨l, hl⟩ := (flatMapE_ok hes).1 _ hp
    have hl' := hl
    simp only [aggregationEntries, weightsFor, Option.isSome_some, if_true] at hl'
    cases hcw : classWeights s with
    | error x => rw [hcw] at hl'; cases hl'
    | ok cw =>
      obtain ⟨hw, rfl⟩ := (classWeights_eq ha).1 hcw
      rw [hcw] at hl'
      have hnm : isMacro (some ⟨some true, none, none⟩) = false := rfl
      simp only [hnm, Bool.false_eq_true, if_false, Except.ok.injEq, weights_getD] at hl'
      subst hl'
      refine ⟨sortedWeights a.classWeights, sortedWeights_perm _,
        ⟨⟨model, sk, some ⟨some true, none, none⟩, sortedWeights a.classWeights⟩, o, ms, weightOptions models s⟩,
        hin _ ((mem_flatMapE hes _).2 ⟨_, hp, _, hl, ?_⟩), rfl, rfl, hm, (C81_variants _ _ _).2 h3⟩
      simp only [List.mem_flatMap, List.mem_map]
      exact ⟨sk, hsk, o, (mem_orEmpty _ _).2 h2, model, (mem_orEmpty _ _).2 h1, rfl⟩
  | @part s ms m0 _ a sub _ sks0 d0 hs hm h1 h2 h3 ha hk h4 h5 h6 h7 h8 =>
    obtain ⟨subs, es', hsub, hpairs, hes, hin⟩ := spec s ms hs
    have hkind : a.kind ≠ none := by rcases hk with hk | hk <;> rw [hk] <;> simp
    obtain ⟨t, hty⟩ : ∃ t, aggregationType a = some t := by
      rcases hk with hk | hk <;> simp [aggregationType, hk]
    obtain ⟨sks, hp, hsk⟩ := (hpairs (some t) sub).2 (.aggregate ha ((Aggregate.has_iff a _).2 hty.symm) h4)
    obtain ⟨l, hl⟩ := (flatMapE_ok hes).1 _ hp
    have hl' := hl
    obtain ⟨a', ha', -, hkeys⟩ := aggregated hsub hp
    rw [ha] at ha'
    cases ha'
    simp only [aggregationEntries, weightsFor, Option.isSome_some, if_true] at hl'
    cases hcw : classWeights s with
    | error x => rw [hcw] at hl'; cases hl'
    | ok cw =>
      obtain ⟨hw, rfl⟩ := (classWeights_eq ha).1 hcw
      rw [hcw] at hl'
      simp only [(isMacro_iff hty).2 hk, if_true] at hl'
      obtain ⟨l2, hl2⟩ := (flatMapE_ok hl').1 _ hsk
      have hl2' := hl2
      cases hmk : macroSubKeys sub (if a.classWeights = [] then none else some a.classWeights) with
      | error x => rw [hmk] at hl2'; cases hl2'
      | ok children =>
        rw [hmk] at hl2'
        simp only [Except.ok.injEq] at hl2'
        have hmk' : macroSubKeys sub (some a.classWeights) = .ok children := by
          by_cases hc : a.classWeights = []
          · rw [if_pos hc] at hmk
            rw [hc]
            cases sub with
            | none => simp [macroSubKeys] at hmk
            | some x => simpa [macroSubKeys] using hmk
          · rwa [if_neg hc] at hmk
        have hover := macro_over hkeys hsk hw hmk'
        have hsks := over_weights h5 hover
        subst hsks
        have hsh : sk ∈ (Dict.get? subs none).getD [] ↔ Binarized s sk := by
          rw [mem_shared hsub, hpairs, asks_binarized ha hkind]
        refine ⟨[], List.Perm.refl _, ⟨⟨model, sk, none, []⟩, o,
          if sk ∈ (Dict.get? subs none).getD [] then ms else ms.map privateTf, weightOptions models s⟩,
          hin _ ((mem_flatMapE hes _).2 ⟨_, hp, _, hl, (mem_flatMapE hl' _).2 ⟨_, hsk, _, hl2, ?_⟩⟩), rfl, rfl, ?_, (C81_variants _ _ _).2 h3⟩
        · rw [← hl2']
          simp only [List.mem_flatMap, List.mem_map]
          exact ⟨o, (mem_orEmpty _ _).2 h2, sk, h6, model, (mem_orEmpty _ _).2 h1, rfl⟩
        · by_cases hb : Binarized s sk
          · simp only [if_pos (hsh.2 hb)]
            rw [h7 hb]
            exact hm
          · simp only [if_neg (fun h => hb (hsh.1 h))]
            rw [(private_iff _ _).1 (h8 hb)]
            exact List.mem_map_of_mem hm

/-! ### C120 -/

/-- **C120**: a Keras model is run for exactly the metrics that are needed, with the class weights of the aggregation. -/
theorem C120_runs_partial (models : List WeightSpec) (specs : List (Spec B S T × List (TfMetrics.Metric W V))) (ht : Typed specs)
    (rs : List (Run W V)) (h : runs models specs = .ok rs) :
    (∀ r ∈ rs, ∀ o m, r.Has o m → ∃ d, Needs models specs r.request.modelName r.request.exampleWeighted o r.request.subKey
      r.request.aggregation d m ∧ (r.classWeights.getD []).Perm d) ∧
    ∀ model ew o sk agg d m, Needs models specs model ew o sk agg d m → ∃ r ∈ rs,
      r.request = { modelName := model, subKey := sk, aggregation := agg, exampleWeighted := ew } ∧ (r.classWeights.getD []).Perm d ∧
      r.Has o m := by
  unfold runs at h
  cases hes : flatMapE (specEntries models) specs with
  | error e => rw [hes] at h; cases h
  | ok es =>
    rw [hes] at h
    simp only [Except.ok.injEq] at h
    subst h
    constructor
    · intro r hr o m hm
      have hreq : r.request = ⟨r.request.modelName, r.request.subKey, r.request.aggregation, r.request.exampleWeighted, none⟩ := by
        obtain ⟨p, -, ew, -, rfl⟩ := mem_runs.1 hr
        rfl
      obtain ⟨e, he, h1, h2, h3, h4⟩ := (has_iff_entry _).1 ⟨r, hr, hreq, rfl, hm⟩
      obtain ⟨⟨s, ms⟩, hs, es', hes', he'⟩ := (mem_flatMapE hes _).1 he
      obtain ⟨d, hn, hp⟩ := of_entry hs ht hes' he' h3 h4
      rw [h1, h2] at hn
      rw [h1] at hp
      exact ⟨d, hn, hp⟩
    · intro model ew o sk agg d m hn
      obtain ⟨cw, hp, he⟩ := entry_of ht hes hn
      obtain ⟨r, hr, h1, h2, h3⟩ := (has_iff_entry cw).2 he
      exact ⟨r, hr, h1, by rw [h2]; exact hp, h3⟩

/-- **C120** (once): there are no two runs for the same model, sub key, aggregation, class weights and kind of example weights. -/
theorem C120_once (models : List WeightSpec) (specs : List (Spec B S T × List (TfMetrics.Metric W V)))
    (rs : List (Run W V)) (h : runs models specs = .ok rs) : (rs.map fun r => (r.request, r.classWeights)).Nodup := by
  unfold runs at h
  cases hes : flatMapE (specEntries models) specs with
  | error e => rw [hes] at h; cases h
  | ok es =>
    rw [hes] at h
    simp only [Except.ok.injEq] at h
    subst h
    have hwf := wf_fold es ([] : Dict UniqueArgs (ByOutput W V × ByOutput W V)) Dict.WF_nil
    generalize es.foldl addEntry [] = d at hwf
    induction d with
    | nil => simp
    | cons p d ih =>
      have hwf' : p.1 ∉ d.map Prod.fst ∧ Dict.WF d := by
        simpa [Dict.WF, Dict.keys] using hwf
      rw [List.flatMap_cons, List.map_append, List.nodup_append]
      refine ⟨?_, ih hwf'.2, ?_⟩
      · unfold runOf
        cases p.2.1 <;> cases p.2.2 <;> simp
      · intro x hx y hy hxy
        obtain ⟨r, hr, rfl⟩ := List.mem_map.1 hx
        obtain ⟨r', hr', rfl⟩ := List.mem_map.1 hy
        have hr1 : r ∈ [p].flatMap fun p => runOf p.1 true p.2.1 ++ runOf p.1 false p.2.2 := by
          simp only [List.flatMap_cons, List.flatMap_nil, List.append_nil]
          exact hr
        obtain ⟨q, hq, ew, -, rfl⟩ := mem_runs.1 hr1
        obtain ⟨q', hq', ew', -, rfl⟩ := mem_runs.1 hr'
        rw [List.mem_singleton] at hq
        subst hq
        simp only [Prod.mk.injEq, TfMetrics.Request.mk.injEq] at hxy
        obtain ⟨⟨h1, h2, h3, -⟩, h4⟩ := hxy
        refine hwf'.1 (List.mem_map.2 ⟨q', hq', ?_⟩)
        obtain ⟨⟨a1, a2, a3, a4⟩, g⟩ := q
        obtain ⟨⟨b1, b2, b3, b4⟩, g'⟩ := q'
        have h5 := weights_inj h4
        simp_all

/-- **C120** (accepted): the specs are refused exactly if some k is below 1, class weights are given together with `top_k_list`, or a
macro average has nothing to average over. -/
theorem C120_accepted (models : List WeightSpec) (specs : List (Spec B S T × List (TfMetrics.Metric W V))) :
    (∃ rs, runs models specs = .ok rs) ↔
      ∀ p ∈ specs, Positive p.1 ∧ ∀ a, p.1.aggregate = some a → a.kind ≠ none → Consistent a := by
  have hrun : (∃ rs, runs models specs = .ok rs) ↔ ∃ es, flatMapE (specEntries models) specs = .ok es := by
    unfold runs
    cases flatMapE (specEntries models) specs with
    | error e => simp
    | ok es => simp
  rw [hrun]
  constructor
  · rintro ⟨es, h⟩ ⟨s, ms⟩ hs
    obtain ⟨es', he⟩ := (flatMapE_ok h).1 _ hs
    have hpos : Positive s := by
      by_contra hn
      unfold specEntries at he
      simp only [(C80_error s).1 hn] at he
      cases he
    refine ⟨hpos, ?_⟩
    intro a ha hk
    simp only at ha
    obtain ⟨t, hty⟩ : ∃ t, aggregationType a = some t := by
      rcases hk' : a.kind with - | - | - | - <;> simp [aggregationType, hk'] <;> exact hk hk'
    unfold specEntries at he
    obtain ⟨subs, hsub⟩ := (C80_error s).2 hpos
    simp only [hsub] at he
    obtain ⟨sks, hp, hkeys⟩ : ∃ sks, (some t, sks) ∈ subs ∧ aggregateKeys a = .ok sks := by
      have hsub' := hsub
      unfold createSubKeys at hsub'
      cases hb : binarizePart s.binarize with
      | error e => rw [hb] at hsub'; cases hsub'
      | ok r =>
        rw [hb, ha] at hsub'
        simp only at hsub'
        cases hk : aggregateKeys a with
        | error e => rw [hk] at hsub'; cases hsub'
        | ok ks =>
          rw [hk] at hsub'
          simp only [Except.ok.injEq] at hsub'
          refine ⟨ks, ?_, rfl⟩
          rw [← hsub', hty]
          exact Dict.mem_of_get? (by rw [Dict.get?_set, if_pos rfl])
    obtain ⟨l, hl⟩ := (flatMapE_ok he).1 _ hp
    simp only [aggregationEntries, weightsFor, Option.isSome_some, if_true] at hl
    cases hcw : classWeights s with
    | error x => rw [hcw] at hl; cases hl
    | ok cw =>
      obtain ⟨hw, rfl⟩ := (classWeights_eq ha).1 hcw
      refine ⟨hw, fun hmic h0 hc => ?_⟩
      have hmac : isMacro (some t) = true := (isMacro_iff hty).2 (by
        rcases hk' : a.kind with - | - | - | -
        · exact absurd hk' hk
        · exact absurd hk' hmic
        · simp
        · simp)
      rw [hcw] at hl
      simp only [hmac, if_true] at hl
      have hsk : none ∈ sks := by
        rw [(aggregateKeys_eq hkeys).2, if_pos h0]
        simp
      obtain ⟨l2, hl2⟩ := (flatMapE_ok hl).1 _ hsk
      simp [hc, macroSubKeys] at hl2
  · intro h
    refine flatMapE_total fun p hp => ?_
    obtain ⟨s, ms⟩ := p
    obtain ⟨hpos, hcons⟩ := h _ hp
    obtain ⟨subs, hsub⟩ := (C80_error s).2 hpos
    unfold specEntries
    simp only [hsub]
    refine flatMapE_total fun q hq => ?_
    obtain ⟨agg, sks⟩ := q
    unfold aggregationEntries
    cases agg with
    | none =>
      simp only [weightsFor, Option.isSome_none, Bool.false_eq_true, if_false, isMacro]
      exact ⟨_, rfl⟩
    | some t =>
      obtain ⟨a, ha, hty, hkeys⟩ := aggregated hsub hq
      have hk : a.kind ≠ none := by
        intro hk
        unfold aggregationType at hty
        rw [hk] at hty
        cases hty
      obtain ⟨c1, c2⟩ := hcons a ha hk
      simp only [weightsFor, Option.isSome_some, if_true, (classWeights_eq ha).2 ⟨c1, rfl⟩]
      split
      · rename_i hmac
        refine flatMapE_total fun sub hsub' => ?_
        have hmic : a.kind ≠ some .micro := by
          intro h3
          rcases (isMacro_iff hty).1 hmac with h4 | h4 <;> rw [h4] at h3 <;> cases h3
        obtain ⟨ms', hms⟩ := macro_total hkeys hsub' (c2 hmic) (cw := if a.classWeights = [] then none else some a.classWeights) (weights_getD _)
        rw [hms]
        exact ⟨_, rfl⟩
      · exact ⟨_, rfl⟩

/-- The metrics have no class and no top k of their own and yield one number. -/
def Simple (specs : List (Spec B S T × List (TfMetrics.Metric W V))) : Prop :=
  ∀ p ∈ specs, ∀ m ∈ p.2, m.classId = none ∧ m.topK = none ∧ ∀ w, ∃ v, m.result w = .single v

private theorem run_metrics {models : List WeightSpec} {specs : List (Spec B S T × List (TfMetrics.Metric W V))} (ht : Typed specs)
    (hs : Simple specs) {rs : List (Run W V)} (h : runs models specs = .ok rs) {r : Run W V} (hr : r ∈ rs) {o : String}
    {m : TfMetrics.Metric W V} (hm : r.Has o m) : m.classId = none ∧ m.topK = none ∧ ∀ w, ∃ v, m.result w = .single v := by
  obtain ⟨d, hn, -⟩ := (C120_runs_partial models specs ht rs h).1 r hr o m hm
  generalize r.request.aggregation = agg at hn
  cases hn with
  | plain h1 h2 => exact hs _ h1 m h2
  | micro h1 h2 => exact hs _ h1 m h2
  | @part s ms m0 _ a sub _ sks d0 h1 h2 h3 h4 h5 ha hk h7 h8 h9 h10 h11 =>
    by_cases hb : Binarized s r.request.subKey
    · rw [h10 hb]; exact hs _ h1 m0 h2
    · have := (h11 hb).1
      rw [this]
      exact hs _ h1 m0 h2

/-- **C120** (specs without Keras metrics): of the specs of an evaluation only those with some Keras metric or loss can be refused
here. -/
theorem C120_accepted_keras {C : Type} (models : List WeightSpec) (keras : C → Option (TfMetrics.Metric W V))
    (specs : List (SpecBuild.Built C B S T)) : (∃ rs, runs models (tfParts keras specs) = .ok rs) ↔
      ∀ s ∈ specs, (∃ c ∈ s.metrics, ∃ m, keras c = some m) →
        Positive s.options ∧ ∀ a, s.options.aggregate = some a → a.kind ≠ none → Consistent a := by
  rw [C120_accepted]
  unfold tfParts
  constructor
  · rintro h s hs ⟨c, hc, m, hm⟩
    refine h (s.options, s.metrics.filterMap keras) (List.mem_filter.2 ⟨List.mem_map_of_mem hs, ?_⟩)
    have : m ∈ s.metrics.filterMap keras := List.mem_filterMap.2 ⟨c, hc, hm⟩
    simpa using List.ne_nil_of_mem this
  · intro h p hp
    obtain ⟨h1, h2⟩ := List.mem_filter.1 hp
    obtain ⟨s, hs, rfl⟩ := List.mem_map.1 h1
    refine h s hs ?_
    have h3 : s.metrics.filterMap keras ≠ [] := by simpa using h2
    obtain ⟨m, hm⟩ := List.exists_mem_of_ne_nil _ h3
    obtain ⟨c, hc, hcm⟩ := List.mem_filterMap.1 hm
    exact ⟨c, hc, m, hcm⟩

/-- **C120** (padding): each computation pads as its own model asks for. -/
theorem C120_padding [AddCommMonoid W] (models : List WeightSpec) (padding : String → Option TfMetrics.Padding)
    (specs : List (Spec B S T × List (TfMetrics.Metric W V))) (cs : List (TfMetrics.Computation W V))
    (h : process models padding specs = .ok cs) : ∀ c ∈ cs, c.combiner.padding = padding c.combiner.modelName := by
  unfold process at h
  cases hr : runs models specs with
  | error e => rw [hr] at h; cases h
  | ok rs =>
    rw [hr] at h
    intro c hc
    obtain ⟨r, _, ys, h1, h2⟩ := ((flatMapE_ok h).2 c).1 hc
    unfold TfMetrics.computations at h1
    split at h1
    · cases h1
    split at h1
    · cases h1
    split at h1
    · cases h1
    have h1 := Except.ok.inj h1
    rw [← h1] at h2
    obtain ⟨g, _, rfl⟩ := List.mem_map.1 h2
    rfl

/-- **C120** (distinct): without aggregation, different runs report their values under different keys, so that no value is lost when
they are put together, if the metrics have no class and no top k of their own and yield one number.  Missing: with aggregations it is
false, see `C120_overwritten_fails`. -/
theorem C120_distinct_partial [AddCommMonoid W] (models : List WeightSpec) (specs : List (Spec B S T × List (TfMetrics.Metric W V)))
    (ht : Typed specs) (hs : Simple specs) (rs : List (Run W V)) (h : runs models specs = .ok rs) (r r' : Run W V) (hr : r ∈ rs)
    (hr' : r' ∈ rs) (hagg : r.request.aggregation = none) (hagg' : r'.request.aggregation = none)
    (padding padding' : Option TfMetrics.Padding) (cs cs' : List (TfMetrics.Computation W V))
    (hc : TfMetrics.computations r.request padding r.metrics = .ok cs) (hc' : TfMetrics.computations r'.request padding' r'.metrics = .ok cs')
    (c c' : TfMetrics.Computation W V) (hcm : c ∈ cs) (hcm' : c' ∈ cs') (a a' : TfMetrics.Acc W) (d d' : Dict MetricKey V)
    (hd : TfMetrics.extract c.combiner a = .ok d) (hd' : TfMetrics.extract c'.combiner a' = .ok d') (key : MetricKey)
    (hk : key ∈ Dict.keys d) (hk' : key ∈ Dict.keys d') : r = r' := by
  have one : ∀ (r : Run W V), r ∈ rs → r.request.aggregation = none → ∀ padding cs, TfMetrics.computations r.request padding r.metrics = .ok cs →
      ∀ c ∈ cs, ∀ a d, TfMetrics.extract c.combiner a = .ok d → key ∈ Dict.keys d →
        r.request.modelName = key.modelName ∧ r.request.subKey = key.subKey ∧ some r.request.exampleWeighted = key.exampleWeighted ∧
          r.request.desired = none ∧ r.classWeights = none := by
    intro r hr hagg padding cs hc c hcm a d hd hk
    have hmem : ∀ o ∈ r.metrics, ∀ m ∈ o.2, m.classId = none ∧ m.topK = none ∧ ∀ w, ∃ v, m.result w = .single v := fun o ho m hm =>
      run_metrics ht hs h hr (o := o.1) ⟨o.2, ho, hm⟩
    have hrep := TfMetrics.C93_reported r.request padding r.metrics (fun o ho m hm => (hmem o ho m hm).2.2) hagg cs hc c hcm a d hd key hk
    obtain ⟨o, m, he, rfl⟩ := (TfMetrics.C93_declared r.request padding r.metrics cs hc c hcm key).1 hrep
    obtain ⟨ms, hms, ⟨l₁, l₂, rfl, -⟩, -⟩ := (TfMetrics.C93_metrics r.request padding r.metrics cs hc o m).1.1 ⟨c, hcm, he⟩
    obtain ⟨m1, m2, -⟩ := hmem _ hms m (by simp)
    refine ⟨rfl, ?_, rfl, ?_⟩
    · simp [TfMetrics.subKeyOf, m1, m2]
    · obtain ⟨dd, hn, hp⟩ := (C120_runs_partial models specs ht rs h).1 r hr o m ⟨_, hms, by simp⟩
      rw [hagg] at hn
      have hdd : dd = [] := by
        generalize hq : (none : Option AggregationType) = q at hn
        cases hn with
        | plain => rfl
        | micro => cases hq
        | part => rfl
      subst hdd
      have hp := List.Perm.eq_nil hp
      unfold runs at h
      cases hes : flatMapE (specEntries models) specs with
      | error e => rw [hes] at h; cases h
      | ok es =>
        rw [hes] at h
        simp only [Except.ok.injEq] at h
        subst h
        obtain ⟨p, -, ew, -, rfl⟩ := mem_runs.1 hr
        refine ⟨rfl, ?_⟩
        simp only at hp ⊢
        rw [weights_getD'] at hp
        simp [UniqueArgs.weights, hp]
  obtain ⟨h1, h2, h3, h4, h5⟩ := one r hr hagg padding cs hc c hcm a d hd hk
  obtain ⟨g1, g2, g3, g4, g5⟩ := one r' hr' hagg' padding' cs' hc' c' hcm' a' d' hd' hk'
  have hreq : r.request = r'.request := by
    cases hx : r.request
    cases hy : r'.request
    rw [hx] at h1 h2 h3 h4 hagg
    rw [hy] at g1 g2 g3 g4 hagg'
    simp only at h1 h2 h3 h4 g1 g2 g3 g4 hagg hagg'
    simp_all
    exact Option.some.inj (h3.trans g3.symm)
  have hnd := C120_once models specs rs h
  exact List.inj_on_of_nodup_map hnd hr hr' (by rw [hreq, h5, g5])

/-! ### The default metrics of a multi-class model -/

/-- The Keras metrics among the metric objects; the value tells the class. -/
def demoKeras (o : SpecBuild.Obj) : Option (TfMetrics.Metric ℚ String) :=
  if o.keras then some { name := o.name, initial := 0, update := fun _ => .ok 0, result := fun _ => .single o.cls } else none

/-- The values reported by the computations, put together as in `_ComputationsCombineFn.extract_output`. -/
def together (cs : List (TfMetrics.Computation ℚ String)) : Except Err (Dict MetricKey String) :=
  cs.foldl (fun d c => do
    let d ← d
    let x ← TfMetrics.extract c.combiner (TfMetrics.create c.combiner)
    return Dict.update d x) (.ok [])

/-- The values of the Keras metrics of the default specs of a multi-class model. -/
def defaultValues (sparse : Bool) : Except Err (Dict MetricKey String) := do
  let specs : List (SpecBuild.Built SpecBuild.Obj Unit Unit Unit) ← SpecBuild.defaultMultiClassSpecs
    ⟨.ok, ⟨"ExampleCount", "example_count", false, none, none⟩, ⟨"ExampleCount", "weighted_example_count", false, none, none⟩⟩
    [] [] [] none none sparse
  let cs ← process [] (fun _ => none) (tfParts demoKeras specs)
  together cs

/-- **C120** (negation): the key a value is reported under lacks the aggregation.  In the default specs of a multi-class model both the
(sparse) categorical cross entropy and the micro averaged binary cross entropy have the name "loss": only the latter is reported, under
the key of the former. -/
theorem C120_overwritten_fails (sparse : Bool) : (defaultValues sparse).map (fun d => d.map fun e => (e.1.name, e.1.aggregationType, e.2)) =
    .ok [("loss", none, "BinaryCrossentropy"), ("accuracy", none, if sparse then "SparseCategoricalAccuracy" else "CategoricalAccuracy")] := by
  cases sparse <;> decide +kernel

/-- What is asked for: both losses. -/
example : (do
    let specs : List (SpecBuild.Built SpecBuild.Obj Unit Unit Unit) ← SpecBuild.defaultMultiClassSpecs
      ⟨.ok, ⟨"ExampleCount", "example_count", false, none, none⟩, ⟨"ExampleCount", "weighted_example_count", false, none, none⟩⟩
      [] [] [] none none true
    let rs ← runs [] (tfParts demoKeras specs)
    return rs.map fun r => (r.request.aggregation.isSome, r.metrics.map fun o => (o.1, o.2.map fun m => m.result 0))) =
    (.ok [(false, [("", [.single "SparseCategoricalCrossentropy", .single "SparseCategoricalAccuracy"])]),
      (true, [("", [.single "BinaryCrossentropy"])])] : Except Err _) := by
  decide +kernel

/-! ### Examples -/

/-- A metric with the given name. -/
private def metric0 (name : String) : TfMetrics.Metric ℚ ℚ := { name := name, initial := 0, update := fun _ => .ok 0, result := fun w => .single w }

/-- Class 1 binarized and the classes 2 and 1 macro averaged; another spec for the same class and another one with a micro average. -/
private def specs0 : List (Spec Unit Unit Unit × List (TfMetrics.Metric ℚ ℚ)) :=
  [({ binarize := some { classIds := [1] }
      aggregate := some { kind := some .macroAvg, classWeights := [(2, 1), (1, 3)] } }, [metric0 "mse"]),
   ({ binarize := some { classIds := [1] }
      weights := some (true, true) }, [metric0 "mae"]),
   ({ aggregate := some { kind := some .micro, classWeights := [(2, 1), (1, 3)] } }, [metric0 "mse"])]

example : Typed specs0 ∧ Simple specs0 := by
  refine ⟨?_, ?_⟩
  · intro p hp a b ha hb hk
    simp only [specs0, List.mem_cons, List.not_mem_nil, or_false] at hp
    rcases hp with rfl | rfl | rfl
    · cases ha; cases hk
    · cases ha
    · cases hb
  · intro p hp m hm
    simp only [specs0, List.mem_cons, List.not_mem_nil, or_false] at hp
    rcases hp with rfl | rfl | rfl <;>
    · rw [List.mem_singleton] at hm
      subst hm
      exact ⟨rfl, rfl, fun w => ⟨w, rfl⟩⟩

/-- The runs: class 1 unweighted with both metrics and the one of the average, class 1 weighted, class 2 privately, the micro average. -/
example : (runs [] specs0).map (fun rs => rs.map fun r => (r.request.subKey.bind SubKey.classId, r.request.exampleWeighted,
      r.classWeights, r.metrics.map fun o => o.2.map TfMetrics.Metric.name)) =
    .ok [(some 1, true, none, [["mae"]]), (some 1, false, none, [["mse", "mse", "mae"]]), (some 2, false, none, [["_mse"]]),
      (none, false, some [(1, 3), (2, 1)], [["mse"]])] := by
  rfl

end TfSpecs
end TFMA
