import Verif.Model.KeysAsked

/-!
# C151: metrics are reported for every model, output and sub key asked for

Specifications: `NameAsked` and `SubKeyAsked` say which names and sub keys a request stands for; `Reports` that the computations have,
for every model and output, the keys of a given set of sub keys, each in a computation that looks at that model and output, and no others.
-/

namespace TFMA
namespace KeysAsked

open MetricKeys Inputs

/-- A name asked for: one of those given, or, if there are none, the empty one. -/
def NameAsked (o : Option (List String)) (n : String) : Prop :=
  (∃ l, o = some l ∧ n ∈ l) ∨ ((o = none ∨ o = some []) ∧ n = "")

/-- A sub key asked for: one of those given, or, if there are none, no sub key. -/
def SubKeyAsked (o : Option (List (Option SubKey))) (s : Option SubKey) : Prop :=
  (∃ l, o = some l ∧ s ∈ l) ∨ ((o = none ∨ o = some []) ∧ s = none)

/-- The key of a metric for a model, output and sub key. -/
def wanted (name : String) (weighted : Bool) (m o : String) (s : Option SubKey) : MetricKey :=
  { name := name, modelName := m, outputName := o, subKey := s, exampleWeighted := some weighted }

/-- The computations that look at a model and output have the wanted keys of that model and output and no others. -/
def Reports (comps : List Comp) (name : String) (weighted : Bool) (M O : String → Prop) (S : Option SubKey → Prop) : Prop :=
  ∀ m o k, (∃ c ∈ comps, c.model = m ∧ c.output = o ∧ k ∈ c.keys) ↔ M m ∧ O o ∧ ∃ s, S s ∧ k = wanted name weighted m o s

theorem mem_orBlank (o : Option (List String)) (n : String) : n ∈ orBlank o ↔ NameAsked o n := by
  rcases o with _ | _ | ⟨a, l⟩ <;> simp [orBlank, NameAsked]

theorem mem_orNone (o : Option (List (Option SubKey))) (s : Option SubKey) : s ∈ orNone o ↔ SubKeyAsked o s := by
  rcases o with _ | _ | ⟨a, l⟩ <;> simp [orNone, SubKeyAsked]

theorem reports_of (ms os : List String) (ss : List (Option SubKey)) (name : String) (weighted : Bool) (M O : String → Prop)
    (S : Option SubKey → Prop) (hm : ∀ m, m ∈ ms ↔ M m) (ho : ∀ o, o ∈ os ↔ O o) (hs : ∀ s, s ∈ ss ↔ S s) :
    Reports (ms.flatMap fun m => os.map fun o => ⟨ss.map (wanted name weighted m o), m, o⟩) name weighted M O S := by
  intro m o k
  simp only [List.mem_flatMap, List.mem_map]
  constructor
  · rintro ⟨c, ⟨m', hm', o', ho', rfl⟩, rfl, rfl, hk⟩
    obtain ⟨s, hs', rfl⟩ := List.mem_map.1 hk
    exact ⟨(hm _).1 hm', (ho _).1 ho', s, (hs s).1 hs', rfl⟩
  · rintro ⟨h1, h2, s, h3, rfl⟩
    exact ⟨_, ⟨m, (hm m).2 h1, o, (ho o).2 h2, rfl⟩, rfl, rfl, List.mem_map.2 ⟨s, (hs s).2 h3, rfl⟩⟩

/-- **C151** (example count). For every model, output and sub key asked for there is a key, computed from the weights of that model and
output; there is no other key. -/
theorem C151_example_count (name : String) (models outputs : Option (List String)) (subKeys : Option (List (Option SubKey)))
    (weighted : Bool) :
    Reports (exampleCount name models outputs subKeys weighted) name weighted (NameAsked models) (NameAsked outputs)
      (SubKeyAsked subKeys) :=
  reports_of _ _ _ _ _ _ _ _ (mem_orBlank models) (mem_orBlank outputs) (mem_orNone subKeys)

/-- **C151** (sample). One computation reports every key asked for and no other. -/
theorem C151_sample (name : String) (models outputs : Option (List String)) (subKeys : Option (List (Option SubKey))) (weighted : Bool) :
    ∃ c, fixedSizeSample name models outputs subKeys weighted = [c] ∧
      ∀ k, k ∈ c.keys ↔ ∃ m o s, NameAsked models m ∧ NameAsked outputs o ∧ SubKeyAsked subKeys s ∧ k = wanted name weighted m o s := by
  refine ⟨_, rfl, fun k => ?_⟩
  simp only [List.mem_flatMap, List.mem_map, mem_orBlank, mem_orNone]
  constructor
  · rintro ⟨m, hm, o, ho, s, hs, rfl⟩; exact ⟨m, o, s, hm, ho, hs, rfl⟩
  · rintro ⟨m, o, s, hm, ho, hs, rfl⟩; exact ⟨m, hm, o, ho, s, hs, rfl⟩

theorem wanted_inj {name : String} {w : Bool} {m o m' o' : String} {s s' : Option SubKey}
    (h : wanted name w m o s = wanted name w m' o' s') : m = m' ∧ o = o' ∧ s = s' := by
  simpa [wanted] using h

/-- **C151** (no key twice). If no model, output or sub key is given twice then no key of the example count is reported twice. -/
theorem C151_once (name : String) (models outputs : Option (List String)) (subKeys : Option (List (Option SubKey))) (weighted : Bool)
    (hm : ∀ l, models = some l → l.Nodup) (ho : ∀ l, outputs = some l → l.Nodup) (hs : ∀ l, subKeys = some l → l.Nodup) :
    ((exampleCount name models outputs subKeys weighted).flatMap Comp.keys).Nodup := by
  have hm' : (orBlank models).Nodup := by
    rcases models with _ | _ | ⟨a, l⟩ <;> simp only [orBlank] <;> first | exact List.nodup_singleton _ | exact hm _ rfl
  have ho' : (orBlank outputs).Nodup := by
    rcases outputs with _ | _ | ⟨a, l⟩ <;> simp only [orBlank] <;> first | exact List.nodup_singleton _ | exact ho _ rfl
  have hs' : (orNone subKeys).Nodup := by
    rcases subKeys with _ | _ | ⟨a, l⟩ <;> simp only [orNone] <;> first | exact List.nodup_singleton _ | exact hs _ rfl
  have e : (exampleCount name models outputs subKeys weighted).flatMap Comp.keys =
      (orBlank models).flatMap fun m => (orBlank outputs).flatMap fun o => (orNone subKeys).map (wanted name weighted m o) := by
    simp only [exampleCount, List.flatMap_assoc, List.flatMap_map]
    rfl
  rw [e]
  rw [List.nodup_flatMap]
  refine ⟨fun m _ => ?_, hm'.imp fun {m m'} hne => ?_⟩
  · rw [List.nodup_flatMap]
    refine ⟨fun o _ => hs'.map fun s s' h => (wanted_inj h).2.2, ho'.imp fun {o o'} hne => ?_⟩
    intro k h1 h2
    obtain ⟨s, _, rfl⟩ := List.mem_map.1 h1
    obtain ⟨s', _, h⟩ := List.mem_map.1 h2
    exact hne (wanted_inj h).2.1.symm
  · intro k h1 h2
    obtain ⟨o, _, h1⟩ := List.mem_flatMap.1 h1
    obtain ⟨o', _, h2⟩ := List.mem_flatMap.1 h2
    obtain ⟨s, _, rfl⟩ := List.mem_map.1 h1
    obtain ⟨s', _, h⟩ := List.mem_map.1 h2
    exact hne (wanted_inj h).1.symm

/-- **C151** (min label position). With a query key, one key for every model and output given; an empty list of names is taken at its
word. -/
theorem C151_min_label_position (name queryKey : String) (models outputs : Option (List String)) (weighted : Bool) :
    (queryKey = "" → minLabelPosition name queryKey models outputs weighted = .error .valueError) ∧
    (queryKey ≠ "" → ∃ comps, minLabelPosition name queryKey models outputs weighted = .ok comps ∧
      Reports comps name weighted (fun m => NameAsked models m ∧ models ≠ some []) (fun o => NameAsked outputs o ∧ outputs ≠ some [])
        (fun s => s = none)) := by
  have mem : ∀ (o : Option (List String)) n, n ∈ o.getD [""] ↔ NameAsked o n ∧ o ≠ some [] := by
    intro o n
    rcases o with _ | _ | ⟨a, l⟩ <;> simp [NameAsked]
  constructor
  · intro h; simp [minLabelPosition, h]
  · intro h
    refine ⟨_, by simp only [minLabelPosition, if_neg h]; rfl, ?_⟩
    exact reports_of (models.getD [""]) (outputs.getD [""]) [none] name weighted _ _ _ (mem models) (mem outputs) (by simp)

/-- **C151** (min label position, empty lists). An empty list of models or outputs, which other metrics take for the default, gives no
metric at all. -/
theorem C151_min_label_position_empty_fails (name queryKey : String) (models : Option (List String)) (weighted : Bool)
    (h : queryKey ≠ "") :
    minLabelPosition name queryKey (some []) models weighted = .ok [] ∧
    minLabelPosition name queryKey models (some []) weighted = .ok [] := by
  simp [minLabelPosition, h]

/-- The sub key of the best `k`. -/
abbrev top (k : ℤ) : SubKey := ⟨none, none, some k⟩

theorem mem_addTopK (l : List SubKey) (ks : List ℤ) (s : SubKey) :
    s ∈ addTopK l ks ↔ s ∈ l ∨ ∃ k ∈ ks, s = top k ∧ ∀ s' ∈ l, s'.topK ≠ some k := by
  induction ks generalizing l with
  | nil => simp [addTopK]
  | cons k ks ih =>
    simp only [addTopK]
    split
    · rename_i h
      obtain ⟨s', hs', hk⟩ := List.any_eq_true.1 h
      have hk : s'.topK = some k := by simpa using hk
      rw [ih]
      constructor
      · rintro (h | ⟨k', h1, h2⟩)
        · exact .inl h
        · exact .inr ⟨k', by simp [h1], h2⟩
      · rintro (h | ⟨k', h1, h2, h3⟩)
        · exact .inl h
        · rcases List.mem_cons.1 h1 with rfl | h1
          · exact absurd hk (h3 s' hs')
          · exact .inr ⟨k', h1, h2, h3⟩
    · rename_i h
      have h : ∀ s' ∈ l, s'.topK ≠ some k := fun s' hs' e => h (List.any_eq_true.2 ⟨s', hs', by simp [e]⟩)
      rw [ih]
      constructor
      · rintro (h' | ⟨k', h1, h2, h3⟩)
        · rcases List.mem_append.1 h' with h' | h'
          · exact .inl h'
          · exact .inr ⟨k, by simp, List.mem_singleton.1 h', h⟩
        · exact .inr ⟨k', by simp [h1], h2, fun s' hs' => h3 s' (List.mem_append.2 (.inl hs'))⟩
      · rintro (h' | ⟨k', h1, h2, h3⟩)
        · exact .inl (List.mem_append.2 (.inl h'))
        · by_cases he : k' = k
          · subst he; exact .inl (List.mem_append.2 (.inr (by simp [h2])))
          · rcases List.mem_cons.1 h1 with rfl | h1
            · exact absurd rfl he
            · refine .inr ⟨k', h1, h2, fun s' hs' => ?_⟩
              rcases List.mem_append.1 hs' with hs' | hs'
              · exact h3 s' hs'
              · rw [List.mem_singleton.1 hs']
                intro e; exact he (Option.some.inj e).symm

theorem ndcg_eq (name queryKey : String) (ks : Option (List ℤ)) (models outputs : Option (List String)) (l : List (Option SubKey))
    (weighted : Bool) (comps : List Comp) :
    ndcg name queryKey ks models outputs (some l) weighted = .ok comps ↔
      queryKey ≠ "" ∧ (∀ k ∈ ks.getD [], 1 ≤ k) ∧ addTopK (l.filterMap id) (ks.getD []) ≠ [] ∧
      (∀ s ∈ addTopK (l.filterMap id) (ks.getD []), s.topK ≠ none) ∧
      comps = (orBlank models).flatMap fun m => (orBlank outputs).map fun o =>
        ⟨((addTopK (l.filterMap id) (ks.getD [])).map some).map (wanted name weighted m o), m, o⟩ := by
  unfold ndcg
  by_cases h1 : queryKey = ""
  · simp [h1]
  rw [if_neg h1]
  simp only
  split
  · rename_i h
    obtain ⟨k, hk, h⟩ := List.any_eq_true.1 h
    have h : k < 1 := by simpa using h
    constructor
    · intro h'; cases h'
    · rintro ⟨_, h2, _⟩; have := h2 k hk; omega
  · rename_i h
    have h : ∀ k ∈ ks.getD [], 1 ≤ k := by
      intro k hk
      by_contra hn
      exact h (List.any_eq_true.2 ⟨k, hk, by simpa using hn⟩)
    split
    · rename_i h'
      constructor
      · intro h''; cases h''
      · rintro ⟨_, _, h2, h3, _⟩
        rcases Bool.or_eq_true _ _ ▸ h' with h' | h'
        · exact absurd (List.isEmpty_iff.1 h') h2
        · obtain ⟨s, hs, h'⟩ := List.any_eq_true.1 h'
          exact absurd (Option.isNone_iff_eq_none.1 h') (h3 s hs)
    · rename_i h'
      have h2 : addTopK (l.filterMap id) (ks.getD []) ≠ [] := fun e => h' (by rw [e]; rfl)
      have h3 : ∀ s ∈ addTopK (l.filterMap id) (ks.getD []), s.topK ≠ none := fun s hs e =>
        h' (by rw [Bool.or_eq_true]; exact .inr (List.any_eq_true.2 ⟨s, hs, by simp [e]⟩))
      simp only [Except.ok.injEq, List.map_map]
      constructor
      · rintro rfl; exact ⟨h1, h, h2, h3, rfl⟩
      · rintro ⟨_, _, _, _, rfl⟩; rfl

/-- **C151** (NDCG, acceptance). The metric can be created exactly if there is a query key and a list of sub keys, every sub key given says
how many of the best to look at, every top k given is positive, and there is at least one of either. -/
theorem C151_ndcg_accepted (name queryKey : String) (ks : Option (List ℤ)) (models outputs : Option (List String))
    (subKeys : Option (List (Option SubKey))) (weighted : Bool) :
    (∃ comps, ndcg name queryKey ks models outputs subKeys weighted = .ok comps) ↔
      queryKey ≠ "" ∧ ∃ l, subKeys = some l ∧ (∀ s, some s ∈ l → s.topK ≠ none) ∧ (∀ k ∈ ks.getD [], 1 ≤ k) ∧
        ((∃ s, some s ∈ l) ∨ ∃ k, k ∈ ks.getD []) := by
  cases subKeys with
  | none =>
    constructor
    · rintro ⟨comps, h⟩
      unfold ndcg at h
      split at h <;> cases h
    · rintro ⟨_, l, h, _⟩; cases h
  | some l =>
    have mem : ∀ s, s ∈ l.filterMap id ↔ some s ∈ l := by intro s; simp [List.mem_filterMap]
    simp only [ndcg_eq, Option.some.injEq, exists_eq_left']
    constructor
    · rintro ⟨comps, h1, h2, h3, h4, _⟩
      refine ⟨h1, fun s hs => h4 s ((mem_addTopK ..).2 (.inl ((mem s).2 hs))), h2, ?_⟩
      obtain ⟨s, hs⟩ := List.exists_mem_of_ne_nil _ h3
      rcases (mem_addTopK ..).1 hs with hs | ⟨k, hk, _⟩
      · exact .inl ⟨s, (mem s).1 hs⟩
      · exact .inr ⟨k, hk⟩
    · rintro ⟨h1, h2, h3, h4⟩
      refine ⟨_, h1, h3, ?_, ?_, rfl⟩
      · by_cases hl : l.filterMap id = []
        · rcases h4 with ⟨s, hs⟩ | ⟨k, hk⟩
          · exact absurd ((mem s).2 hs) (by rw [hl]; exact List.not_mem_nil)
          · refine List.ne_nil_of_mem ((mem_addTopK _ _ (top k)).2 (.inr ⟨k, hk, rfl, ?_⟩))
            rw [hl]; simp
        · obtain ⟨s, hs⟩ := List.exists_mem_of_ne_nil _ hl
          exact List.ne_nil_of_mem ((mem_addTopK ..).2 (.inl hs))
      · intro s hs
        rcases (mem_addTopK ..).1 hs with hs | ⟨k, _, rfl, _⟩
        · exact h2 s ((mem s).1 hs)
        · simp

/-- **C151** (NDCG, keys). What is reported for every model and output: the sub keys given, and each top k that no sub key given has. -/
theorem C151_ndcg_keys (name queryKey : String) (ks : Option (List ℤ)) (models outputs : Option (List String))
    (l : List (Option SubKey)) (weighted : Bool) (comps : List Comp)
    (h : ndcg name queryKey ks models outputs (some l) weighted = .ok comps) :
    Reports comps name weighted (NameAsked models) (NameAsked outputs) (fun s => ∃ t, s = some t ∧
      (some t ∈ l ∨ ∃ k ∈ ks.getD [], t = top k ∧ ∀ s', some s' ∈ l → s'.topK ≠ some k)) := by
  obtain ⟨_, _, _, _, rfl⟩ := (ndcg_eq ..).1 h
  refine reports_of _ _ _ _ _ _ _ _ (mem_orBlank models) (mem_orBlank outputs) fun s => ?_
  simp only [List.mem_map, mem_addTopK, List.mem_filterMap, id]
  constructor
  · rintro ⟨t, h | ⟨k, h1, h2, h3⟩, rfl⟩
    · obtain ⟨a, ha, rfl⟩ := h; exact ⟨t, rfl, .inl ha⟩
    · exact ⟨t, rfl, .inr ⟨k, h1, h2, fun s' hs' => h3 s' ⟨_, hs', rfl⟩⟩⟩
  · rintro ⟨t, rfl, h | ⟨k, h1, h2, h3⟩⟩
    · exact ⟨t, .inl ⟨_, h, rfl⟩, rfl⟩
    · refine ⟨t, .inr ⟨k, h1, h2, ?_⟩, rfl⟩
      rintro s' ⟨a, ha, rfl⟩
      exact h3 s' ha

/-- **C151** (partial: NDCG). If the sub keys given say nothing but how many of the best to look at, then what is reported for every model
and output is the sub keys given and every top k given. -/
theorem C151_ndcg_partial (name queryKey : String) (ks : Option (List ℤ)) (models outputs : Option (List String))
    (l : List (Option SubKey)) (weighted : Bool) (comps : List Comp) (hl : ∀ s, some s ∈ l → ∃ k, s = top k)
    (h : ndcg name queryKey ks models outputs (some l) weighted = .ok comps) :
    Reports comps name weighted (NameAsked models) (NameAsked outputs)
      (fun s => ∃ t, s = some t ∧ (some t ∈ l ∨ ∃ k ∈ ks.getD [], t = top k)) := by
  intro m o key
  rw [C151_ndcg_keys name queryKey ks models outputs l weighted comps h m o key]
  refine and_congr_right fun _ => and_congr_right fun _ => exists_congr fun s => and_congr_left fun _ => exists_congr fun t =>
    and_congr_right fun _ => ?_
  constructor
  · rintro (h | ⟨k, h1, h2, _⟩)
    · exact .inl h
    · exact .inr ⟨k, h1, h2⟩
  · rintro (h | ⟨k, h1, rfl⟩)
    · exact .inl h
    · by_cases hk : some (top k) ∈ l
      · exact .inl hk
      · refine .inr ⟨k, h1, rfl, fun s' hs' e => hk ?_⟩
        obtain ⟨k', rfl⟩ := hl s' hs'
        cases e; exact hs'

/-- **C151** (full claim fails: NDCG). If a sub key of a class has the top k that is given then no key for the top k alone is
reported. -/
theorem C151_ndcg_top_k_fails (name queryKey : String) (ks : Option (List ℤ)) (models outputs : Option (List String))
    (l : List (Option SubKey)) (weighted : Bool) (comps : List Comp) (k c : ℤ) (_hk : k ∈ ks.getD [])
    (hc : some ⟨some c, none, some k⟩ ∈ l) (hn : some (top k) ∉ l)
    (h : ndcg name queryKey ks models outputs (some l) weighted = .ok comps) :
    ∀ comp ∈ comps, ∀ m o, wanted name weighted m o (some (top k)) ∉ comp.keys := by
  intro comp hcomp m o hm
  obtain ⟨_, _, s, ⟨t, rfl, ht⟩, he⟩ := (C151_ndcg_keys name queryKey ks models outputs l weighted comps h comp.model comp.output _).1
    ⟨comp, hcomp, rfl, rfl, hm⟩
  cases (Option.some.inj (wanted_inj he).2.2)
  rcases ht with ht | ⟨k', _, e, h3⟩
  · exact hn ht
  · cases e; exact h3 _ hc rfl

/-- **C151** (full claim fails: NDCG without a list of sub keys). Called without sub keys the metric is refused however many top k are
given. -/
theorem C151_ndcg_no_sub_keys_fails (name queryKey : String) (ks : Option (List ℤ)) (models outputs : Option (List String))
    (weighted : Bool) (h : queryKey ≠ "") : ndcg name queryKey ks models outputs none weighted = .error .typeError := by
  simp [ndcg, h]

/-- **C151** (full claim fails: query statistics). Whatever models and outputs are asked for, no key carries a model or output, and the one
computation looks at neither. -/
theorem C151_query_statistics_fails (names : List String) (queryKey : String) (models outputs : Option (List String)) (weighted : Bool)
    (h : queryKey ≠ "") :
    ∃ c, queryStatistics names queryKey models outputs weighted = .ok [c] ∧ c.model = "" ∧ c.output = "" ∧
      c.keys = names.map fun n => wanted n weighted "" "" none := by
  exact ⟨_, by simp only [queryStatistics, if_neg h]; rfl, rfl, rfl, rfl⟩

/-- **C151** (full claim fails: query statistics of several models). With several models, all named, the statistics refuse every query
whose predictions are kept by model, unless a model has one of the names under which predictions are looked for. -/
theorem C151_query_statistics_models_fails (names : List String) (queryKey : String) (models outputs : Option (List String))
    (weighted : Bool) (comps : List Comp) (c : Comp) (hc : c ∈ comps) (part : ℕ → List Fl → List ℕ) (specs : List ModelSpec)
    (h2 : 2 ≤ specs.length) (hn : ∀ s ∈ specs, s.name ≠ "")
    (h : queryStatistics names queryKey models outputs weighted = .ok comps) (r : Raw) (f : Forest (Option (Arr Fl)))
    (hp : r.prediction = .node f)
    (hf : ∀ n ∈ ["scores", "outputs", "predictions", "logistic", "probabilities", "logits"], f.find? n = none) :
    toLabelPredictionWeight part (statisticsArgs specs c weighted) r = .error .valueError := by
  have hm : c.model = "" ∧ c.output = "" := by
    unfold queryStatistics at h
    split at h
    · cases h
    · cases h; rw [List.mem_singleton.1 hc]; exact ⟨rfl, rfl⟩
  have hs : specKeys specs "" = ("", "") := by
    unfold specKeys
    have : (specs.find? fun s => (if specs.length > 1 then s.name else "") == "") = none := by
      rw [List.find?_eq_none]
      intro s hs
      simpa [show specs.length > 1 by omega] using hn s hs
    rw [this]
  have hfound : commonKeys.findSome? f.find? = none := by
    rw [List.findSome?_eq_none_iff]; exact hf
  obtain ⟨l, p, w⟩ := r
  cases hp
  have hpp : preparePrediction "" (.node f) = .error .valueError := by simp only [preparePrediction, if_true, hfound]
  have leaf : ∀ {β : Type} (t : Tree β), (∃ x, requireLeaf t = .ok x) ∨ requireLeaf t = .error .valueError := by
    intro β t
    cases t with
    | leaf a => exact .inl ⟨a, rfl⟩
    | node g => exact .inr rfl
  simp only [toLabelPredictionWeight, find, statisticsArgs, hm.1, hm.2, hs, if_true, byName, bind, Except.bind, hpp]
  rcases leaf l with ⟨x, hx⟩ | hx
  · simp only [hx]
    rcases leaf (if (!weighted || isNoneLeaf w) = true then Tree.leaf (some (⟨[], [1]⟩ : Arr ℚ)) else w) with ⟨y, hy⟩ | hy <;> simp only [hy]
  · simp only [hx]

/-! ### Concrete cases -/

example : (exampleCount "n" (some ["a", "b"]) none (some [none, some (top 2)]) true).map (fun c => (c.model, c.keys.length)) =
    [("a", 2), ("b", 2)] := rfl

example : ∃ comps, ndcg "ndcg" "query" (some [1, 2]) (some ["a", "b"]) none (some [none, some (top 2)]) false = .ok comps ∧
    comps.map (fun c => c.keys.map MetricKey.subKey) = [[some (top 2), some (top 1)], [some (top 2), some (top 1)]] := ⟨_, rfl, rfl⟩

example : ∃ comps, ndcg "ndcg" "query" (some [2]) none none (some [some ⟨some 0, none, some 2⟩]) false = .ok comps ∧
    comps.map (fun c => c.keys.map MetricKey.subKey) = [[some ⟨some 0, none, some 2⟩]] := ⟨_, rfl, rfl⟩

example : ∃ comps, minLabelPosition "p" "query" (some ["a"]) none false = .ok comps ∧ comps.length = 1 := ⟨_, rfl, rfl⟩

example : toLabelPredictionWeight (fun _ _ => [])
    (statisticsArgs [⟨"a", "", ""⟩, ⟨"b", "", ""⟩] ⟨[], "", ""⟩ false)
    ⟨.leaf (some ⟨[1], [1]⟩), .node (.cons "a" (.leaf (some ⟨[1], [.fin 1]⟩)) (.cons "b" (.leaf (some ⟨[1], [.fin 1]⟩)) .nil)),
      .leaf none⟩ = .error .valueError := by decide +kernel

end KeysAsked
end TFMA
