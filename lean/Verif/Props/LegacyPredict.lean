import Verif.Lemmas.LegacyPredict

/-!
# C152: the legacy predict extractor adds to every example what the models predict for it

Specifications: `SpecFor` and `WeightsFrom` say where the weights of an example come from, `RowFor` what the extracts of an example
are once the models have seen it, `column` reads the values of all examples under a key off the output, in batches or not.
-/

namespace TFMA
namespace LegacyPredict

variable {V : Type}

/-- The spec of a model: the only one if the model has no name, otherwise the first with its name. -/
def SpecFor (specs : List Spec) (model : String) (s : Spec) : Prop :=
  (specs = [s] ∧ model = "") ∨
  (¬(specs.length = 1 ∧ model = "") ∧ ∃ pre post, specs = pre ++ s :: post ∧ s.name = model ∧ ∀ t ∈ pre, t.name ≠ model)

/-- The weights of an example: the feature that the spec of the model names; or, by output, those it names; or one. -/
def WeightsFrom (ones : V) (specs : List Spec) (model : String) (features w : Tree V) : Prop :=
  ∃ s, SpecFor specs model s ∧
    ((s.exampleWeightKey ≠ "" ∧ ∃ f, features = .node f ∧ f.find? s.exampleWeightKey = some w) ∨
     (s.exampleWeightKey = "" ∧ s.exampleWeightKeys ≠ [] ∧ ∃ f g, features = .node f ∧ w = .node g ∧
        g.keys = s.exampleWeightKeys.map Prod.fst ∧
        (∀ p ∈ s.exampleWeightKeys, ∃ t, f.find? p.2 = some t) ∧
        ∀ o k, Dict.get? s.exampleWeightKeys o = some k → g.find? o = f.find? k) ∨
     (s.exampleWeightKey = "" ∧ s.exampleWeightKeys = [] ∧ w = .leaf ones))

/-- The extracts of an example once the models have seen it: features, labels and what else the first model fetched, on top of what was
there; the weights of the first model; and the predictions, by model if there are several. -/
def RowFor (ones : V) (specs : List Spec) (m : Loaded V) (g : Tree V → Dict String (Tree V))
    (ps : List (Loaded V × (Tree V → Dict String (Tree V)))) (e : Ex V) (v : Tree V) (row : Ex V) : Prop :=
  (∀ k, k ≠ "predictions" → k ≠ "example_weights" → Dict.get? row k = (Dict.get? (g v) k).or (Dict.get? e k)) ∧
  (∃ features w, (Dict.get? (g v) "features").or (Dict.get? e "features") = some features ∧
    WeightsFrom ones specs m.name features w ∧ Dict.get? row "example_weights" = some w) ∧
  (ps = [] → Dict.get? row "predictions" = (Dict.get? (g v) "predictions").or (Dict.get? e "predictions")) ∧
  (ps ≠ [] → ∃ f, Dict.get? row "predictions" = some (.node f) ∧ f.keys = m.name :: ps.map (fun p => p.1.name) ∧
    (∃ p0, f.find? m.name = some p0 ∧ (Dict.get? (g v) "predictions").or (Dict.get? e "predictions") = some p0) ∧
    ∀ p ∈ ps, ∃ q, f.find? p.1.name = some q ∧ Dict.get? (p.2 v) "predictions" = some q)

/-- The values under a key in the output. -/
def column (k : String) : Out V → List (Tree V)
  | .row e => (Dict.get? e k).toList
  | .batch d => (Dict.get? d k).getD []

theorem getSpec_iff (specs : List Spec) (model : String) (s : Spec) : getSpec specs model = some s ↔ SpecFor specs model s := by
  unfold getSpec SpecFor
  split
  · rename_i h
    obtain ⟨h1, rfl⟩ := h
    obtain ⟨t, rfl⟩ := List.length_eq_one_iff.1 h1
    constructor
    · intro h; cases h; exact .inl ⟨rfl, rfl⟩
    · rintro (⟨h, _⟩ | ⟨h, _⟩)
      · cases h; rfl
      · exact absurd ⟨rfl, rfl⟩ h
  · rename_i h
    rw [List.find?_eq_some_iff_append]
    constructor
    · rintro ⟨h1, pre, post, rfl, h2⟩
      exact .inr ⟨h, pre, post, rfl, by simpa using h1, fun t ht => by simpa using h2 t ht⟩
    · rintro (⟨rfl, rfl⟩ | ⟨_, pre, post, rfl, h1, h2⟩)
      · exact absurd ⟨rfl, rfl⟩ h
      · exact ⟨by simpa using h1, pre, post, rfl, fun t ht => by simpa using h2 t ht⟩

theorem weightsByOutput_ok (f : Forest V) (d : Dict String String) : ∀ g, weightsByOutput f d = .ok g →
    g.keys = d.map Prod.fst ∧ (∀ p ∈ d, ∃ t, f.find? p.2 = some t) ∧ ∀ o k, Dict.get? d o = some k → g.find? o = f.find? k := by
  induction d with
  | nil => intro g h; cases h; exact ⟨rfl, by simp, by simp [Dict.get?]⟩
  | cons p d ih =>
    intro g h
    obtain ⟨o, k⟩ := p
    simp only [weightsByOutput] at h
    split at h
    · cases h
    rename_i w hw
    split at h
    · cases h
    rename_i g' hg'
    cases h
    obtain ⟨h1, h2, h3⟩ := ih g' hg'
    refine ⟨by simp [Forest.keys, h1], ?_, ?_⟩
    · intro p hp
      rcases List.mem_cons.1 hp with rfl | hp
      · exact ⟨w, hw⟩
      · exact h2 p hp
    · intro o' k' hk'
      rw [Dict.get?_cons] at hk'
      simp only [Forest.find?]
      by_cases ho : o = o'
      · simp only [ho, if_true, Option.some.injEq] at hk'
        subst hk'
        simp [ho, hw]
      · simp only [ho, if_false] at hk' ⊢
        exact h3 o' k' hk'

theorem weightsByOutput_accepts (f : Forest V) (d : Dict String String) (h : ∀ p ∈ d, ∃ t, f.find? p.2 = some t) :
    ∃ g, weightsByOutput f d = .ok g := by
  induction d with
  | nil => exact ⟨_, rfl⟩
  | cons p d ih =>
    obtain ⟨g, hg⟩ := ih fun q hq => h q (List.mem_cons_of_mem _ hq)
    obtain ⟨t, ht⟩ := h p List.mem_cons_self
    exact ⟨.cons p.1 t g, by simp only [weightsByOutput, ht, hg]⟩

theorem exampleWeights_from (env : Env V) (specs : List Spec) (model : String) (features w : Tree V)
    (h : exampleWeights env specs model features = .ok w) : WeightsFrom env.ones specs model features w := by
  unfold exampleWeights at h
  split at h
  · cases h
  rename_i s hs
  refine ⟨s, (getSpec_iff ..).1 hs, ?_⟩
  split at h
  · rename_i hk
    split at h
    · cases h
    rename_i f
    split at h
    · cases h
    rename_i w' hw
    cases h
    exact .inl ⟨hk, f, rfl, hw⟩
  · rename_i hk
    have hk : s.exampleWeightKey = "" := by simpa using hk
    split at h
    · rename_i hks
      split at h
      · cases h
      rename_i f
      split at h
      · cases h
      rename_i g hg
      cases h
      obtain ⟨h1, h2, h3⟩ := weightsByOutput_ok _ _ _ hg
      exact .inr (.inl ⟨hk, hks, f, g, rfl, rfl, h1, h2, h3⟩)
    · rename_i hks
      cases h
      exact .inr (.inr ⟨hk, by simpa using hks, rfl⟩)

theorem exampleWeights_accepts (env : Env V) (specs : List Spec) (model : String) (features w : Tree V)
    (h : WeightsFrom env.ones specs model features w) : ∃ w', exampleWeights env specs model features = .ok w' := by
  obtain ⟨s, hs, h⟩ := h
  have hs := (getSpec_iff ..).2 hs
  rcases h with ⟨h1, f, rfl, h2⟩ | ⟨h1, h2, f, g, rfl, rfl, _, h3, _⟩ | ⟨h1, h2, rfl⟩
  · exact ⟨w, by simp only [exampleWeights, hs, ne_eq, h1, not_false_eq_true, if_true, h2]⟩
  · obtain ⟨g', hg'⟩ := weightsByOutput_accepts f _ h3
    exact ⟨.node g', by simp only [exampleWeights, hs, ne_eq, h1, not_true_eq_false, if_false, h2, not_false_eq_true, if_true, hg']⟩
  · exact ⟨.leaf env.ones, by simp only [exampleWeights, hs, ne_eq, h1, not_true_eq_false, if_false, h2]⟩

theorem foldAdd_spec (v : Tree V) (ps : List (Loaded V × (Tree V → Dict String (Tree V)))) : ∀ (row0 row : Ex V) (f0 : Forest V),
    Dict.get? row0 "predictions" = some (.node f0) → (f0.keys ++ ps.map fun p => p.1.name).Nodup → foldAdd v ps row0 = .ok row →
    (∀ k, k ≠ "predictions" → Dict.get? row k = Dict.get? row0 k) ∧
    ∃ f, Dict.get? row "predictions" = some (.node f) ∧ f.keys = f0.keys ++ ps.map (fun p => p.1.name) ∧
      (∀ n ∈ f0.keys, f.find? n = f0.find? n) ∧
      ∀ p ∈ ps, ∃ q, f.find? p.1.name = some q ∧ Dict.get? (p.2 v) "predictions" = some q := by
  induction ps with
  | nil =>
    intro row0 row f0 h0 _ h
    cases h
    exact ⟨fun _ _ => rfl, f0, h0, by simp, fun _ _ => rfl, by simp⟩
  | cons p ps ih =>
    intro row0 row f0 h0 hnd h
    simp only [foldAdd] at h
    split at h
    · cases h
    rename_i row1 h1
    simp only [addTo] at h1
    split at h1
    · cases h1
    rename_i q hq
    simp only [h0, Except.ok.injEq] at h1
    subst h1
    have hn : p.1.name ∉ f0.keys := by
      intro hin
      rw [List.map_cons, List.nodup_append] at hnd
      exact hnd.2.2 _ hin _ List.mem_cons_self rfl
    have hk : (f0.set p.1.name q).keys = f0.keys ++ [p.1.name] := by
      rw [Forest.keys_set, if_neg hn]
    have hnd' : ((f0.set p.1.name q).keys ++ ps.map fun p => p.1.name).Nodup := by
      rw [hk]; simpa using hnd
    obtain ⟨g1, f, g2, g3, g4, g5⟩ := ih _ row _ (Dict.get?_set_self ..) hnd' h
    refine ⟨fun k hk => ?_, f, g2, ?_, ?_, ?_⟩
    · rw [g1 k hk, Dict.get?_set_ne _ _ (Ne.symm hk)]
    · rw [g3, hk]; simp
    · intro n hn'
      rw [g4 n (by rw [hk]; simp [hn']), Forest.find?_set, if_neg (fun e : p.1.name = n => hn (e ▸ hn'))]
    · intro p' hp'
      rcases List.mem_cons.1 hp' with rfl | hp'
      · refine ⟨q, ?_, hq⟩
        rw [g4 _ (by rw [hk]; simp), Forest.find?_set, if_pos rfl]
      · exact g5 p' hp'

theorem row_of_from (env : Env V) (specs : List Spec) (m : Loaded V) (g : Tree V → Dict String (Tree V))
    (ps : List (Loaded V × (Tree V → Dict String (Tree V)))) (hg : ∀ v, (g v).WF)
    (hn : (m.name :: ps.map fun p => p.1.name).Nodup) (e row : Ex V) (h : RowFrom env (some specs) m g ps e row) :
    ∃ v, Dict.get? e "input" = some v ∧ RowFor env.ones specs m g ps e v row := by
  obtain ⟨v, row0, es, i, hv, he, h0, hf⟩ := h
  refine ⟨v, hv, ?_⟩
  have hu : ∀ k, Dict.get? (Dict.update e (g v)) k = (Dict.get? (g v) k).or (Dict.get? e k) := fun k => get?_update_aux _ _ _ (hg v)
  simp only [newRow, he, hu] at h0
  split at h0
  · cases h0
  rename_i features hfeat
  split at h0
  · cases h0
  rename_i w hw
  have hw := exampleWeights_from _ _ _ _ _ hw
  by_cases hps : ps = []
  · subst hps
    simp only [List.length_nil, Nat.zero_add, ne_eq, not_true_eq_false, decide_false, Bool.false_eq_true, if_false,
      Except.ok.injEq] at h0
    subst h0
    cases hf
    refine ⟨fun k _ h2 => ?_, ⟨features, w, hfeat, hw, Dict.get?_set_self ..⟩, fun _ => ?_, fun h => absurd rfl h⟩
    · rw [Dict.get?_set_ne _ _ (Ne.symm h2), hu]
    · rw [Dict.get?_set_ne _ _ (by decide), hu]
  · have hlen : ps.length + 1 ≠ 1 := by
      have := List.length_pos_iff.2 hps
      omega
    simp only [hlen, ne_eq, not_false_eq_true, decide_true, if_true] at h0
    rw [Dict.get?_set_ne _ _ (by decide), hu] at h0
    split at h0
    · cases h0
    rename_i p hp
    cases h0
    obtain ⟨k1, f, k2, k3, k4, k5⟩ := foldAdd_spec v ps _ row (.cons m.name p .nil) (Dict.get?_set_self ..)
      (by simpa [Forest.keys] using hn) hf
    refine ⟨fun k h1 h2 => ?_, ⟨features, w, hfeat, hw, ?_⟩, fun h => absurd h hps, fun _ => ⟨f, k2, by simpa [Forest.keys] using k3, ?_, k5⟩⟩
    · rw [k1 k h1, Dict.get?_set_ne _ _ (Ne.symm h1), Dict.get?_set_ne _ _ (Ne.symm h2), hu]
    · rw [k1 _ (by decide), Dict.get?_set_ne _ _ (by decide), Dict.get?_set_self]
    · exact ⟨p, by rw [k4 m.name (by simp [Forest.keys])]; simp [Forest.find?], hp⟩

theorem WF_newRow (env : Env V) (config : Option (List Spec)) (several : Bool) (model : String) (es : List (Ex V)) (x : Fetched V)
    (e row : Ex V) (he : es[x.inputRef]? = some e) (hw : e.WF) (h : newRow env config several model es x = .ok row) : row.WF := by
  unfold newRow at h
  rw [he] at h
  simp only at h
  cases config with
  | none =>
    simp only at h
    split at h
    · cases h
    · cases h; exact Dict.WF_set (WF_update _ _ hw) _ _
  | some specs =>
    simp only at h
    split at h
    · cases h
    split at h
    · cases h
    split at h
    · split at h
      · cases h
      · cases h; exact Dict.WF_set (Dict.WF_set (WF_update _ _ hw) _ _) _ _
    · cases h; exact Dict.WF_set (WF_update _ _ hw) _ _

theorem WF_foldAdd (v : Tree V) (ps : List (Loaded V × (Tree V → Dict String (Tree V)))) : ∀ (row0 row : Ex V), row0.WF →
    foldAdd v ps row0 = .ok row → row.WF := by
  induction ps with
  | nil => intro row0 row h0 h; cases h; exact h0
  | cons p ps ih =>
    intro row0 row h0 h
    simp only [foldAdd] at h
    split at h
    · cases h
    rename_i row1 h1
    refine ih row1 row ?_ h
    simp only [addTo] at h1
    split at h1
    · cases h1
    split at h1
    · cases h1
    · cases h1
    · cases h1; exact Dict.WF_set h0 _ _

/-- **C152** (partial: models that look at examples one by one, with an eval config). If every model fetches, example by example, some
values of each, then the output has for every example, in order, the extracts it had with what the models fetched for it, whether the batch
was processed at once or one by one. -/
theorem C152_predictions_partial (env : Env V) (specs : List Spec) (m : Loaded V) (g : Tree V → Dict String (Tree V))
    (ps : List (Loaded V × (Tree V → Dict String (Tree V)))) (hm : PerExample m g) (hp : ∀ p ∈ ps, PerExample p.1 p.2)
    (hg : ∀ v, (g v).WF) (hn : (m.name :: ps.map fun p => p.1.name).Nodup) (elements : List (Ex V)) (hw : ∀ e ∈ elements, Dict.WF e)
    (outs : List (Out V)) (h : process env (some specs) (m :: ps.map Prod.fst) elements = .ok outs) :
    ∃ rows : List (Ex V), rows.length = elements.length ∧
      (∀ (j : ℕ) e, elements[j]? = some e → ∃ row v, rows[j]? = some row ∧ Dict.get? e "input" = some v ∧
        RowFor env.ones specs m g ps e v row) ∧
      ∀ k, outs.flatMap (column k) = rows.filterMap fun r => Dict.get? r k := by
  obtain ⟨rows, h1, h2, h3⟩ := process_spec env (some specs) m g ps hm hp elements outs h
  have hwf : ∀ r ∈ rows, Dict.WF r := by
    intro r hr
    obtain ⟨j, hj, rfl⟩ := List.mem_iff_getElem.1 hr
    have hje : j < elements.length := by omega
    obtain ⟨row, hrow, v, row0, es, i, hv, he, h0, hf⟩ := h2 j elements[j] (List.getElem?_eq_getElem hje)
    rw [List.getElem?_eq_getElem hj] at hrow
    cases hrow
    exact WF_foldAdd v ps _ _ (WF_newRow env _ _ _ es _ _ _ he (hw _ (List.getElem_mem hje)) h0) hf
  refine ⟨rows, h1, fun j e hj => ?_, fun k => ?_⟩
  · obtain ⟨row, hrow, hf⟩ := h2 j e hj
    obtain ⟨v, hv, hr⟩ := row_of_from env specs m g ps hg hn e row hf
    exact ⟨row, v, hrow, hv, hr⟩
  · rcases h3 with rfl | rfl
    · simp only [outsOf, List.flatMap_cons, List.flatMap_nil, List.append_nil, column]
      exact getD_wrap rows k hwf
    · clear h1 h2 h
      induction rows with
      | nil => rfl
      | cons r rows ih =>
        have ih := ih fun x hx => hwf x (List.mem_cons_of_mem _ hx)
        simp only [outsOf, List.flatMap_cons, column, List.flatMap_append, List.flatMap_nil, List.append_nil] at ih ⊢
        rw [getD_wrap [r] k (by simpa using hwf r List.mem_cons_self), ih]
        simp only [List.filterMap_cons, List.filterMap_nil]
        cases Dict.get? r k <;> rfl

theorem newRow_of_for (env : Env V) (specs : List Spec) (m : Loaded V) (g : Tree V → Dict String (Tree V))
    (ps : List (Loaded V × (Tree V → Dict String (Tree V)))) (hg : ∀ v, (g v).WF) (e row : Ex V) (v : Tree V)
    (h : RowFor env.ones specs m g ps e v row) (es : List (Ex V)) (i : ℕ) (he : es[i]? = some e) :
    ∃ row0, newRow env (some specs) (decide (ps.length + 1 ≠ 1)) m.name es ⟨i, g v⟩ = .ok row0 ∧
      (ps ≠ [] → ∃ f, Dict.get? row0 "predictions" = some (.node f)) := by
  have hu : ∀ k, Dict.get? (Dict.update e (g v)) k = (Dict.get? (g v) k).or (Dict.get? e k) := fun k => get?_update_aux _ _ _ (hg v)
  obtain ⟨_, ⟨features, w, h1, h2, _⟩, _, h4⟩ := h
  obtain ⟨w', hw'⟩ := exampleWeights_accepts env specs m.name features w h2
  simp only [newRow, he, hu, h1, hw']
  by_cases hps : ps = []
  · subst hps
    exact ⟨_, rfl, fun h => absurd rfl h⟩
  · have hlen : ps.length + 1 ≠ 1 := by
      have := List.length_pos_iff.2 hps
      omega
    obtain ⟨f, _, _, ⟨p0, _, hp0⟩, _⟩ := h4 hps
    simp only [hlen, ne_eq, not_false_eq_true, decide_true, if_true]
    rw [Dict.get?_set_ne _ _ (by decide), hu, hp0]
    exact ⟨_, rfl, fun _ => ⟨_, Dict.get?_set_self ..⟩⟩

theorem addTo_accepts (model : String) (row : Ex V) (x : Fetched V) (f : Forest V) (p : Tree V)
    (h : Dict.get? row "predictions" = some (.node f)) (hx : Dict.get? x.values "predictions" = some p) :
    ∃ row', addTo model row x = .ok row' ∧ ∃ f, Dict.get? row' "predictions" = some (.node f) := by
  simp only [addTo, hx, h]
  exact ⟨_, rfl, _, Dict.get?_set_self ..⟩

theorem exists_list {α β : Type} (xs : List α) : ∀ (P : ℕ → α → β → Prop), (∀ (j : ℕ) x, xs[j]? = some x → ∃ y, P j x y) →
    ∃ ys : List β, ys.length = xs.length ∧ ∀ (j : ℕ) x, xs[j]? = some x → ∃ y, ys[j]? = some y ∧ P j x y := by
  induction xs with
  | nil => intro P _; exact ⟨[], rfl, by simp⟩
  | cons x xs ih =>
    intro P h
    obtain ⟨y, hy⟩ := h 0 x rfl
    obtain ⟨ys, h1, h2⟩ := ih (fun j => P (j + 1)) fun j z hz => h (j + 1) z hz
    refine ⟨y :: ys, by simp [h1], fun j z hz => ?_⟩
    cases j with
    | zero => cases hz; exact ⟨y, rfl, hy⟩
    | succ j => exact h2 j z hz

theorem inputsOf_accepts (elements : List (Ex V)) (h : ∀ e ∈ elements, ∃ v, Dict.get? e "input" = some v) :
    ∃ inputs, inputsOf elements = .ok inputs := by
  induction elements with
  | nil => exact ⟨_, rfl⟩
  | cons e es ih =>
    obtain ⟨v, hv⟩ := h e List.mem_cons_self
    obtain ⟨vs, hvs⟩ := ih fun x hx => h x (List.mem_cons_of_mem _ hx)
    exact ⟨v :: vs, by simp only [inputsOf, hv, hvs]⟩

/-- A model that looks at the examples one by one and never fails. -/
def Total (m : Loaded V) (g : Tree V → Dict String (Tree V)) : Prop :=
  ∀ inputs, m.predict inputs = .ok (inputs.mapIdx fun i v => ⟨i, g v⟩)

theorem Total.perExample {m : Loaded V} {g : Tree V → Dict String (Tree V)} (h : Total m g) : PerExample m g := by
  intro inputs xs hx
  rw [h inputs] at hx; cases hx; rfl

theorem get_mapIdx (inputs : List (Tree V)) (g : Tree V → Dict String (Tree V)) (j : ℕ) (x : Fetched V)
    (h : (inputs.mapIdx fun i v => (⟨i, g v⟩ : Fetched V))[j]? = some x) : ∃ v, inputs[j]? = some v ∧ x = ⟨j, g v⟩ := by
  rw [List.getElem?_mapIdx] at h
  cases hv : inputs[j]? with
  | none => rw [hv] at h; cases h
  | some v => rw [hv] at h; cases h; exact ⟨v, rfl, rfl⟩

theorem modelsLoop_accepts (env : Env V) (config : Option (List Spec)) (several : Bool) (elements : List (Ex V)) (inputs : List (Tree V))
    (ps : List (Loaded V × (Tree V → Dict String (Tree V)))) : (∀ p ∈ ps, Total p.1 p.2) → ∀ rows : List (Ex V),
      rows.length = inputs.length →
      (∀ r ∈ rows, ∃ f, Dict.get? r "predictions" = some (.node f)) →
      (∀ v ∈ inputs, ∀ p ∈ ps, ∃ q, Dict.get? (p.2 v) "predictions" = some q) →
      ∃ rows', modelsLoop env config several elements inputs (ps.map Prod.fst) rows = .ok rows' := by
  induction ps with
  | nil => intro _ rows _ _ _; exact ⟨rows, rfl⟩
  | cons p ps ih =>
    intro ht rows hl hr hv
    have hlen : (inputs.mapIdx fun i v => (⟨i, p.2 v⟩ : Fetched V)).length = inputs.length := by simp
    obtain ⟨ys, h1, h2⟩ := exists_list rows (fun j o y => (∀ x, (inputs.mapIdx fun i v => (⟨i, p.2 v⟩ : Fetched V))[j]? = some x →
        addTo p.1.name o x = .ok y) ∧ ∃ f, Dict.get? y "predictions" = some (.node f)) (by
      intro j o ho
      have hj : j < inputs.length := by rw [← hl]; exact (List.getElem?_eq_some_iff.1 ho).1
      obtain ⟨f, hf⟩ := hr o (List.mem_of_getElem? ho)
      obtain ⟨q, hq⟩ := hv inputs[j] (List.getElem_mem hj) p List.mem_cons_self
      obtain ⟨row', hrow', hf'⟩ := addTo_accepts p.1.name o ⟨j, p.2 inputs[j]⟩ f q hf hq
      refine ⟨row', fun x hx => ?_, hf'⟩
      obtain ⟨v, hv', rfl⟩ := get_mapIdx _ _ _ _ hx
      rw [List.getElem?_eq_getElem hj] at hv'; cases hv'
      exact hrow')
    have hloop : fetchedLoop env config several p.1.name elements 0 (inputs.mapIdx fun i v => ⟨i, p.2 v⟩) rows = .ok ys := by
      refine (fetchedLoop_add env config several p.1.name elements _ [] rows ys (by omega)).2 ⟨ys, rfl, by omega, ?_⟩
      intro j x o hx ho
      obtain ⟨y, hy, h3, _⟩ := h2 j o ho
      exact ⟨y, hy, h3 x hx⟩
    obtain ⟨rows', h'⟩ := ih (fun q hq => ht q (List.mem_cons_of_mem _ hq)) ys (by omega) (by
      intro y hy
      obtain ⟨j, hj, rfl⟩ := List.mem_iff_getElem.1 hy
      obtain ⟨y', hy', _, hf⟩ := h2 j rows[j] (List.getElem?_eq_getElem (by omega))
      rw [List.getElem?_eq_getElem hj] at hy'; cases hy'
      exact hf) fun v hv' q hq => hv v hv' q (List.mem_cons_of_mem _ hq)
    exact ⟨rows', by simp only [List.map_cons, modelsLoop, ht p List.mem_cons_self inputs, hloop, h']⟩

/-- **C152** (acceptance). If the models never fail and look at examples one by one, then a batch is processed exactly if every example
has an input, features with the weights asked for and, where there are several models, predictions of each. -/
theorem C152_accepted (env : Env V) (specs : List Spec) (m : Loaded V) (g : Tree V → Dict String (Tree V))
    (ps : List (Loaded V × (Tree V → Dict String (Tree V)))) (hm : Total m g) (hp : ∀ p ∈ ps, Total p.1 p.2)
    (hg : ∀ v, (g v).WF) (hn : (m.name :: ps.map fun p => p.1.name).Nodup) (elements : List (Ex V)) (hw : ∀ e ∈ elements, Dict.WF e) :
    (∃ outs, process env (some specs) (m :: ps.map Prod.fst) elements = .ok outs) ↔
      ∀ e ∈ elements, ∃ v row, Dict.get? e "input" = some v ∧ RowFor env.ones specs m g ps e v row := by
  constructor
  · rintro ⟨outs, h⟩ e he
    obtain ⟨rows, _, h2, _⟩ := C152_predictions_partial env specs m g ps hm.perExample (fun p hp' => (hp p hp').perExample) hg hn
      elements hw outs h
    obtain ⟨j, hj, rfl⟩ := List.mem_iff_getElem.1 he
    obtain ⟨row, v, _, h3, h4⟩ := h2 j _ (List.getElem?_eq_getElem hj)
    exact ⟨v, row, h3, h4⟩
  · intro h
    obtain ⟨inputs, hin⟩ := inputsOf_accepts elements fun e he => by
      obtain ⟨v, _, hv, _⟩ := h e he; exact ⟨v, hv⟩
    obtain ⟨hl, hget⟩ := inputsOf_spec _ _ hin
    have hlen : (inputs.mapIdx fun i v => (⟨i, g v⟩ : Fetched V)).length = inputs.length := by simp
    obtain ⟨ys, h1, h2⟩ := exists_list (inputs.mapIdx fun i v => (⟨i, g v⟩ : Fetched V))
      (fun _ x y => newRow env (some specs) (decide (ps.length + 1 ≠ 1)) m.name elements x = .ok y ∧
        (ps ≠ [] → ∃ f, Dict.get? y "predictions" = some (.node f))) (by
      intro j x hx
      obtain ⟨v, hv, rfl⟩ := get_mapIdx _ _ _ _ hx
      have hj : j < elements.length := by rw [← hl]; exact (List.getElem?_eq_some_iff.1 hv).1
      obtain ⟨v', row, hv', hr⟩ := h elements[j] (List.getElem_mem hj)
      rw [hget j _ (List.getElem?_eq_getElem hj), hv] at hv'
      cases hv'
      exact newRow_of_for env specs m g ps hg _ row v hr elements j (List.getElem?_eq_getElem hj))
    have hloop : fetchedLoop env (some specs) (decide (ps.length + 1 ≠ 1)) m.name elements 0 (inputs.mapIdx fun i v => ⟨i, g v⟩) [] =
        .ok ys := by
      refine (fetchedLoop_new env (some specs) _ m.name elements _ [] ys).2 ⟨ys, rfl, h1, fun j x hx => ?_⟩
      obtain ⟨y, hy, h3, _⟩ := h2 j x hx
      exact ⟨y, hy, h3⟩
    have hrest : ∃ rows', modelsLoop env (some specs) (decide (ps.length + 1 ≠ 1)) elements inputs (ps.map Prod.fst) ys = .ok rows' := by
      by_cases hps : ps = []
      · subst hps; exact ⟨ys, rfl⟩
      · refine modelsLoop_accepts env _ _ elements inputs ps hp ys (by omega) (fun y hy => ?_) fun v hv p hp' => ?_
        · obtain ⟨j, hj, rfl⟩ := List.mem_iff_getElem.1 hy
          obtain ⟨y', hy', _, hf⟩ := h2 j _ (List.getElem?_eq_getElem (by omega))
          rw [List.getElem?_eq_getElem hj] at hy'; cases hy'
          exact hf hps
        · obtain ⟨j, hj, rfl⟩ := List.mem_iff_getElem.1 hv
          have hje : j < elements.length := by omega
          obtain ⟨v', row, hv', hr⟩ := h elements[j] (List.getElem_mem hje)
          rw [hget j _ (List.getElem?_eq_getElem hje), List.getElem?_eq_getElem hj] at hv'
          cases hv'
          obtain ⟨f, _, _, _, hq⟩ := hr.2.2.2 hps
          obtain ⟨q, _, hq⟩ := hq p hp'
          exact ⟨q, hq⟩
    obtain ⟨rows', hrows'⟩ := hrest
    have : batchProcess env (some specs) (m :: ps.map Prod.fst) elements = .ok [.batch (wrap rows')] := by
      have hrows : rowsOf env (some specs) (m :: ps.map Prod.fst) elements = .ok rows' := by
        unfold rowsOf
        rw [hin, List.length_cons, List.length_map]
        simp only [modelsLoop, hm inputs]
        rw [hloop]
        exact hrows'
      simp only [batchProcess, hrows]
    refine ⟨[.batch (wrap rows')], ?_⟩
    unfold process
    rw [this]

/-- **C152** (without eval config). With one model, the output is the extracts of the examples in order: each with the features,
predictions and labels of the legacy API and what else the model fetched, on top of what was there. -/
theorem C152_legacy (env : Env V) (m : Loaded V) (g : Tree V → Dict String (Tree V)) (hm : PerExample m g) (hg : ∀ v, (g v).WF)
    (elements : List (Ex V)) (outs : List (Out V)) (h : process env none [m] elements = .ok outs) :
    outs.length = elements.length ∧ ∀ (j : ℕ) e, elements[j]? = some e → ∃ row v, ∃ i : ℕ,
      outs[j]? = some (.row row) ∧ Dict.get? e "input" = some v ∧
      Dict.get? row "_fpl" = some (.leaf (env.fpl m.name ⟨i, g v⟩)) ∧
      ∀ k, k ≠ "_fpl" → Dict.get? row k =
        if k = "features" ∨ k = "predictions" ∨ k = "labels" then Dict.get? e k else (Dict.get? (g v) k).or (Dict.get? e k) := by
  obtain ⟨rows, h1, h2, h3⟩ := process_spec env none m g [] hm (by simp) elements outs h
  have h3 : outs = rows.map .row := by
    rcases h3 with rfl | rfl
    · rfl
    · simp only [outsOf, List.map_cons, List.map_nil]
      exact List.flatMap_pure_eq_map _ _
  subst h3
  refine ⟨by simpa using h1, fun j e hj => ?_⟩
  obtain ⟨row, hrow, v, row0, es, i, hv, he, h0, hf⟩ := h2 j e hj
  cases hf
  simp only [newRow, he, List.length_nil, Nat.zero_add, ne_eq, not_true_eq_false, decide_false, Bool.false_eq_true, if_false,
    Except.ok.injEq] at h0
  subst h0
  refine ⟨_, v, i, by rw [List.getElem?_map, hrow]; rfl, hv, Dict.get?_set_self .., fun k hk => ?_⟩
  rw [Dict.get?_set_ne _ _ (Ne.symm hk)]
  have hfw : Dict.WF ((g v).filter fun kv => decide (kv.1 ∉ ["features", "predictions", "labels"])) :=
    List.Nodup.sublist ((List.filter_sublist).map _) (hg v)
  have hfg : ∀ d : Dict String (Tree V), Dict.get? (d.filter fun kv => decide (kv.1 ∉ ["features", "predictions", "labels"])) k =
      if k = "features" ∨ k = "predictions" ∨ k = "labels" then none else Dict.get? d k := by
    intro d
    induction d with
    | nil => simp [Dict.get?]
    | cons kv d ih =>
      obtain ⟨k', x⟩ := kv
      rw [List.filter_cons]
      split
      · rename_i hin
        have hin : k' ∉ ["features", "predictions", "labels"] := by simpa using hin
        rw [Dict.get?_cons, Dict.get?_cons, ih]
        by_cases he : k' = k
        · subst he
          have : ¬(k' = "features" ∨ k' = "predictions" ∨ k' = "labels") := by simpa using hin
          simp [this]
        · simp [he]
      · rename_i hin
        have hin : k' = "features" ∨ k' = "predictions" ∨ k' = "labels" := by
          by_contra hno
          exact hin (by simpa using hno)
        rw [ih, Dict.get?_cons]
        by_cases he : k' = k
        · subst he; simp [hin]
        · simp [he]
  rw [get?_update_aux _ _ _ hfw, hfg]
  split <;> simp

/-- **C152** (several models without eval config). Several models are refused as soon as there is an example. -/
theorem C152_several_refused (env : Env V) (m : Loaded V) (g : Tree V → Dict String (Tree V))
    (ps : List (Loaded V × (Tree V → Dict String (Tree V)))) (hm : PerExample m g) (hp : ∀ p ∈ ps, PerExample p.1 p.2) (h2 : ps ≠ [])
    (elements : List (Ex V)) (he : elements ≠ []) : ∀ outs, process env none (m :: ps.map Prod.fst) elements ≠ .ok outs := by
  intro outs h
  obtain ⟨rows, _, hr, _⟩ := process_spec env none m g ps hm hp elements outs h
  cases elements with
  | nil => exact he rfl
  | cons e es =>
    obtain ⟨_, _, v, row0, es', i, _, he', h0, _⟩ := hr 0 e rfl
    have hlen : ps.length + 1 ≠ 1 := by
      have := List.length_pos_iff.2 h2
      omega
    simp only [newRow, he', hlen, ne_eq, not_false_eq_true, decide_true, if_true] at h0
    cases h0

/-- **C152** (batches): with an eval config every serialized example of a batch comes out once and in its place. -/
theorem C152_batch (env : Env V) (raw : String) (specs : List Spec) (m : Loaded V) (g : Tree V → Dict String (Tree V))
    (ps : List (Loaded V × (Tree V → Dict String (Tree V)))) (hm : PerExample m g) (hp : ∀ p ∈ ps, PerExample p.1 p.2)
    (hg : ∀ v, (g v).WF) (hn : (m.name :: ps.map fun p => p.1.name).Nodup) (batch : Dict String (Col V))
    (columns : Dict String (List V)) (vs : List V) (hb : Dict.get? batch "arrow_record_batch" = some (.arrow columns))
    (hc : Dict.get? columns raw = some vs) (hno : ∀ v, Dict.get? (g v) "input" = none) (outs : List (Out V))
    (h : predictBatch env raw specs (m :: ps.map Prod.fst) batch = .ok outs) :
    outs.flatMap (column "input") = vs.map .leaf := by
  unfold predictBatch unwrap at h
  simp only [hb, hc] at h
  obtain ⟨rows, h1, h2, h3⟩ := C152_predictions_partial env specs m g ps hm hp hg hn
    (vs.map fun v => [("input", .leaf v)]) (by
      intro e he
      obtain ⟨v, _, rfl⟩ := List.mem_map.1 he
      simp [Dict.WF, Dict.keys]) outs h
  rw [h3]
  have hrow : ∀ (j : ℕ) (v : V), vs[j]? = some v → ∃ row, rows[j]? = some row ∧ Dict.get? row "input" = some (.leaf v) := by
    intro j v hj
    obtain ⟨row, _, hrow, _, hfor⟩ := h2 j [("input", .leaf v)] (by simp [hj])
    refine ⟨row, hrow, ?_⟩
    rw [hfor.1 "input" (by decide) (by decide), hno]
    rfl
  have hlen : rows.length = vs.length := by simpa using h1
  clear h h1 h2 h3 hb hc
  induction rows generalizing vs with
  | nil => cases vs with
    | nil => rfl
    | cons v vs => simp at hlen
  | cons r rows ih => cases vs with
    | nil => simp at hlen
    | cons v vs =>
      obtain ⟨row, e, hg⟩ := hrow 0 v rfl
      simp only [List.getElem?_cons_zero, Option.some.injEq] at e
      subst e
      rw [List.filterMap_cons, hg, List.map_cons]
      simp only [List.cons.injEq, true_and]
      exact ih vs (fun j w hj => by simpa using hrow (j + 1) w (by simpa using hj)) (by simpa using hlen)

/-- **C152** (full claim fails: what a batch held). With an eval config nothing but the serialized examples is taken from a batch: what
other extractors had put there is gone, unless a model fetches it again. -/
theorem C152_extracts_dropped_fails (env : Env V) (raw : String) (specs : List Spec) (m : Loaded V) (g : Tree V → Dict String (Tree V))
    (ps : List (Loaded V × (Tree V → Dict String (Tree V)))) (hm : PerExample m g) (hp : ∀ p ∈ ps, PerExample p.1 p.2)
    (hg : ∀ v, (g v).WF) (hn : (m.name :: ps.map fun p => p.1.name).Nodup) (batch : Dict String (Col V)) (outs : List (Out V))
    (h : predictBatch env raw specs (m :: ps.map Prod.fst) batch = .ok outs) (k : String)
    (hk : k ∉ ["input", "predictions", "example_weights"]) (hno : ∀ v, Dict.get? (g v) k = none) :
    outs.flatMap (column k) = [] := by
  unfold predictBatch at h
  split at h
  · cases h
  rename_i elements hel
  have hel' : ∀ e ∈ elements, ∃ v, e = [("input", .leaf v)] := by
    unfold unwrap at hel
    split at hel
    · cases hel
    · cases hel
    · split at hel
      · cases hel
      · cases hel
        intro e he
        obtain ⟨v, _, rfl⟩ := List.mem_map.1 he
        exact ⟨v, rfl⟩
  obtain ⟨rows, h1, h2, h3⟩ := C152_predictions_partial env specs m g ps hm hp hg hn elements (by
    intro e he
    obtain ⟨v, rfl⟩ := hel' e he
    simp [Dict.WF, Dict.keys]) outs h
  rw [h3, List.filterMap_eq_nil_iff]
  intro r hr
  obtain ⟨j, hj, rfl⟩ := List.mem_iff_getElem.1 hr
  have hje : j < elements.length := by omega
  obtain ⟨row, v, hrow, _, hfor⟩ := h2 j _ (List.getElem?_eq_getElem hje)
  rw [List.getElem?_eq_getElem hj] at hrow
  cases hrow
  simp only [List.mem_cons, List.not_mem_nil, or_false, not_or] at hk
  rw [hfor.1 k hk.2.1 hk.2.2, hno]
  obtain ⟨v', hv'⟩ := hel' elements[j] (List.getElem_mem hje)
  rw [hv', Dict.get?_cons, if_neg (Ne.symm hk.1)]
  rfl

/-- A model whose predictions of two examples come in the order given. -/
def twoRows (name : String) (a b : ℕ) : Loaded ℕ where
  name := name
  predict := fun inputs => match inputs with
    | [x, y] => .ok ([a, b].map fun i => ⟨i, [("features", .node .nil), ("predictions", [x, y].getD i x), ("labels", .leaf 0)]⟩)
    | _ => .error .valueError

/-- **C152** (full claim fails: models that fetch in another order). The predictions of the second model are matched by position, not by
the example they belong to: here both models predict the example itself, the second one in reverse order, and each example ends up with
the second model's prediction of the other. -/
theorem C152_positions_fails :
    ∃ d, process (⟨1, fun _ _ => 0⟩ : Env ℕ) (some [⟨"a", "", []⟩, ⟨"b", "", []⟩]) [twoRows "a" 0 1, twoRows "b" 1 0]
        [[("input", .leaf 10)], [("input", .leaf 20)]] = .ok [.batch d] ∧
      Dict.get? d "input" = some [.leaf 10, .leaf 20] ∧
      Dict.get? d "predictions" = some [.node (.cons "a" (.leaf 10) (.cons "b" (.leaf 20) .nil)),
        .node (.cons "a" (.leaf 20) (.cons "b" (.leaf 10) .nil))] :=
  ⟨_, rfl, rfl, rfl⟩

/-! ### Concrete cases -/

/-- A model that predicts the example itself. -/
def echo (name : String) : Loaded ℕ where
  name := name
  predict := fun inputs => .ok (inputs.mapIdx fun i v =>
    ⟨i, [("features", .node (.cons "w" (.leaf 3) .nil)), ("predictions", v), ("labels", .leaf 0)]⟩)

example : Total (echo "a") fun v => [("features", .node (.cons "w" (.leaf 3) .nil)), ("predictions", v), ("labels", .leaf 0)] :=
  fun _ => rfl

example : ∃ d, process (⟨1, fun _ _ => 0⟩ : Env ℕ) (some [⟨"a", "w", []⟩, ⟨"b", "", []⟩]) [echo "a", echo "b"]
    [[("input", .leaf 10)], [("input", .leaf 20)]] = .ok [.batch d] ∧
    Dict.get? d "predictions" = some [.node (.cons "a" (.leaf 10) (.cons "b" (.leaf 10) .nil)),
        .node (.cons "a" (.leaf 20) (.cons "b" (.leaf 20) .nil))] ∧
    Dict.get? d "example_weights" = some [.leaf 3, .leaf 3] := ⟨_, rfl, rfl, rfl⟩

/-- The batch fails, the examples one by one do not. -/
example : ∃ d d', process (⟨1, fun _ _ => 0⟩ : Env ℕ) (some [⟨"", "", []⟩])
    [⟨"", fun inputs => if inputs.length > 1 then .error .valueError else (echo "").predict inputs⟩]
    [[("input", .leaf 10)], [("input", .leaf 20)]] = .ok [.batch d, .batch d'] ∧
    Dict.get? d "predictions" = some [.leaf 10] ∧ Dict.get? d' "predictions" = some [.leaf 20] := ⟨_, _, rfl, rfl, rfl⟩

example : ∃ outs, predictBatch (⟨1, fun _ _ => 0⟩ : Env ℕ) "raw" [⟨"", "", []⟩] [echo ""]
    [("arrow_record_batch", .arrow [("raw", [10, 20])]), ("slice_keys", .values [.leaf 1, .leaf 2])] = .ok outs ∧
    outs.flatMap (column "slice_keys") = [] := ⟨_, rfl, rfl⟩

example : ∃ row, process (⟨1, fun _ _ => 7⟩ : Env ℕ) none [echo ""] [[("input", .leaf 10)]] = .ok [.row row] ∧
    Dict.get? row "_fpl" = some (.leaf 7) ∧ Dict.get? row "labels" = none := ⟨_, rfl, rfl, rfl⟩

end LegacyPredict
end TFMA
