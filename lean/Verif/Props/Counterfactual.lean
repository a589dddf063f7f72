import Verif.Model.Counterfactual
import Verif.Model.Inputs
import Verif.Py.DictLemmas

/-!
# C110: counterfactual predictions
-/

namespace TFMA
namespace Counterfactual

open ModelInputs Inputs

variable {F V O : Type}

/-! ### Specification -/

/-- The feature of an example, empty if it is missing. -/
def featureOf (empty : F) (ex : Example F) (k : String) : F := (Dict.get? ex k).getD empty

/-- `ex'` is `ex` with the features that the config names replaced by their sources. -/
def Replaced (empty : F) (config : Dict String String) (ex ex' : Example F) : Prop :=
  ∀ k, featureOf empty ex' k = match Dict.get? config k with
    | some src => featureOf empty ex src
    | none => featureOf empty ex k

/-- No source of a config is a destination of an entry before it. -/
def Forward (config : Dict String String) : Prop := config.Pairwise fun a b => b.2 ≠ a.1

/-- What a model sees: its inputs if it is called with them, otherwise the examples. -/
def seen (f : Fed V) (examples : List (Example F)) : Dict String V ⊕ List (Example F) := match f with
  | .named inputs => .inl inputs
  | .serialized => .inr examples

/-! ### Examples -/

private theorem featureOf_touch (empty : F) (ex : Example F) (k k' : String) :
    featureOf empty (touch empty ex k) k' = featureOf empty ex k' := by
  unfold touch
  split
  · rfl
  · rename_i h
    unfold featureOf
    rw [Dict.get?_set]
    split
    · rename_i hk
      subst hk
      have : Dict.get? ex k = none := by
        unfold Dict.has at h
        simpa using h
      rw [this]
      rfl
    · rfl

private theorem featureOf_copy (empty : F) (ex : Example F) (p : String × String) (k : String) :
    featureOf empty (copyFeature empty ex p) k = if k = p.1 then featureOf empty ex p.2 else featureOf empty ex k := by
  unfold copyFeature
  dsimp only
  have h1 : ∀ k, featureOf empty (touch empty (touch empty ex p.1) p.2) k = featureOf empty ex k := by
    intro k; rw [featureOf_touch, featureOf_touch]
  rw [featureOf, Dict.get?_set]
  by_cases h : p.1 = k
  · rw [if_pos h, if_pos h.symm]
    exact h1 p.2
  · rw [if_neg h, if_neg (fun e => h e.symm)]
    exact h1 k

private theorem cfExample_replaced (empty : F) (config : Dict String String) (hwf : Dict.WF config) (hf : Forward config)
    (ex : Example F) : Replaced empty config ex (cfExample empty config ex) := by
  unfold cfExample
  induction config generalizing ex with
  | nil => intro k; rfl
  | cons p rest ih =>
    obtain ⟨d, s⟩ := p
    simp only [Dict.WF, Dict.keys, List.map_cons, List.nodup_cons] at hwf
    have hp := List.pairwise_cons.1 hf
    intro k
    rw [List.foldl_cons, ih hwf.2 hp.2 (copyFeature empty ex (d, s)) k]
    rw [Dict.get?_cons]
    cases hg : Dict.get? rest k with
    | some s' =>
      have hm := Dict.mem_of_get? hg
      have hkd : d ≠ k := fun e => hwf.1 (List.mem_map.2 ⟨_, hm, e.symm⟩)
      rw [if_neg hkd]
      dsimp only
      rw [featureOf_copy, if_neg (hp.1 _ hm)]
    | none =>
      dsimp only
      rw [featureOf_copy]
      by_cases h : d = k
      · rw [if_pos h.symm, if_pos h]
      · rw [if_neg (fun e => h e.symm), if_neg h]

/-- **C110** (examples): if no source of the config is a destination of an entry before it, the counterfactual example has at
every destination the original feature of its source, and at every other key its own feature. -/
theorem C110_example_partial (empty : F) (config : Dict String String) (hwf : Dict.WF config) (hf : Forward config)
    (ex : Example F) : Replaced empty config ex (cfExample empty config ex) := cfExample_replaced empty config hwf hf ex

/-- Non-vacuous: two features are replaced by those of other keys. -/
example : Forward [("x", "x_cf"), ("y", "y_cf")] ∧
    cfExample 0 [("x", "x_cf"), ("y", "y_cf")] [("x", 1), ("y", 2), ("x_cf", 3), ("y_cf", 4), ("z", 5)] =
      [("x", 3), ("y", 4), ("x_cf", 3), ("y_cf", 4), ("z", 5)] := by
  constructor
  · simp [Forward]
  · rfl

/-- **C110** (no swap): a config that swaps two features does not swap them; both become the second one. -/
theorem C110_no_swap :
    cfExample 0 [("x", "y"), ("y", "x")] [("x", 1), ("y", 2)] = [("x", 2), ("y", 2)] ∧
      ¬ Replaced 0 [("x", "y"), ("y", "x")] [("x", 1), ("y", 2)]
        (cfExample 0 [("x", "y"), ("y", "x")] [("x", 1), ("y", 2)]) := by
  refine ⟨rfl, fun h => ?_⟩
  have := h "y"
  exact absurd this (by decide)

/-- **C110** (missing source): a source that the example does not have empties the destination. -/
theorem C110_missing_source (empty : F) (dst src : String) (ex : Example F) (h : src ∉ ex.map Prod.fst) (hne : src ≠ dst) :
    Dict.get? (cfExample empty [(dst, src)] ex) dst = some empty ∧
      Dict.get? (cfExample empty [(dst, src)] ex) src = some empty := by
  have hn : Dict.get? ex src = none := (Dict.get?_eq_none_iff _ _).2 h
  have h1 : Dict.get? (touch empty ex dst) src = none := by
    unfold touch
    split
    · exact hn
    · rw [Dict.get?_set, if_neg (fun e => hne e.symm), hn]
  have h2 : Dict.get? (touch empty (touch empty ex dst) src) src = some empty := by
    rw [touch, if_neg (by unfold Dict.has; rw [h1]; simp), Dict.get?_set, if_pos rfl]
  unfold cfExample copyFeature
  simp only [List.foldl_cons, List.foldl_nil, h2, Option.getD_some]
  rw [Dict.get?_set, if_pos rfl, Dict.get?_set, if_neg (fun e => hne e.symm), h2]
  exact ⟨rfl, rfl⟩

/-- Non-vacuous. -/
example : "x_cf" ∉ ([("x", 1)] : Example ℕ).map Prod.fst ∧ "x_cf" ≠ "x" := by decide

/-! ### Predictions of one model -/

private def forestAt (b : Batch F V O) : Option (Forest O) := match b.predictions with
  | none => some .nil
  | some (.node f) => some f
  | some (.leaf _) => none

private theorem store_some {b : Batch F V O} {f : Forest O} (h : forestAt b = some f) (name : String) (v : Tree O) :
    store b (some name) v = .ok { b with predictions := some (.node (f.set name v)) } := by
  unfold forestAt at h
  unfold store
  cases hp : b.predictions with
  | none =>
    rw [hp] at h
    simp only [Option.some.injEq] at h
    subst h
    rfl
  | some t =>
    rw [hp] at h
    cases t with
    | node g =>
      simp only [Option.some.injEq] at h
      subst h
      rfl
    | leaf o => exact absurd h (by simp)

private theorem filterSpecs_single (specs : List Spec) (hn : (specs.map Spec.name).Nodup) (m : CModel F V O) (s : Spec)
    (hs : s ∈ specs) (hm : s.name = m.name) : filterSpecs specs [m] = [s] := by
  unfold filterSpecs
  induction specs with
  | nil => exact absurd hs (by simp)
  | cons x xs ih =>
    simp only [List.map_cons, List.nodup_cons] at hn
    rcases List.mem_cons.1 hs with rfl | hs'
    · rw [List.filter_cons, if_pos (by simp [hm])]
      congr 1
      rw [List.filter_eq_nil_iff]
      intro y hy
      simp only [List.any_cons, List.any_nil, Bool.or_false, beq_iff_eq]
      intro he
      exact hn.1 (List.mem_map.2 ⟨y, hy, by rw [← he, hm]⟩)
    · rw [List.filter_cons, if_neg, ih hn.2 hs']
      simp only [List.any_cons, List.any_nil, Bool.or_false, beq_iff_eq]
      intro he
      exact hn.1 (List.mem_map.2 ⟨s, hs', by rw [hm, he]⟩)

private theorem predict_rename (m : CModel F V O) (n sig : String) (b : Batch F V O) :
    predict { m with name := n } sig b = predict m sig b := rfl

private theorem extract_single (s : Spec) (m : CModel F V O) (sub : Option String) (b : Batch F V O) :
    extractPredictions [s] [m] sub b = match predict m s.signature b with
      | .error e => .error e
      | .ok o => store b sub (.leaf o) := by
  unfold extractPredictions normalize
  simp only [List.length_singleton, gt_iff_lt, lt_self_iff_false, if_false, List.map_cons, List.map_nil,
    List.cons_ne_nil, List.foldl_cons, List.foldl_nil, Dict.set, setup, usedName, Dict.get?, if_true, outputs, predict_rename]
  cases predict m s.signature b <;> rfl

private theorem extractCf_eq (empty : F) (specs : List Spec) (hn : (specs.map Spec.name).Nodup) (m : CModel F V O) (s : Spec)
    (hs : s ∈ specs) (hm : s.name = m.name) (config : Dict String String) (b : Batch F V O) (f : Forest O)
    (hf : forestAt b = some f) (o : O) (ho : predict m s.signature { b with input := b.input.map (cfExample empty config) } = .ok o) :
    extractCf empty specs m config b =
      .ok { b with saved := none, predictions := some (.node (f.set m.name (.leaf o))) } := by
  unfold extractCf
  rw [filterSpecs_single specs hn m s hs hm, extract_single]
  have hp : predict m s.signature (preprocess empty config b) = .ok o := ho
  rw [hp]
  dsimp only
  rw [store_some (f := f) (b := preprocess empty config b) (by simpa [forestAt, preprocess] using hf)]
  rfl

/-- What a model predicts with its config. -/
private def Predicts (empty : F) (m : CModel F V O) (s : Spec) (config : Dict String String) (b : Batch F V O) (o : O) : Prop :=
  predict m s.signature { b with input := b.input.map (cfExample empty config) } = .ok o

private theorem predict_congr (m : CModel F V O) (sig : String) (b b' : Batch F V O) (h1 : b.input = b'.input)
    (h2 : b.features = b'.features) : predict m sig b = predict m sig b' := by
  unfold predict
  rw [h1, h2]

private theorem predicts_congr (empty : F) (m : CModel F V O) (s : Spec) (c : Dict String String) (b b' : Batch F V O)
    (h1 : b.input = b'.input) (h2 : b.features = b'.features) (o : O) :
    Predicts empty m s c b o ↔ Predicts empty m s c b' o := by
  unfold Predicts
  rw [predict_congr m s.signature _ { b' with input := b'.input.map (cfExample empty c) } (by simp [h1]) (by simp [h2])]

/-! ### All models with a config -/

private theorem extractAllCf_eq (empty : F) (specs : List Spec) (hn : (specs.map Spec.name).Nodup)
    (l : List (CModel F V O × Dict String String)) (hnd : (l.map fun p => p.1.name).Nodup) (b : Batch F V O)
    (hsv : b.saved = none) (f : Forest O) (hf : forestAt b = some f) (hne : l ≠ [] ∨ b.predictions = some (.node f))
    (hl : ∀ p ∈ l, ∃ s ∈ specs, s.name = p.1.name ∧ ∃ o, Predicts empty p.1 s p.2 b o) :
    ∃ f', extractAllCf empty specs l b = .ok { b with predictions := some (.node f') } ∧
      (∀ k, k ∉ l.map (fun p => p.1.name) → f'.find? k = f.find? k) ∧
      ∀ p ∈ l, ∀ s ∈ specs, s.name = p.1.name → ∃ o, Predicts empty p.1 s p.2 b o ∧ f'.find? p.1.name = some (.leaf o) := by
  induction l generalizing b f with
  | nil =>
    refine ⟨f, ?_, fun _ _ => rfl, by simp⟩
    have hp := hne.resolve_left (by simp)
    rw [extractAllCf]
    cases b
    simp only at hp hsv ⊢
    rw [hp]
  | cons p rest ih =>
    obtain ⟨m, c⟩ := p
    simp only [List.map_cons, List.nodup_cons] at hnd
    obtain ⟨s, hs, hsm, o, ho⟩ := hl (m, c) (by simp)
    have he := extractCf_eq empty specs hn m s hs hsm c b f hf o ho
    obtain ⟨f', h1, h2, h3⟩ := ih hnd.2 { b with saved := none, predictions := some (.node (f.set m.name (.leaf o))) } rfl
      (f.set m.name (.leaf o)) rfl (.inr rfl) (by
        intro p hp
        obtain ⟨s, hs, hsm, o, ho⟩ := hl p (by simp [hp])
        exact ⟨s, hs, hsm, o, (predicts_congr empty p.1 s p.2 b _ rfl rfl o).1 ho⟩)
    refine ⟨f', ?_, ?_, ?_⟩
    · rw [extractAllCf, he]
      dsimp only
      rw [h1, hsv]
    · intro k hk
      simp only [List.map_cons, List.mem_cons, not_or] at hk
      rw [h2 k hk.2, Forest.find?_set, if_neg (fun e => hk.1 e.symm)]
    · intro p hp s' hs' hsm'
      rcases List.mem_cons.1 hp with rfl | hp
      · have : s' = s := by
          exact List.inj_on_of_nodup_map hn hs' hs (by rw [hsm', hsm])
        subst this
        refine ⟨o, ho, ?_⟩
        rw [h2 _ hnd.1, Forest.find?_set, if_pos rfl]
      · obtain ⟨o', ho', hf'⟩ := h3 p hp s' hs' hsm'
        exact ⟨o', (predicts_congr empty p.1 s' p.2 b _ rfl rfl o').2 ho', hf'⟩

/-! ### All models without a config -/

private theorem byName_get (ms : List (CModel F V O)) (hn : (ms.map CModel.name).Nodup) (acc : Dict String (CModel F V O))
    (m : CModel F V O) (hm : m ∈ ms) :
    Dict.get? (ms.foldl (fun d m => Dict.set d m.name m) acc) m.name = some m := by
  have keep : ∀ (l : List (CModel F V O)) (acc : Dict String (CModel F V O)) (k : String), k ∉ l.map CModel.name →
      Dict.get? (l.foldl (fun d m => Dict.set d m.name m) acc) k = Dict.get? acc k := by
    intro l
    induction l with
    | nil => intros; rfl
    | cons x xs ih =>
      intro acc k hk
      simp only [List.map_cons, List.mem_cons, not_or] at hk
      rw [List.foldl_cons, ih _ _ hk.2, Dict.get?_set, if_neg (fun e => hk.1 e.symm)]
  induction ms generalizing acc with
  | nil => exact absurd hm (by simp)
  | cons x xs ih =>
    simp only [List.map_cons, List.nodup_cons] at hn
    rw [List.foldl_cons]
    rcases List.mem_cons.1 hm with rfl | hm
    · rw [keep _ _ _ hn.1, Dict.get?_set, if_pos rfl]
    · exact ih hn.2 _ hm

private theorem set_new {W : Type} (d : Dict String W) (k : String) (v : W) (h : k ∉ Dict.keys d) :
    Dict.set d k v = d ++ [(k, v)] := by
  induction d with
  | nil => rfl
  | cons p d ih =>
    simp only [Dict.keys, List.map_cons, List.mem_cons, not_or] at h
    rw [Dict.set, if_neg (fun e => h.1 e.symm), ih (by simpa [Dict.keys] using h.2)]
    rfl

private theorem setup_ok (specs : List Spec) (hlen : 1 < specs.length) (byName : Dict String (CModel F V O))
    (ms : List (CModel F V O)) (l : List Spec) (hb : ∀ s ∈ l, ∃ m ∈ ms, m.name = s.name ∧ Dict.get? byName s.name = some m)
    (acc : Dict String (CModel F V O × String)) (hnd : (Dict.keys acc ++ l.map Spec.name).Nodup) :
    ∃ loaded, setup specs byName l acc = .ok (acc ++ loaded) ∧
      List.Forall₂ (fun s p => ∃ m ∈ ms, m.name = s.name ∧ p = (s.name, m, s.signature)) l loaded := by
  induction l generalizing acc with
  | nil => exact ⟨[], by simp [setup], .nil⟩
  | cons s rest ih =>
    obtain ⟨m, hm, hms, hg⟩ := hb s (by simp)
    have hu : usedName specs s = s.name := by rw [usedName, if_pos hlen]
    have hk : s.name ∉ Dict.keys acc := by
      intro h
      exact (List.nodup_append.1 hnd).2.2 s.name h s.name (by simp) rfl
    obtain ⟨loaded, h1, h2⟩ := ih (fun s hs => hb s (by simp [hs])) (acc ++ [(s.name, m, s.signature)])
      (by simpa [Dict.keys] using hnd)
    refine ⟨(s.name, m, s.signature) :: loaded, ?_, .cons ⟨m, hm, hms, rfl⟩ h2⟩
    rw [setup, hu, hg]
    dsimp only
    rw [set_new _ _ _ hk, h1]
    simp

private theorem outputs_ok (b : Batch F V O) (ms : List (CModel F V O)) (l : List Spec)
    (hp : ∀ s ∈ l, ∀ m ∈ ms, m.name = s.name → ∃ o, predict m s.signature b = .ok o)
    (loaded : Dict String (CModel F V O × String))
    (h : List.Forall₂ (fun s p => ∃ m ∈ ms, m.name = s.name ∧ p = (s.name, m, s.signature)) l loaded) :
    ∃ os, outputs b loaded = .ok os ∧
      List.Forall₂ (fun s (q : String × O) => ∃ m ∈ ms, m.name = s.name ∧ q.1 = s.name ∧ predict m s.signature b = .ok q.2) l os := by
  induction h with
  | nil => exact ⟨[], rfl, .nil⟩
  | cons hx _ ih =>
    obtain ⟨m, hm, hms, rfl⟩ := hx
    obtain ⟨o, ho⟩ := hp _ (by simp) m hm hms
    obtain ⟨os, h1, h2⟩ := ih (fun s hs => hp s (by simp [hs]))
    refine ⟨(_, o) :: os, ?_, .cons ⟨m, hm, hms, rfl, ho⟩ h2⟩
    rw [outputs, ho]
    dsimp only
    rw [h1]

private theorem forestOf_find (b : Batch F V O) (ms : List (CModel F V O)) (l : List Spec) (os : List (String × O))
    (h : List.Forall₂ (fun s (q : String × O) => ∃ m ∈ ms, m.name = s.name ∧ q.1 = s.name ∧ predict m s.signature b = .ok q.2) l os)
    (hn : (l.map Spec.name).Nodup) :
    (∀ k, k ∉ l.map Spec.name → (forestOf os).find? k = none) ∧
      ∀ s ∈ l, ∃ m ∈ ms, m.name = s.name ∧ ∃ o, predict m s.signature b = .ok o ∧ (forestOf os).find? s.name = some (.leaf o) := by
  induction h with
  | nil => exact ⟨fun _ _ => rfl, by simp⟩
  | @cons s q l' os' hx _ ih =>
    obtain ⟨m, hm, hms, hq, ho⟩ := hx
    simp only [List.map_cons, List.nodup_cons] at hn
    obtain ⟨h1, h2⟩ := ih hn.2
    obtain ⟨k', o⟩ := q
    dsimp only at hq ho
    subst hq
    refine ⟨?_, ?_⟩
    · intro k hk
      simp only [List.map_cons, List.mem_cons, not_or] at hk
      rw [forestOf, Forest.find?, if_neg (fun e => hk.1 e.symm), h1 k hk.2]
    · intro s' hs'
      rcases List.mem_cons.1 hs' with rfl | hs'
      · exact ⟨m, hm, hms, o, ho, by rw [forestOf, Forest.find?, if_pos rfl]⟩
      · obtain ⟨m', hm', hms', o', ho', hf'⟩ := h2 s' hs'
        refine ⟨m', hm', hms', o', ho', ?_⟩
        rw [forestOf, Forest.find?, if_neg, hf']
        intro e
        exact hn.1 (List.mem_map.2 ⟨s', hs', e.symm⟩)

private theorem extract_many (specs : List Spec) (hn : (specs.map Spec.name).Nodup) (ms : List (CModel F V O))
    (hms : (ms.map CModel.name).Nodup) (hlen : 1 < ms.length) (hne : ∀ m ∈ ms, m.name ≠ "")
    (hsp : ∀ m ∈ ms, ∃ s ∈ specs, s.name = m.name) (b : Batch F V O)
    (hp : ∀ m ∈ ms, ∀ s ∈ specs, s.name = m.name → ∃ o, predict m s.signature b = .ok o) :
    ∃ f, extractPredictions (filterSpecs specs ms) ms none b = .ok { b with predictions := some (.node f) } ∧
      (∀ k, k ∉ ms.map CModel.name → f.find? k = none) ∧
      ∀ m ∈ ms, ∀ s ∈ specs, s.name = m.name → ∃ o, predict m s.signature b = .ok o ∧ f.find? m.name = some (.leaf o) := by
  have hmem : ∀ s, s ∈ filterSpecs specs ms ↔ s ∈ specs ∧ ∃ m ∈ ms, m.name = s.name := by
    intro s
    simp [filterSpecs]
  have hnd : ((filterSpecs specs ms).map Spec.name).Nodup := hn.sublist (List.filter_sublist.map _)
  have hsub : ms.map CModel.name ⊆ (filterSpecs specs ms).map Spec.name := by
    intro k hk
    obtain ⟨m, hm, rfl⟩ := List.mem_map.1 hk
    obtain ⟨s, hs, hsm⟩ := hsp m hm
    exact List.mem_map.2 ⟨s, (hmem s).2 ⟨hs, m, hm, hsm.symm⟩, hsm⟩
  have hlen' : 1 < (filterSpecs specs ms).length := by
    have := (List.subperm_of_subset hms hsub).length_le
    simp only [List.length_map] at this
    omega
  have hnorm : normalize ms = .ok ms := by
    unfold normalize
    rw [if_pos hlen, if_neg]
    simp only [List.any_eq_true, beq_iff_eq, not_exists, not_and]
    exact hne
  have hms0 : ms ≠ [] := by rintro rfl; simp at hlen
  obtain ⟨loaded, hl1, hl2⟩ := setup_ok (filterSpecs specs ms) hlen' (ms.foldl (fun d m => Dict.set d m.name m) []) ms
    (filterSpecs specs ms) (by
      intro s hs
      obtain ⟨-, m, hm, hms'⟩ := (hmem s).1 hs
      refine ⟨m, hm, hms', ?_⟩
      rw [← hms']
      exact byName_get ms hms [] m hm) [] (by simpa [Dict.keys] using hnd)
  obtain ⟨os, ho1, ho2⟩ := outputs_ok b ms (filterSpecs specs ms) (by
    intro s hs m hm hms'
    exact hp m hm s ((hmem s).1 hs).1 hms'.symm) loaded hl2
  obtain ⟨hf1, hf2⟩ := forestOf_find b ms _ os ho2 hnd
  have hlo : loaded.length = (filterSpecs specs ms).length := hl2.length_eq.symm
  have hos : os.length = (filterSpecs specs ms).length := ho2.length_eq.symm
  refine ⟨forestOf os, ?_, ?_, ?_⟩
  · unfold extractPredictions
    rw [hnorm]
    dsimp only
    rw [if_neg hms0, hl1]
    dsimp only
    rw [List.nil_append, if_neg (by rintro rfl; simp at hlo; omega), ho1]
    dsimp only
    have : stored os = .node (forestOf os) := by
      unfold stored
      split
      · simp at hos; omega
      · rfl
    rw [this]
    rfl
  · intro k hk
    apply hf1
    intro hk'
    obtain ⟨s, hs, rfl⟩ := List.mem_map.1 hk'
    obtain ⟨-, m, hm, hms'⟩ := (hmem s).1 hs
    exact hk (List.mem_map.2 ⟨m, hm, hms'⟩)
  · intro m hm s hs hsm
    obtain ⟨m', hm', hms', o, ho, hf⟩ := hf2 s ((hmem s).2 ⟨hs, m, hm, hsm.symm⟩)
    have : m' = m := List.inj_on_of_nodup_map hms hm' hm (by rw [hms', hsm])
    subst this
    exact ⟨o, ho, by rw [← hsm]; exact hf⟩

private theorem extractNonCf_ok (specs : List Spec) (hn : (specs.map Spec.name).Nodup) (ms : List (CModel F V O))
    (hms : (ms.map CModel.name).Nodup) (hne : ∀ m ∈ ms, m.name ≠ "")
    (hsp : ∀ m ∈ ms, ∃ s ∈ specs, s.name = m.name) (b : Batch F V O) (hb : b.predictions = none)
    (hp : ∀ m ∈ ms, ∀ s ∈ specs, s.name = m.name → ∃ o, predict m s.signature b = .ok o) :
    ∃ b' f, extractNonCf specs ms b = .ok b' ∧ b'.input = b.input ∧ b'.features = b.features ∧ b'.saved = b.saved ∧
      forestAt b' = some f ∧ (ms ≠ [] → b'.predictions = some (.node f)) ∧
      (∀ k, k ∉ ms.map CModel.name → f.find? k = none) ∧
      ∀ m ∈ ms, ∀ s ∈ specs, s.name = m.name → ∃ o, predict m s.signature b = .ok o ∧ f.find? m.name = some (.leaf o) := by
  match ms, hms, hne, hsp, hp with
  | [], _, _, _, _ =>
    exact ⟨b, .nil, rfl, rfl, rfl, rfl, by simp [forestAt, hb], by simp, fun _ _ => rfl, by simp⟩
  | [m], _, _, hsp, hp =>
    obtain ⟨s, hs, hsm⟩ := hsp m (by simp)
    obtain ⟨o, ho⟩ := hp m (by simp) s hs hsm
    refine ⟨{ b with predictions := some (.node (Forest.set .nil m.name (.leaf o))) }, Forest.set .nil m.name (.leaf o), ?_, rfl, rfl, rfl,
      rfl, fun _ => rfl, ?_, ?_⟩
    · unfold extractNonCf
      dsimp only
      rw [filterSpecs_single specs hn m s hs hsm, extract_single, ho]
      dsimp only
      rw [store_some (f := .nil) (by simp [forestAt, hb])]
    · intro k hk
      simp only [List.map_cons, List.map_nil, List.mem_singleton] at hk
      rw [Forest.find?_set, if_neg (fun e => hk e.symm)]
      rfl
    · intro m' hm' s' hs' hsm'
      simp only [List.mem_singleton] at hm'
      subst hm'
      have : s' = s := List.inj_on_of_nodup_map hn hs' hs (by rw [hsm', hsm])
      subst this
      exact ⟨o, ho, by rw [Forest.find?_set, if_pos rfl]⟩
  | m1 :: m2 :: rest, hms, hne, hsp, hp =>
    obtain ⟨f, h1, h2, h3⟩ := extract_many specs hn (m1 :: m2 :: rest) hms (by simp) hne hsp b hp
    exact ⟨_, f, h1, rfl, rfl, rfl, rfl, fun _ => rfl, h2, h3⟩

/-! ### Theorems -/

private theorem configOf_none {configs : Dict String (Dict String String)} {name : String}
    (h : (configOf configs name).isNone) : (Dict.get? configs name).getD [] = [] := by
  unfold configOf at h
  split at h
  · rename_i h'; rw [h']; rfl
  · rename_i h'; rw [h']; rfl
  · exact absurd h (by simp)

private theorem configOf_some {configs : Dict String (Dict String String)} {name : String} {c : Dict String String}
    (h : configOf configs name = some c) : (Dict.get? configs name).getD [] = c := by
  unfold configOf at h
  split at h
  · exact absurd h (by simp)
  · exact absurd h (by simp)
  · rename_i c' h' he
    simp only [Option.some.injEq] at h
    subst h
    rw [he]
    rfl

/-- **C110** (predictions): with several models of different names, a spec for each of them and configs for some of them, every
model is called once; what it predicts stands under its name, and nothing else stands there.  A model that is called with
the serialized examples is called with the examples in which the features that its config names are replaced by their
sources (the original examples if there is no config).  The inputs and features are the original ones afterwards.
Missing: configs in which a source is the destination of an earlier entry (`C110_no_swap`). -/
theorem C110_predictions_partial (empty : F) (specs : List Spec) (hn : (specs.map Spec.name).Nodup) (ms : List (CModel F V O))
    (hms : (ms.map CModel.name).Nodup) (hlen : 1 < ms.length) (hne : ∀ m ∈ ms, m.name ≠ "")
    (hsup : ∀ m ∈ ms, m.supported = true) (hsp : ∀ m ∈ ms, ∃ s ∈ specs, s.name = m.name)
    (configs : Dict String (Dict String String)) (hc : configs ≠ []) (hcn : ∀ p ∈ configs, ∃ m ∈ ms, m.name = p.1)
    (hcf : ∀ p ∈ configs, Dict.WF p.2 ∧ Forward p.2)
    (b : Batch F V O) (hb : b.predictions = none) (hsv : b.saved = none)
    (hcall : ∀ m ∈ ms, ∀ s ∈ specs, s.name = m.name → ∃ t f, call m.loaded b.features s.signature true = .ok (some (t, f))) :
    ∃ preds, extractor empty specs ms configs b = .ok { b with predictions := some (.node preds) } ∧
      (∀ k, k ∉ ms.map CModel.name → preds.find? k = none) ∧
      ∀ m ∈ ms, ∀ s ∈ specs, s.name = m.name → ∀ t f, call m.loaded b.features s.signature true = .ok (some (t, f)) →
        ∃ examples, List.Forall₂ (Replaced empty ((Dict.get? configs m.name).getD [])) b.input examples ∧
          preds.find? m.name = some (.leaf (m.output t (seen f examples))) := by
  have hval : validate ms configs = .ok (ms, configs) := by
    unfold validate
    have hnorm : normalize ms = .ok ms := by
      unfold normalize
      rw [if_pos hlen, if_neg]
      simp only [List.any_eq_true, beq_iff_eq, not_exists, not_and]
      exact hne
    rw [hnorm]
    dsimp only
    rw [if_neg (by rintro rfl; simp at hlen), if_neg (by simpa using hsup)]
    cases configs with
    | nil => exact absurd rfl hc
    | cons p rest =>
      dsimp only
      rw [if_neg (by omega), if_pos]
      rw [List.all_eq_true]
      intro n hn'
      obtain ⟨p', hp', rfl⟩ := List.mem_map.1 hn'
      obtain ⟨m, hm, hmn⟩ := hcn p' hp'
      rw [List.any_eq_true]
      exact ⟨m, hm, by simpa using hmn⟩
  have hpred : ∀ m ∈ ms, ∀ s ∈ specs, s.name = m.name → ∀ i, ∃ o, predict m s.signature { b with input := i } = .ok o := by
    intro m hm s hs hsm i
    obtain ⟨t, f, hf⟩ := hcall m hm s hs hsm
    refine ⟨m.output t (given f i), ?_⟩
    unfold predict
    rw [hf]
  obtain ⟨b', f0, h1, h2, h3, h4, h5, h6, h7, h8⟩ := extractNonCf_ok specs hn
    (ms.filter fun m => (configOf configs m.name).isNone) (hms.sublist (List.filter_sublist.map _))
    (fun m hm => hne m (List.mem_of_mem_filter hm)) (fun m hm => hsp m (List.mem_of_mem_filter hm)) b hb
    (fun m hm s hs hsm => hpred m (List.mem_of_mem_filter hm) s hs hsm b.input)
  have hmemCf : ∀ p, p ∈ (ms.filterMap fun m => (configOf configs m.name).map fun c => (m, c)) ↔
      p.1 ∈ ms ∧ configOf configs p.1.name = some p.2 := by
    intro p
    rw [List.mem_filterMap]
    constructor
    · rintro ⟨m, hm, h⟩
      obtain ⟨c, hc', rfl⟩ := Option.map_eq_some_iff.1 h
      exact ⟨hm, hc'⟩
    · rintro ⟨hm, hc'⟩
      exact ⟨p.1, hm, by rw [hc']; rfl⟩
  have hndCf : ((ms.filterMap fun m => (configOf configs m.name).map fun c => (m, c)).map fun p => p.1.name).Nodup := by
    refine hms.sublist ?_
    clear h1 h2 h3 h4 h5 h6 h7 h8 hmemCf hpred hval hcall hsp hsup hne hlen hms hcn
    induction ms with
    | nil => exact .slnil
    | cons m ms ih =>
      rw [List.filterMap_cons]
      cases configOf configs m.name with
      | none => exact ih.cons _
      | some c => exact ih.cons_cons _
  obtain ⟨f', g1, g2, g3⟩ := extractAllCf_eq empty specs hn _ hndCf b' (by rw [h4, hsv]) f0 h5 (by
    by_cases he : (ms.filter fun m => (configOf configs m.name).isNone) = []
    · left
      intro hnil
      cases ms with
      | nil => simp at hlen
      | cons m ms =>
        have hm : ¬ (configOf configs m.name).isNone := by
          intro hm
          have : m ∈ (m :: ms).filter fun m => (configOf configs m.name).isNone := by simp [hm]
          rw [he] at this
          exact absurd this (by simp)
        obtain ⟨c, hc'⟩ := Option.isSome_iff_exists.1 (by simpa [Option.isSome_iff_ne_none] using hm)
        have : (m, c) ∈ ((m :: ms).filterMap fun m => (configOf configs m.name).map fun c => (m, c)) :=
          (hmemCf (m, c)).2 ⟨by simp, hc'⟩
        rw [hnil] at this
        exact absurd this (by simp)
    · exact .inr (h6 he)) (by
    intro p hp
    obtain ⟨hm, -⟩ := (hmemCf p).1 hp
    obtain ⟨s, hs, hsm⟩ := hsp _ hm
    obtain ⟨o, ho⟩ := hpred _ hm s hs hsm (b.input.map (cfExample empty p.2))
    refine ⟨s, hs, hsm, o, ?_⟩
    unfold Predicts
    rw [predict_congr _ _ _ { b with input := b.input.map (cfExample empty p.2) } (by simp [h2]) (by simp [h3]), ho])
  refine ⟨f', ?_, ?_, ?_⟩
  · unfold extractor
    rw [hval]
    dsimp only
    rw [h1]
    dsimp only
    rw [g1]
    cases b; cases b'
    simp_all
  · intro k hk
    rw [g2, h7]
    · intro hk'
      obtain ⟨m, hm, rfl⟩ := List.mem_map.1 hk'
      exact hk (List.mem_map.2 ⟨m, List.mem_of_mem_filter hm, rfl⟩)
    · intro hk'
      obtain ⟨p, hp, rfl⟩ := List.mem_map.1 hk'
      exact hk (List.mem_map.2 ⟨p.1, ((hmemCf p).1 hp).1, rfl⟩)
  · intro m hm s hs hsm t f hf
    have hfwd : Dict.WF ((Dict.get? configs m.name).getD []) ∧ Forward ((Dict.get? configs m.name).getD []) := by
      cases hg : Dict.get? configs m.name with
      | none => exact ⟨by simp [Dict.WF, Dict.keys], by simp [Forward]⟩
      | some c => exact hcf _ (Dict.mem_of_get? hg)
    refine ⟨b.input.map (cfExample empty ((Dict.get? configs m.name).getD [])), ?_, ?_⟩
    · rw [List.forall₂_map_right_iff]
      exact List.forall₂_same.2 fun ex _ => cfExample_replaced empty _ hfwd.1 hfwd.2 ex
    · have hout : ∀ (i : List (Example F)) o, predict m s.signature { b with input := i } = .ok o →
          o = m.output t (seen f i) := by
        intro i o ho
        unfold predict at ho
        rw [hf] at ho
        simp only [Except.ok.injEq] at ho
        rw [← ho]
        cases f <;> rfl
      cases hcm : configOf configs m.name with
      | none =>
        have hmf : m ∈ ms.filter fun m => (configOf configs m.name).isNone := by simp [hm, hcm]
        obtain ⟨o, ho, hfo⟩ := h8 m hmf s hs hsm
        rw [g2, hfo, hout b.input o ho, configOf_none (by rw [hcm]; rfl)]
        · have : b.input.map (cfExample empty []) = b.input := by
            have he : cfExample empty [] = (id : Example F → Example F) := rfl
            rw [he, List.map_id]
          rw [this]
        · intro hk
          obtain ⟨p, hp, hpm⟩ := List.mem_map.1 hk
          obtain ⟨hp1, hp2⟩ := (hmemCf p).1 hp
          rw [hpm, hcm] at hp2
          exact absurd hp2 (by simp)
      | some c =>
        obtain ⟨o, ho, hfo⟩ := g3 (m, c) ((hmemCf (m, c)).2 ⟨hm, hcm⟩) s hs hsm
        rw [hfo, configOf_some hcm]
        congr 2
        apply hout
        unfold Predicts at ho
        rw [← ho]
        exact predict_congr _ _ _ _ (by simp [h2]) (by simp [h3])

/-- A model that returns the feature "x" of the serialized examples, and one that takes "x" as an input. -/
private def parsing (name : String) : CModel ℕ ℕ (List ℕ) :=
  ⟨name, true, ⟨none, some [("serving_default", some [("examples", true)])], []⟩, fun _ i => match i with
    | .inl d => d.map Prod.snd
    | .inr exs => exs.map fun ex => featureOf 0 ex "x"⟩

private def byInput (name : String) : CModel ℕ ℕ (List ℕ) :=
  ⟨name, true, ⟨some [("x", false)], some [("serving_default", some [("examples", true)])], []⟩, fun _ i => match i with
    | .inl d => d.map Prod.snd
    | .inr exs => exs.map fun ex => featureOf 0 ex "x"⟩

private def demo : Batch ℕ ℕ (List ℕ) :=
  { input := [[("x", 1), ("x_cf", 7)], [("x", 2), ("x_cf", 8)]], features := [("x", 12), ("x_cf", 78)], predictions := none }

private def demoSpecs : List Spec := [⟨"orig", "serving_default"⟩, ⟨"cf", "serving_default"⟩]

/-- Non-vacuous: the counterfactual model sees "x_cf" as "x". -/
example : extractor 0 demoSpecs [parsing "orig", parsing "cf"] [("cf", [("x", "x_cf")])] demo =
    .ok { demo with predictions := some (.node (.cons "orig" (.leaf [1, 2]) (.cons "cf" (.leaf [7, 8]) .nil))) } := rfl

/-- **C110** (inputs by name): the prediction of a model which takes its inputs by name from the features does not depend on its
config at all: the config only changes the serialized examples. -/
theorem C110_inputs_by_name (empty : F) (specs : List Spec) (hn : (specs.map Spec.name).Nodup) (m : CModel F V O) (s : Spec)
    (hs : s ∈ specs) (hm : s.name = m.name) (c c' : Dict String String) (b : Batch F V O) (t : Target) (d : Dict String V)
    (h : call m.loaded b.features s.signature true = .ok (some (t, .named d))) :
    extractCf empty specs m c b = extractCf empty specs m c' b := by
  have hp : ∀ c, predict m s.signature (preprocess empty c b) = .ok (m.output t (.inl d)) := by
    intro c
    unfold predict
    have : (preprocess empty c b).features = b.features := rfl
    rw [this, h]
    rfl
  have hx : ∀ c, extractCf empty specs m c b = match b.predictions with
      | none => .ok { b with saved := none, predictions := some (.node (.cons m.name (.leaf (m.output t (.inl d))) .nil)) }
      | some (.node f) => .ok { b with saved := none, predictions := some (.node (f.set m.name (.leaf (m.output t (.inl d))))) }
      | some (.leaf _) => .error .valueError := by
    intro c
    unfold extractCf
    rw [filterSpecs_single specs hn m s hs hm, extract_single, hp]
    dsimp only
    unfold store
    have : (preprocess empty c b).predictions = b.predictions := rfl
    rw [this]
    cases b.predictions with
    | none => rfl
    | some t => cases t <;> rfl
  rw [hx c, hx c']

/-- The same example with a Keras model whose input is "x": the counterfactual model predicts what the original one does. -/
example : extractor 0 [⟨"orig", ""⟩, ⟨"cf", ""⟩] [byInput "orig", byInput "cf"] [("cf", [("x", "x_cf")])] demo =
    .ok { demo with predictions := some (.node (.cons "orig" (.leaf [12]) (.cons "cf" (.leaf [12]) .nil))) } := rfl

/-- **C110** (refused): configs without any entry, configs of models that are not evaluated, models of other types and
several models without names are refused, before anything is predicted. -/
theorem C110_refused (empty : F) (specs : List Spec) (ms : List (CModel F V O)) (configs : Dict String (Dict String String))
    (b : Batch F V O)
    (h : ms = [] ∨ configs = [] ∨ (∃ m ∈ ms, m.supported = false) ∨
      (1 < ms.length ∧ ((∃ m ∈ ms, m.name = "") ∨ ∃ p ∈ configs, ∀ m ∈ ms, m.name ≠ p.1)) ∨
      (ms.length = 1 ∧ configs.length ≠ 1)) :
    extractor empty specs ms configs b = .error .valueError := by
  have hv : validate ms configs = .error .valueError := by
    unfold validate
    cases hnorm : normalize ms with
    | error e =>
      unfold normalize at hnorm
      split at hnorm
      · split at hnorm
        · simp only [Except.error.injEq] at hnorm
          subst hnorm
          rfl
        · exact absurd hnorm (by simp)
      · exact absurd hnorm (by simp)
    | ok ms' =>
      dsimp only
      have hmap : ms'.length = ms.length ∧ ms'.map CModel.supported = ms.map CModel.supported ∧
          (1 < ms.length → ms' = ms ∧ ∀ m ∈ ms, m.name ≠ "") := by
        unfold normalize at hnorm
        split at hnorm
        · split at hnorm
          · exact absurd hnorm (by simp)
          · rename_i hany
            simp only [Except.ok.injEq] at hnorm
            subst hnorm
            refine ⟨rfl, rfl, fun _ => ⟨rfl, ?_⟩⟩
            intro m hm he
            exact hany (List.any_eq_true.2 ⟨m, hm, by simpa using he⟩)
        · rename_i hl
          simp only [Except.ok.injEq] at hnorm
          subst hnorm
          exact ⟨by simp, by simp [Function.comp_def], fun h => absurd h hl⟩
      obtain ⟨hl, hs, hmany⟩ := hmap
      by_cases h0 : ms' = []
      · rw [if_pos h0]
      · rw [if_neg h0]
        by_cases hsup : (ms'.any fun m => !m.supported) = true
        · rw [if_pos hsup]
        · rw [if_neg hsup]
          have hsup' : ∀ m ∈ ms, m.supported = true := by
            intro m hm
            have : m.supported ∈ ms'.map CModel.supported := by rw [hs]; exact List.mem_map.2 ⟨m, hm, rfl⟩
            obtain ⟨m', hm', he⟩ := List.mem_map.1 this
            rw [← he]
            by_contra hc
            exact hsup (List.any_eq_true.2 ⟨m', hm', by simpa using hc⟩)
          rcases h with h | h | ⟨m, hm, h⟩ | ⟨hlen, h⟩ | ⟨hlen, h⟩
          · subst h
            exact absurd (List.eq_nil_of_length_eq_zero (by simpa using hl)) h0
          · subst h
            rfl
          · rw [hsup' m hm] at h
            exact absurd h (by simp)
          · obtain ⟨rfl, hnames⟩ := hmany hlen
            rcases h with ⟨m, hm, h⟩ | ⟨p, hp, h⟩
            · exact absurd h (hnames m hm)
            · cases configs with
              | nil => rfl
              | cons q rest =>
                dsimp only
                rw [if_neg (by omega), if_neg]
                rw [List.all_eq_true]
                intro hall
                have := hall p.1 (List.mem_map.2 ⟨p, hp, rfl⟩)
                rw [List.any_eq_true] at this
                obtain ⟨m, hm, he⟩ := this
                exact h m hm (by simpa using he)
          · cases configs with
            | nil => rfl
            | cons q rest =>
              dsimp only
              rw [if_pos (by omega), if_neg]
              rintro rfl
              exact h rfl
  unfold extractor
  rw [hv]

/-- Non-vacuous: a config for a model "other" that is not evaluated. -/
example : ∃ p ∈ [("other", ([("x", "x_cf")] : Dict String String))], ∀ m ∈ [parsing "orig", parsing "cf"], m.name ≠ p.1 := by
  refine ⟨_, List.mem_singleton.2 rfl, ?_⟩
  simp [parsing]

/-- **C110** (single model, named spec): with one model only, the extractor fails for every batch if the model spec has a name. -/
theorem C110_single_named_fails (empty : F) (s : Spec) (hs : s.name ≠ "") (m : CModel F V O) (name : String)
    (config : Dict String String) (b : Batch F V O) :
    extractor empty [s] [m] [(name, config)] b = .error .valueError := by
  have hf : ∀ m' : CModel F V O, m'.name = "" → filterSpecs [s] [m'] = [] := by
    intro m' hm'
    simp [filterSpecs, hm', Ne.symm hs]
  have hx : ∀ (m' : CModel F V O) (sub : Option String) (b : Batch F V O),
      extractPredictions [] [m'] sub b = .error .valueError := by
    intro m' sub b
    simp [extractPredictions, normalize, setup]
  unfold extractor validate normalize
  simp only [List.length_singleton, gt_iff_lt, lt_self_iff_false, if_false, List.map_cons, List.map_nil, List.cons_ne_nil,
    List.any_cons, List.any_nil, Bool.or_false]
  cases hsup : m.supported with
  | false => simp
  | true =>
    simp only [Bool.not_true, Bool.false_eq_true, if_false, if_true]
    cases config with
    | nil =>
      simp only [List.filter_cons, List.filter_nil, configOf, Dict.get?, if_true, Option.isNone_none, extractNonCf]
      rw [hf _ rfl, hx]
    | cons p rest =>
      simp only [List.filter_cons, List.filter_nil, configOf, Dict.get?, if_true, Option.isNone_some, Bool.false_eq_true, if_false,
        extractNonCf, List.filterMap_cons, List.filterMap_nil, Option.map_some, extractAllCf, extractCf]
      rw [hf _ rfl, hx]

/-- Non-vacuous: without a name the same evaluation succeeds; its predictions stand under the empty name. -/
example : extractor 0 [⟨"", "serving_default"⟩] [parsing "cf"] [("cf", [("x", "x_cf")])] demo =
    .ok { demo with predictions := some (.node (.cons "" (.leaf [7, 8]) .nil)) } := rfl

/-- **C110** (single model): a prediction under the empty name, as it is left for a single model, makes every metric that needs
labels and predictions fail. -/
theorem C110_single_unusable (part : ℕ → List Fl → List ℕ) (a : Args) (hm : a.model = "") (ho : a.output = "")
    (l w : Option (Arr ℚ)) (p : Option (Arr Fl)) :
    toLabelPredictionWeight part a ⟨.leaf l, .node (.cons "" (.leaf p) .nil), .leaf w⟩ = .error .valueError := by
  have hp : ∀ key, preparePrediction key (.node (.cons "" (.leaf p) .nil)) = .error .valueError := by
    intro key
    unfold preparePrediction
    by_cases hk : key = ""
    · simp [hk, commonKeys, Forest.find?]
    · simp [hk, Forest.find?, Ne.symm hk]
  unfold toLabelPredictionWeight find
  by_cases hl : (specKeys a.specs a.model).2 = "" <;> cases hw : a.exampleWeighted <;> cases w <;>
    simp [hm, ho, byName, isNoneLeaf, optionalKey, requireLeaf, hp, bind, Except.bind]

end Counterfactual
end TFMA
