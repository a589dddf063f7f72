import Verif.Model.Extraction
import Verif.Py.DictLemmas

/-!
# C97: labels, weights and predictions are taken from the features named in the configuration

Whatever is extracted from the features according to the model specs is what metrics of a model and output get to see:
the transformed feature of that model if there is one of the configured name, otherwise the raw feature.
-/

namespace TFMA
namespace Extraction

open Config (ModelSpec)
open Inputs (find Arr Args Raw Found)

variable {V : Type}

/-! ### Specification -/

/-- The value of a feature for a model: its own transformed feature, otherwise the raw one. -/
def feature (own raw : Dict String V) (key : String) : Option V := (Dict.get? own key).or (Dict.get? raw key)

/-- The feature configured for an output: the key for all outputs, otherwise the one of the output. -/
def configured (key : String) (keys : Dict String String) (output : String) : Option String :=
  if key ≠ "" then some key else Dict.get? keys output

/-- Models can be told apart: their names differ, and there are no empty names if there are several models. -/
structure Named (specs : List ModelSpec) : Prop where
  nodup : (specs.map (·.name)).Nodup
  named : specs.length ≠ 1 → ∀ s ∈ specs, s.name ≠ ""

/-- Names of the models for which metrics are computed: a single model has the empty name. -/
def nameOf (specs : List ModelSpec) (s : ModelSpec) : String := if specs.length = 1 then "" else s.name

/-- The transformed features that are stored are the outputs `own` of the models: all models have some, or none has.
A single model is not called like one of its transformed features. -/
def Stored (specs : List ModelSpec) (own : ModelSpec → Dict String V) (t : Forest V) : Prop :=
  (t = .nil ∧ ∀ s ∈ specs, own s = []) ∨
  ((specs.length = 1 → ∀ s ∈ specs, s.name ∉ (own s).map Prod.fst) ∧
    t = storedForest (storeOutputs true (specs.map fun s => (nameOf specs s, own s))))

/-! ### Lemmas about dictionaries -/

theorem find?_ofDict (d : Dict String V) (k : String) : (ofDict d).find? k = (Dict.get? d k).map Tree.leaf := by
  induction d with
  | nil => rfl
  | cons kv d ih =>
    obtain ⟨k', v⟩ := kv
    rw [Dict.get?_cons]
    simp only [ofDict, Forest.find?]
    by_cases h : k' = k
    · simp [h]
    · simp [h, ih]

theorem lookup_ofDict (d raw : Dict String V) (key : String) :
    lookup (ofDict d) raw key = .ok (feature d raw key) := by
  unfold lookup feature
  rw [find?_ofDict]
  cases Dict.get? d key <;> simp

theorem find?_unwrapAll (outs : List (String × Dict String V)) (k : String) :
    (unwrapAll true outs).find? k = (Dict.get? outs k).map fun d => Tree.node (ofDict d) := by
  induction outs with
  | nil => rfl
  | cons kv outs ih =>
    obtain ⟨k', d⟩ := kv
    rw [Dict.get?_cons]
    simp only [unwrapAll, Forest.find?]
    by_cases h : k' = k
    · simp [h, unwrapOutput]
    · simp [h, ih]

theorem get?_map_names (specs : List ModelSpec) (hn : (specs.map (·.name)).Nodup) {β : Type} (g : ModelSpec → β)
    (s : ModelSpec) (hs : s ∈ specs) : Dict.get? (specs.map fun s => (s.name, g s)) s.name = some (g s) := by
  induction specs with
  | nil => cases hs
  | cons x specs ih =>
    simp only [List.map_cons, List.nodup_cons] at hn
    rw [List.map_cons, Dict.get?_cons]
    rcases List.mem_cons.mp hs with rfl | hs
    · simp
    · have : x.name ≠ s.name := fun h => hn.1 (h ▸ List.mem_map_of_mem (f := (·.name)) hs)
      simp [this, ih hn.2 hs]

theorem transformedFor_stored (specs : List ModelSpec) (hn : Named specs) (own : ModelSpec → Dict String V)
    (t : Forest V) (h : Stored specs own t) (s : ModelSpec) (hs : s ∈ specs) :
    transformedFor s.name t = .ok (ofDict (own s)) := by
  rcases h with ⟨rfl, h⟩ | ⟨h1, rfl⟩
  · rw [h s hs]; rfl
  · by_cases hl : specs.length = 1
    · obtain ⟨x, rfl⟩ := List.length_eq_one_iff.mp hl
      obtain rfl : s = x := by simpa using hs
      have hk := h1 hl s hs
      have : (ofDict (own s)).find? s.name = none := by
        rw [find?_ofDict, (Dict.get?_eq_none_iff _ _).mpr]
        · rfl
        · exact hk
      simp only [List.map_cons, List.map_nil, storeOutputs, unwrapOutput, storedForest, transformedFor, this]
    · have hm : (specs.map fun s => (nameOf specs s, own s)) = specs.map fun s => (s.name, own s) := by
        apply List.map_congr_left
        intro x _
        simp [nameOf, hl]
      have hst : storedForest (storeOutputs true (specs.map fun s => (nameOf specs s, own s)))
          = unwrapAll true (specs.map fun s => (s.name, own s)) := by
        rw [hm]
        match specs, hl with
        | [], _ => rfl
        | _ :: _ :: _, _ => rfl
      unfold transformedFor
      rw [hst, find?_unwrapAll, get?_map_names specs hn.nodup own s hs]
      rfl

/-! ### What is stored for the models -/

theorem outputValues_find? (t : Forest V) (d raw : Dict String V) (ht : t = ofDict d) (am : Bool)
    (keys : Dict String String) (hk : Dict.WF keys) (acc : Forest (Option V)) :
    ∃ f, outputValues t raw am keys acc = .ok f ∧ ∀ o, f.find? o = match Dict.get? keys o with
      | none => acc.find? o
      | some key => match feature d raw key with
        | some v => some (.leaf (some v))
        | none => if am then some (.leaf none) else acc.find? o := by
  subst ht
  induction keys generalizing acc with
  | nil => exact ⟨acc, rfl, fun o => rfl⟩
  | cons kv keys ih =>
    obtain ⟨o', key⟩ := kv
    have hk' : o' ∉ Dict.keys keys ∧ Dict.WF keys := by
      simpa [Dict.WF, Dict.keys] using hk
    simp only [outputValues, lookup_ofDict]
    have hno : Dict.get? keys o' = none := (Dict.get?_eq_none_iff _ _).mpr hk'.1
    cases hv : feature d raw key with
    | some v =>
      obtain ⟨f, hf, h⟩ := ih hk'.2 (acc.set o' (.leaf (some v)))
      refine ⟨f, hf, fun o => ?_⟩
      rw [h o, Dict.get?_cons]
      by_cases ho : o' = o
      · subst ho
        simp [hno, hv, Forest.find?_set]
      · simp [ho, Forest.find?_set]
    | none =>
      obtain ⟨f, hf, h⟩ := ih hk'.2 (if am then acc.set o' (.leaf none) else acc)
      refine ⟨f, hf, fun o => ?_⟩
      rw [h o, Dict.get?_cons]
      by_cases ho : o' = o
      · subst ho
        cases am <;> simp [hno, hv, Forest.find?_set]
      · cases am <;> simp [ho, Forest.find?_set]

/-- What the stored value of one model must look like to a reader. -/
def Entry (key : String) (keys : Dict String String) (own raw : Dict String V) (am : Bool) :
    Option (Tree (Option V)) → Prop
  | none => am = false ∧ ∀ o k, configured key keys o = some k → feature own raw k = none
  | some (.leaf v) => v = none ∧ am = true ∧ key = "" ∧ keys = [] ∨
      key ≠ "" ∧ v = feature own raw key ∧ (am = false → v.isSome)
  | some (.node f) => key = "" ∧ (∃ o, o ∈ f.keys) ∧ ∀ o, f.find? o = match Dict.get? keys o with
      | none => none
      | some k => match feature own raw k with
        | some v => some (.leaf (some v))
        | none => if am then some (.leaf none) else none

theorem specValue_entry (key : String) (keys : Dict String String) (hk : Dict.WF keys) (d raw : Dict String V)
    (am : Bool) : ∃ x, specValue key keys (ofDict d) raw am = .ok x ∧ Entry key keys d raw am x := by
  unfold specValue
  by_cases h : key = ""
  · subst h
    rw [if_neg (by simp)]
    by_cases h2 : keys = []
    · subst h2
      rw [if_neg (by simp)]
      cases am
      · exact ⟨none, by simp, rfl, by intro o k h; simp [configured, Dict.get?] at h⟩
      · exact ⟨some (.leaf none), by simp, Or.inl ⟨rfl, rfl, rfl, rfl⟩⟩
    · rw [if_pos h2]
      obtain ⟨f, hf, hfind⟩ := outputValues_find? (ofDict d) d raw rfl am keys hk .nil
      rw [hf]
      cases f with
      | nil =>
        refine ⟨none, rfl, ?_, ?_⟩
        · cases am
          · rfl
          · exfalso
            obtain ⟨⟨o, k⟩, rest, hkeys⟩ := List.exists_cons_of_ne_nil h2
            have := hfind o
            rw [hkeys, Dict.get?_cons] at this
            cases hv : feature d raw (o, k).2 <;> simp_all [Forest.find?]
        · intro o k ho
          have := hfind o
          have ho : Dict.get? keys o = some k := by simpa [configured] using ho
          rw [ho] at this
          cases hv : feature d raw k with
          | none => rfl
          | some v => simp [hv, Forest.find?] at this
      | cons k t rest =>
        refine ⟨some (.node (.cons k t rest)), rfl, rfl, ⟨k, by simp [Forest.keys]⟩, fun o => ?_⟩
        rw [hfind o]
        cases Dict.get? keys o <;> rfl
  · rw [if_pos h, lookup_ofDict]
    cases hv : feature d raw key with
    | some v => exact ⟨_, rfl, Or.inr ⟨h, hv.symm, fun _ => rfl⟩⟩
    | none =>
      cases am
      · refine ⟨none, rfl, rfl, ?_⟩
        intro o k ho
        have : key = k := by simpa [configured, h] using ho
        rw [← this, hv]
      · exact ⟨some (.leaf none), rfl, Or.inr ⟨h, hv.symm, by simp⟩⟩

theorem specValues_find? (field : ModelSpec → String) (fields : ModelSpec → Dict String String) (b : Batch V)
    (am : Bool) (g : ModelSpec → Option (Tree (Option V))) (ts : ModelSpec → Forest V) (specs : List ModelSpec)
    (hn : (specs.map (·.name)).Nodup)
    (ht : ∀ s ∈ specs, transformedFor s.name b.transformed = .ok (ts s))
    (hg : ∀ s ∈ specs, specValue (field s) (fields s) (ts s) b.features am = .ok (g s)) (acc : Forest (Option V)) :
    ∃ f, specValues field fields b am specs acc = .ok f ∧
      (∀ s ∈ specs, f.find? s.name = (g s).or (acc.find? s.name)) ∧
      (∀ k, k ∉ specs.map (·.name) → f.find? k = acc.find? k) ∧
      ∀ k ∈ f.keys, k ∈ specs.map (·.name) ∨ k ∈ acc.keys := by
  induction specs generalizing acc with
  | nil => exact ⟨acc, rfl, by simp, fun k _ => rfl, fun k hk => Or.inr hk⟩
  | cons s specs ih =>
    simp only [List.map_cons, List.nodup_cons] at hn
    simp only [specValues, ht s (by simp), hg s (by simp)]
    have hne : ∀ s' ∈ specs, s.name ≠ s'.name := fun s' hs' h => hn.1 (h ▸ List.mem_map_of_mem (f := (·.name)) hs')
    cases hgs : g s with
    | none =>
      obtain ⟨f, hf, h1, h2, h3⟩ := ih hn.2 (fun s hs => ht s (by simp [hs])) (fun s hs => hg s (by simp [hs])) acc
      refine ⟨f, hf, ?_, ?_, ?_⟩
      · intro s' hs'
        rcases List.mem_cons.mp hs' with rfl | hs'
        · rw [h2 _ hn.1, hgs]; rfl
        · exact h1 s' hs'
      · intro k hk
        simp only [List.map_cons, List.mem_cons, not_or] at hk
        exact h2 k hk.2
      · intro k hk
        rcases h3 k hk with h | h
        · exact Or.inl (by simp [h])
        · exact Or.inr h
    | some v =>
      obtain ⟨f, hf, h1, h2, h3⟩ := ih hn.2 (fun s hs => ht s (by simp [hs])) (fun s hs => hg s (by simp [hs]))
        (acc.set s.name v)
      refine ⟨f, hf, ?_, ?_, ?_⟩
      · intro s' hs'
        rcases List.mem_cons.mp hs' with rfl | hs'
        · rw [h2 _ hn.1, hgs, Forest.find?_set]; simp
        · rw [h1 s' hs', Forest.find?_set, if_neg (hne s' hs')]
      · intro k hk
        simp only [List.map_cons, List.mem_cons, not_or] at hk
        rw [h2 k hk.2, Forest.find?_set, if_neg (fun h => hk.1 h.symm)]
      · intro k hk
        rcases h3 k hk with h | h
        · exact Or.inl (by simp [h])
        · rw [Forest.mem_keys_iff] at h
          obtain ⟨t, h⟩ := h
          rw [Forest.find?_set] at h
          by_cases hks : s.name = k
          · exact Or.inl (by simp [hks])
          · rw [if_neg hks] at h
            exact Or.inr ((Forest.mem_keys_iff _ _).mpr ⟨t, h⟩)

/-- What is stored for a model, in terms of what a reader finds: with several models a dictionary by model name. -/
theorem featureValues_entry (specs : List ModelSpec) (hn : Named specs) (field : ModelSpec → String)
    (fields : ModelSpec → Dict String String) (hw : ∀ s ∈ specs, Dict.WF (fields s)) (b : Batch V)
    (own : ModelSpec → Dict String V) (hb : Stored specs own b.transformed) (am : Bool) :
    ∃ (r : Tree (Option V)) (g : ModelSpec → Option (Tree (Option V))),
      featureValues specs field fields b am = .ok r ∧
      (∀ s ∈ specs, Entry (field s) (fields s) (own s) b.features am (g s)) ∧
      (∀ s, specs = [s] → r = (g s).getD (.leaf none)) ∧
      (specs.length ≠ 1 → (∃ s ∈ specs, (g s).isSome) → ∃ f, r = .node f ∧ (∀ s ∈ specs, f.find? s.name = g s) ∧
        ∀ k ∈ f.keys, k ∈ specs.map (·.name)) ∧
      ((∀ s ∈ specs, g s = none) → r = .leaf none) := by
  have hx : ∀ s ∈ specs, ∃ x, specValue (field s) (fields s) (ofDict (own s)) b.features am = .ok x ∧
      Entry (field s) (fields s) (own s) b.features am x := fun s hs => specValue_entry _ _ (hw s hs) _ _ _
  classical
  let g : ModelSpec → Option (Tree (Option V)) := fun s => if hs : s ∈ specs then (hx s hs).choose else none
  have hg : ∀ s ∈ specs, specValue (field s) (fields s) (ofDict (own s)) b.features am = .ok (g s) ∧
      Entry (field s) (fields s) (own s) b.features am (g s) := by
    intro s hs
    simp only [g, dif_pos hs]
    exact (hx s hs).choose_spec
  obtain ⟨f, hf, h1, _, h3⟩ := specValues_find? field fields b am g (fun s => ofDict (own s)) specs hn.nodup
    (fun s hs => transformedFor_stored specs hn own _ hb s hs) (fun s hs => (hg s hs).1) .nil
  have h1 : ∀ s ∈ specs, f.find? s.name = g s := by
    intro s hs
    rw [h1 s hs]
    simp [Forest.find?]
  have h3 : ∀ k ∈ f.keys, k ∈ specs.map (·.name) := by
    intro k hk
    rcases h3 k hk with h | h
    · exact h
    · simp [Forest.keys] at h
  unfold featureValues
  rw [hf]
  cases f with
  | nil =>
    have hnone : ∀ s ∈ specs, g s = none := fun s hs => by rw [← h1 s hs]; rfl
    refine ⟨.leaf none, g, rfl, fun s hs => (hg s hs).2, ?_, ?_, fun _ => rfl⟩
    · rintro s rfl
      rw [hnone s (by simp)]; rfl
    · rintro _ ⟨s, hs, h⟩
      rw [hnone s hs] at h; cases h
  | cons k t rest =>
    refine ⟨_, g, rfl, fun s hs => (hg s hs).2, ?_, ?_, ?_⟩
    · rintro s rfl
      have hk : k = s.name := by simpa [Forest.keys] using h3 k (by simp [Forest.keys])
      have := h1 s (by simp)
      simp only [Forest.find?, hk, if_true] at this
      simp [← this]
    · intro hl _
      refine ⟨.cons k t rest, by rw [if_neg hl], h1, h3⟩
    · intro h
      exfalso
      have hk := h3 k (by simp [Forest.keys])
      rw [List.mem_map] at hk
      obtain ⟨s, hs, rfl⟩ := hk
      have := h1 s hs
      rw [h s hs] at this
      simp [Forest.find?] at this

/-! ### What metrics read -/

/-- The model specs as the code that prepares the inputs of metrics sees them. -/
def readerSpecs (specs : List ModelSpec) : List Inputs.ModelSpec :=
  specs.map fun s => ⟨s.name, s.predictionKey, s.labelKey⟩

/-- The inputs of a metric of model `s` and output `output`. -/
structure Reads (a : Args) (specs : List ModelSpec) (s : ModelSpec) : Prop where
  known : a.specs = readerSpecs specs
  model : a.model = nameOf specs s

theorem specKeys_readers (specs : List ModelSpec) (hn : Named specs) (s : ModelSpec) (hs : s ∈ specs) :
    Inputs.specKeys (readerSpecs specs) (nameOf specs s) = (s.predictionKey, s.labelKey) := by
  unfold Inputs.specKeys
  by_cases hl : specs.length = 1
  · obtain ⟨x, rfl⟩ := List.length_eq_one_iff.mp hl
    obtain rfl : s = x := by simpa using hs
    simp [readerSpecs, nameOf]
  · have hlen : (readerSpecs specs).length > 1 := by
      have : specs.length ≠ 0 := by
        intro h
        rw [List.length_eq_zero_iff.mp h] at hs; cases hs
      simp only [readerSpecs, List.length_map]; omega
    simp only [hlen, if_true, nameOf, hl, if_false]
    have : (readerSpecs specs).find? (fun x => x.name == s.name) = some ⟨s.name, s.predictionKey, s.labelKey⟩ := by
      have hnd := hn.nodup
      clear hlen hl hn
      induction specs with
      | nil => cases hs
      | cons x specs ih =>
        simp only [List.map_cons, List.nodup_cons] at hnd
        simp only [readerSpecs, List.map_cons, List.find?_cons]
        rcases List.mem_cons.mp hs with rfl | hs
        · simp
        · have : x.name ≠ s.name := fun h => hnd.1 (h ▸ List.mem_map_of_mem (f := (·.name)) hs)
          simp only [beq_eq_false_iff_ne.mpr this]
          exact ih hs hnd.2
    rw [this]

variable {β : Type}

private theorem getByKey_leaf (f : Forest β) (k : String) (v : β) (h : f.find? k = some (.leaf v)) :
    Inputs.getByKey f k = some (.leaf v) := by
  simp [Inputs.getByKey, h, Inputs.isEmptyNode]

private theorem getByKey_node (f g : Forest β) (k : String) (h : f.find? k = some (.node g)) (hg : g ≠ .nil) :
    Inputs.getByKey f k = some (.node g) := by
  cases g with
  | nil => exact absurd rfl hg
  | cons => simp [Inputs.getByKey, h, Inputs.isEmptyNode]

/-- A key of a label that cannot be mistaken for (the beginning of) the name of another model. -/
def Distinct (key : String) (specs : List ModelSpec) (s : ModelSpec) : Prop :=
  ∀ s' ∈ specs, (s'.name = key → s' = s) ∧ ¬ (key ++ "/").toList.isPrefixOf s'.name.toList

private theorem prefixMatches_nil (key : String) (f : Forest β)
    (h : ∀ k ∈ f.keys, ¬ (key ++ "/").toList.isPrefixOf k.toList) : Inputs.prefixMatches key f = .nil := by
  induction f using Forest.rec (motive_1 := fun _ => True) with
  | leaf => trivial
  | node => trivial
  | nil => rfl
  | cons k t rest _ ih =>
    unfold Inputs.prefixMatches
    rw [if_neg (h k (by simp [Forest.keys]))]
    exact ih fun k hk => h k (by simp [Forest.keys, hk])

/-- an optional lookup. -/
private def opt (name : String) (t : Tree β) : Tree β := if name = "" then t else Inputs.optionalKey t name

/-- a required lookup, unless the value is None. -/
private def req (name : String) (t : Tree (Option β)) : Except Err (Tree (Option β)) :=
  if name = "" then .ok t else if Inputs.isNoneLeaf t then .ok t else Inputs.requireKey t name

private theorem byName_eq (name : String) (r : Raw) :
    Inputs.byName name r = (req name r.prediction).map fun p => ⟨opt name r.label, p, opt name r.weight⟩ := by
  unfold Inputs.byName req opt
  by_cases h : name = ""
  · simp [h, Except.map]
  · by_cases h2 : Inputs.isNoneLeaf r.prediction
    · simp [h, h2, Except.map, bind, Except.bind, pure, Except.pure]
    · simp only [h, h2, if_false, bind, Except.bind, pure, Except.pure]
      cases Inputs.requireKey r.prediction name <;> rfl

/-- the label after the lookups. -/
private def labelPart (a : Args) (labelKey : String) (l : Tree (Option β)) : Except Err (Option β) :=
  Inputs.requireLeaf (opt a.output (opt a.model (opt labelKey l)))

/-- the prediction after the lookups. -/
private def predictionPart (a : Args) (key : String) (p : Tree (Option (Arr Fl))) : Except Err (Option (Arr Fl)) :=
  match req a.model p with
  | .error e => .error e
  | .ok p => match req a.output p with
    | .error e => .error e
    | .ok p => Inputs.preparePrediction key p

/-- the weight after the lookups. -/
private def weightPart (a : Args) (w : Tree (Option (Arr ℚ))) : Except Err (Option (Arr ℚ)) :=
  let w := opt a.output (opt a.model w)
  Inputs.requireLeaf (if !a.exampleWeighted || Inputs.isNoneLeaf w then .leaf (some ⟨[], [1]⟩) else w)

private theorem find_of_parts (a : Args) (L : Tree (Option (Arr ℚ))) (P : Tree (Option (Arr Fl)))
    (W : Tree (Option (Arr ℚ))) (l : Option (Arr ℚ)) (p : Option (Arr Fl)) (w : Option (Arr ℚ))
    (hl : labelPart a (Inputs.specKeys a.specs a.model).2 L = .ok l)
    (hp : predictionPart a (Inputs.specKeys a.specs a.model).1 P = .ok p) (hw : weightPart a W = .ok w) :
    find a ⟨L, P, W⟩ = .ok ⟨l, p, w.getD ⟨[], [1]⟩⟩ := by
  unfold find
  unfold labelPart at hl
  unfold predictionPart at hp
  unfold weightPart at hw
  generalize Inputs.specKeys a.specs a.model = pl at *
  obtain ⟨pk, lk⟩ := pl
  have h0 : (if lk = "" then L else Inputs.optionalKey L lk) = opt lk L := rfl
  simp only [byName_eq, h0] at hl hp hw ⊢
  cases h1 : req a.model P with
  | error e => rw [h1] at hp; cases hp
  | ok P1 =>
    rw [h1] at hp
    simp only [Except.map, bind, Except.bind] at hp ⊢
    cases h2 : req a.output P1 with
    | error e => rw [h2] at hp; cases hp
    | ok P2 =>
      rw [h2] at hp
      simp only at hp ⊢
      rw [hl, hw, hp]
      rfl

/-! ### C97 -/

/-- The label of a model and output according to its spec. -/
def labelFor (s : ModelSpec) (own raw : Dict String V) (output : String) : Option V :=
  (configured s.labelKey s.labelKeys output).bind (feature own raw)

private theorem label_part (specs : List ModelSpec) (hn : Named specs) (hw : ∀ s ∈ specs, Dict.WF s.labelKeys)
    (b : Batch V) (own : ModelSpec → Dict String V) (hb : Stored specs own b.transformed) (s : ModelSpec)
    (hs : s ∈ specs) (a : Args) (ha : Reads a specs s)
    (hout : s.labelKey = "" → s.labelKeys ≠ [] → a.output ≠ "" ∧ a.output ∈ Dict.keys s.labelKeys)
    (hd : specs.length ≠ 1 → s.labelKey ≠ "" → Distinct s.labelKey specs s) :
    ∃ L, extractLabels specs b = .ok L ∧
      labelPart a s.labelKey L = .ok (labelFor s (own s) b.features a.output) := by
  obtain ⟨r, g, hr, hg, h1, h2, _⟩ := featureValues_entry specs hn ModelSpec.labelKey ModelSpec.labelKeys hw b own hb true
  refine ⟨r, hr, ?_⟩
  have hs' := hg s hs
  -- what is stored for the model, looked up by output
  have key : ∀ x, g s = some x → labelPart { a with model := "" } "" x = .ok (labelFor s (own s) b.features a.output) ∧
      (s.labelKey ≠ "" → ∃ v, x = .leaf v) ∧ x ≠ .node .nil := by
    intro x hx
    rw [hx] at hs'
    match x, hs' with
    | .leaf v, hs' =>
      refine ⟨?_, fun _ => ⟨v, rfl⟩, by simp⟩
      have hv : v = labelFor s (own s) b.features a.output := by
        rcases hs' with ⟨rfl, _, h3, h4⟩ | ⟨h3, h4, _⟩
        · simp [labelFor, configured, h3, h4, Dict.get?]
        · simp [labelFor, configured, h3, h4]
      unfold labelPart
      by_cases ho : a.output = "" <;> simp [ho, opt, Inputs.optionalKey, Inputs.requireLeaf, hv]
    | .node f, ⟨h3, h4, h5⟩ =>
      refine ⟨?_, fun h => absurd h3 h, ?_⟩
      · have hk : s.labelKeys ≠ [] := by
          intro hk
          obtain ⟨o, ho⟩ := h4
          obtain ⟨t, ho⟩ := (Forest.mem_keys_iff _ _).mp ho
          rw [h5 o, hk] at ho
          simp [Dict.get?] at ho
        obtain ⟨ho, hmem⟩ := hout h3 hk
        obtain ⟨k, hk⟩ := (Dict.mem_keys_iff _ _).mp hmem
        have hf : f.find? a.output = some (.leaf (feature (own s) b.features k)) := by
          rw [h5, hk]
          cases hv : feature (own s) b.features k <;> simp [hv]
        unfold labelPart
        simp [ho, opt, Inputs.optionalKey, getByKey_leaf f _ _ hf, Inputs.requireLeaf, labelFor, configured, h3, hk]
      · intro h
        cases h
        obtain ⟨o, ho⟩ := h4
        simp [Forest.keys] at ho
  have hsome : ∃ x, g s = some x := by
    cases hx : g s with
    | some x => exact ⟨x, rfl⟩
    | none => rw [hx] at hs'; cases hs'.1
  obtain ⟨x, hx⟩ := hsome
  obtain ⟨hk1, hk2, hk3⟩ := key x hx
  have hm := ha.model
  by_cases hl : specs.length = 1
  · obtain ⟨y, rfl⟩ := List.length_eq_one_iff.mp hl
    obtain rfl : s = y := by simpa using hs
    rw [h1 s rfl, hx]
    have hm : a.model = "" := by simpa [nameOf] using hm
    by_cases hlk : s.labelKey = ""
    · rw [hlk]
      unfold labelPart at hk1 ⊢
      simpa [hm, opt] using hk1
    · obtain ⟨v, rfl⟩ := hk2 hlk
      unfold labelPart at hk1 ⊢
      simpa [hm, opt, Inputs.optionalKey, hlk] using hk1
  · obtain ⟨f, rfl, hf, hkeys⟩ := h2 hl ⟨s, hs, by simp [hx]⟩
    have hm : a.model = s.name := by simpa [nameOf, hl] using hm
    have hne : s.name ≠ "" := hn.named hl s hs
    have hfs : Inputs.getByKey f s.name = some x := by
      have := hf s hs
      rw [hx] at this
      cases x with
      | leaf v => exact getByKey_leaf _ _ _ this
      | node g => exact getByKey_node _ _ _ this (fun h => hk3 (by rw [h]))
    by_cases hlk : s.labelKey = ""
    · rw [hlk]
      unfold labelPart at hk1 ⊢
      simpa [hm, hne, opt, Inputs.optionalKey, hfs] using hk1
    · obtain ⟨v, rfl⟩ := hk2 hlk
      have hd := hd hl hlk
      have hopt : Inputs.optionalKey (Tree.node f) s.labelKey = if s.name = s.labelKey then .leaf v else .node f := by
        by_cases hnl : s.name = s.labelKey
        · simp [← hnl, Inputs.optionalKey, hfs]
        · have hnone : f.find? s.labelKey = none := by
            rw [Forest.find?_eq_none_iff]
            intro hmem
            have := hkeys _ hmem
            rw [List.mem_map] at this
            obtain ⟨s', hs', he⟩ := this
            have := (hd s' hs').1 he
            subst this
            exact hnl he
          have hpre : Inputs.prefixMatches s.labelKey f = .nil := by
            apply prefixMatches_nil
            intro k hk
            have := hkeys k hk
            rw [List.mem_map] at this
            obtain ⟨s', hs', rfl⟩ := this
            exact (hd s' hs').2
          simp [hnl, Inputs.optionalKey, Inputs.getByKey, hnone, hpre]
      unfold labelPart at hk1 ⊢
      simp only [opt, hlk, if_false, hopt, hm, hne]
      by_cases hnl : s.name = s.labelKey
      · simpa [hnl, opt, Inputs.optionalKey] using hk1
      · simpa [hnl, opt, Inputs.optionalKey, hfs] using hk1

/-- What is read back for a model and output from what was stored without None for missing features. -/
private theorem stored_found (specs : List ModelSpec) (hn : Named specs) (field : ModelSpec → String)
    (fields : ModelSpec → Dict String String) (hw : ∀ s ∈ specs, Dict.WF (fields s)) (b : Batch V)
    (own : ModelSpec → Dict String V) (hb : Stored specs own b.transformed) (s : ModelSpec) (hs : s ∈ specs)
    (output k : String) (v : V) (hc : configured (field s) (fields s) output = some k)
    (hv : feature (own s) b.features k = some v) :
    ∃ r, featureValues specs field fields b false = .ok r ∧ r ≠ .leaf none ∧
      ∃ x : Tree (Option V), (specs.length = 1 → r = x) ∧
        (specs.length ≠ 1 → ∃ f, r = .node f ∧ Inputs.getByKey f s.name = some x) ∧
        (field s ≠ "" → x = .leaf (some v)) ∧
        (field s = "" → ∃ f, x = .node f ∧ Inputs.getByKey f output = some (.leaf (some v))) := by
  obtain ⟨r, g, hr, hg, h1, h2, _⟩ := featureValues_entry specs hn field fields hw b own hb false
  refine ⟨r, hr, ?_⟩
  have hs' := hg s hs
  cases hx : g s with
  | none =>
    rw [hx] at hs'
    rw [hs'.2 output k hc] at hv
    cases hv
  | some x =>
    rw [hx] at hs'
    have hxv : (field s ≠ "" → x = .leaf (some v)) ∧
        (field s = "" → ∃ f, x = .node f ∧ Inputs.getByKey f output = some (.leaf (some v))) ∧ x ≠ .node .nil ∧
        x ≠ .leaf none := by
      match x, hs' with
      | .leaf w, hs' =>
        rcases hs' with ⟨_, h, _⟩ | ⟨h3, h4, h5⟩
        · cases h
        · have : k = field s := by simpa [configured, h3, eq_comm] using hc
          rw [this, ← h4] at hv
          subst hv
          exact ⟨fun _ => rfl, fun h => absurd h h3, by simp, by simp⟩
      | .node f, ⟨h3, h4, h5⟩ =>
        refine ⟨fun h => absurd h3 h, fun _ => ⟨f, rfl, ?_⟩, ?_, by simp⟩
        · apply getByKey_leaf
          have hk : Dict.get? (fields s) output = some k := by simpa [configured, h3] using hc
          rw [h5, hk]
          simp [hv]
        · intro h
          cases h
          obtain ⟨o, ho⟩ := h4
          simp [Forest.keys] at ho
    by_cases hl : specs.length = 1
    · obtain ⟨y, rfl⟩ := List.length_eq_one_iff.mp hl
      obtain rfl : s = y := by simpa using hs
      have hrx : r = x := by rw [h1 s rfl, hx]; rfl
      exact ⟨hrx ▸ hxv.2.2.2, x, fun _ => hrx, fun h => absurd rfl h, hxv.1, hxv.2.1⟩
    · obtain ⟨f, rfl, hf, _⟩ := h2 hl ⟨s, hs, by simp [hx]⟩
      refine ⟨by simp, x, fun h => absurd h hl, fun _ => ⟨f, rfl, ?_⟩, hxv.1, hxv.2.1⟩
      have := hf s hs
      rw [hx] at this
      cases x with
      | leaf v => exact getByKey_leaf _ _ _ this
      | node g => exact getByKey_node _ _ _ this (fun h => hxv.2.2.1 (by rw [h]))

private theorem orKeep_of_ne (old t : Tree (Option β)) (h : t ≠ .leaf none) : orKeep old t = t := by
  cases t with
  | leaf v => cases v with
    | none => exact absurd rfl h
    | some v => rfl
  | node f => rfl

private theorem weight_part (specs : List ModelSpec) (hn : Named specs)
    (hw : ∀ s ∈ specs, Dict.WF s.exampleWeightKeys) (b : Batch (Arr ℚ)) (own : ModelSpec → Dict String (Arr ℚ))
    (hb : Stored specs own b.transformed) (s : ModelSpec) (hs : s ∈ specs) (a : Args) (ha : Reads a specs s)
    (ho : s.exampleWeightKey = "" → a.output ≠ "") (k : String) (v : Arr ℚ)
    (hc : configured s.exampleWeightKey s.exampleWeightKeys a.output = some k)
    (hv : feature (own s) b.features k = some v) (hwt : a.exampleWeighted = true) (old : Tree (Option (Arr ℚ))) :
    ∃ W, extractWeights specs b old = .ok W ∧ weightPart a W = .ok (some v) := by
  obtain ⟨r, hr, hne, x, h1, h2, h3, h4⟩ := stored_found specs hn ModelSpec.exampleWeightKey ModelSpec.exampleWeightKeys
    hw b own hb s hs a.output k v hc hv
  refine ⟨r, ?_, ?_⟩
  · unfold extractWeights
    rw [hr]
    simp only
    rw [orKeep_of_ne _ _ hne]
  · have hm := ha.model
    have hmodel : opt a.model r = x := by
      by_cases hl : specs.length = 1
      · have hm : a.model = "" := by simpa [nameOf, hl] using hm
        simp [opt, hm, h1 hl]
      · obtain ⟨f, rfl, hf⟩ := h2 hl
        have hm : a.model = s.name := by simpa [nameOf, hl] using hm
        simp [opt, hm, hn.named hl s hs, Inputs.optionalKey, hf]
    have hout : opt a.output x = .leaf (some v) := by
      by_cases hk : s.exampleWeightKey = ""
      · obtain ⟨f, rfl, hf⟩ := h4 hk
        simp [opt, ho hk, Inputs.optionalKey, hf]
      · rw [h3 hk]
        by_cases hoo : a.output = "" <;> simp [opt, hoo, Inputs.optionalKey]
    unfold weightPart
    simp only [hmodel, hout, hwt]
    rfl

private theorem prediction_part (specs : List ModelSpec) (hn : Named specs)
    (hw : ∀ s ∈ specs, Dict.WF s.predictionKeys) (b : Batch (Arr Fl)) (own : ModelSpec → Dict String (Arr Fl))
    (hb : Stored specs own b.transformed) (s : ModelSpec) (hs : s ∈ specs) (a : Args) (ha : Reads a specs s)
    (ho : s.predictionKey = "" ↔ a.output ≠ "") (k : String) (v : Arr Fl)
    (hc : configured s.predictionKey s.predictionKeys a.output = some k)
    (hv : feature (own s) b.features k = some v) (old : Tree (Option (Arr Fl))) (pk : String) :
    ∃ P, extractPredictions specs b old = .ok P ∧ predictionPart a pk P = .ok (some v) := by
  obtain ⟨r, hr, hne, x, h1, h2, h3, h4⟩ := stored_found specs hn ModelSpec.predictionKey ModelSpec.predictionKeys
    hw b own hb s hs a.output k v hc hv
  refine ⟨r, ?_, ?_⟩
  · unfold extractPredictions
    rw [hr]
    simp only
    rw [orKeep_of_ne _ _ hne]
  · have hm := ha.model
    have hmodel : req a.model r = .ok x := by
      by_cases hl : specs.length = 1
      · have hm : a.model = "" := by simpa [nameOf, hl] using hm
        simp [req, hm, h1 hl]
      · obtain ⟨f, rfl, hf⟩ := h2 hl
        have hm : a.model = s.name := by simpa [nameOf, hl] using hm
        simp [req, hm, hn.named hl s hs, Inputs.isNoneLeaf, Inputs.requireKey, hf]
    have hout : req a.output x = .ok (.leaf (some v)) := by
      by_cases hk : s.predictionKey = ""
      · obtain ⟨f, rfl, hf⟩ := h4 hk
        simp [req, ho.mp hk, Inputs.isNoneLeaf, Inputs.requireKey, hf]
      · rw [h3 hk]
        have : a.output = "" := by
          by_contra h
          exact hk (ho.mpr h)
        simp [req, this]
    unfold predictionPart
    simp only [hmodel, hout]
    rfl

/-- **C97** The label, the prediction and the example weight that a metric of a model and output gets are the values of
the features named in the spec of that model for that output: its transformed feature of that name if there is one,
otherwise the raw feature.  A label whose feature is missing is None. -/
theorem C97_inputs_partial (specs : List ModelSpec) (hn : Named specs)
    (hw1 : ∀ s ∈ specs, Dict.WF s.labelKeys) (hw2 : ∀ s ∈ specs, Dict.WF s.predictionKeys)
    (hw3 : ∀ s ∈ specs, Dict.WF s.exampleWeightKeys)
    (b : Batch (Arr ℚ)) (own : ModelSpec → Dict String (Arr ℚ)) (hb : Stored specs own b.transformed)
    (b' : Batch (Arr Fl)) (own' : ModelSpec → Dict String (Arr Fl)) (hb' : Stored specs own' b'.transformed)
    (s : ModelSpec) (hs : s ∈ specs) (a : Args) (ha : Reads a specs s)
    (hlabel : s.labelKey = "" → s.labelKeys ≠ [] → a.output ≠ "" ∧ a.output ∈ Dict.keys s.labelKeys)
    (hd : specs.length ≠ 1 → s.labelKey ≠ "" → Distinct s.labelKey specs s)
    (hpred : s.predictionKey = "" ↔ a.output ≠ "") (kp : String)
    (hcp : configured s.predictionKey s.predictionKeys a.output = some kp) (p : Arr Fl)
    (hp : feature (own' s) b'.features kp = some p)
    (hweighted : a.exampleWeighted = true) (hweight : s.exampleWeightKey = "" → a.output ≠ "") (kw : String)
    (hcw : configured s.exampleWeightKey s.exampleWeightKeys a.output = some kw) (w : Arr ℚ)
    (hw : feature (own s) b.features kw = some w) (oldP : Tree (Option (Arr Fl))) (oldW : Tree (Option (Arr ℚ))) :
    ∃ L P W, extractLabels specs b = .ok L ∧ extractPredictions specs b' oldP = .ok P ∧
      extractWeights specs b oldW = .ok W ∧
      find a ⟨L, P, W⟩ = .ok ⟨labelFor s (own s) b.features a.output, some p, w⟩ := by
  obtain ⟨L, hL, hL'⟩ := label_part specs hn hw1 b own hb s hs a ha hlabel hd
  obtain ⟨P, hP, hP'⟩ := prediction_part specs hn hw2 b' own' hb' s hs a ha hpred kp p hcp hp oldP s.predictionKey
  obtain ⟨W, hW, hW'⟩ := weight_part specs hn hw3 b own hb s hs a ha hweight kw w hcw hw hweighted oldW
  refine ⟨L, P, W, hL, hP, hW, ?_⟩
  have hk : Inputs.specKeys a.specs a.model = (s.predictionKey, s.labelKey) := by
    rw [ha.known, ha.model]
    exact specKeys_readers specs hn s hs
  have := find_of_parts a L P W _ _ _ (by rw [hk]; exact hL') (by rw [hk]; exact hP') hW'
  simpa using this

/-- Every model that has outputs is listed with all its outputs, so that the transformed features are stored as assumed
in `C97_inputs_partial` if all models have some. -/
theorem C97_transformed (specs : List ModelSpec) (own : ModelSpec → Dict String V)
    (calls : ModelSpec → List (Option (Dict String V))) (required : String → Bool)
    (h : ∀ s ∈ specs, modelOutputs (required (nameOf specs s)) (calls s) = .ok (some (own s))) :
    outputsPerModel required (specs.map fun s => (nameOf specs s, calls s)) =
      .ok (specs.map fun s => (nameOf specs s, own s)) := by
  generalize nameOf specs = name at h ⊢
  induction specs with
  | nil => rfl
  | cons s specs ih =>
    simp only [List.map_cons, outputsPerModel, h s (by simp), ih fun s hs => h s (by simp [hs])]

/-! A case that meets the hypotheses: two models, one with its own transformed label. -/

/-- first model: label and weight by key, prediction by output. -/
def demoA : ModelSpec := { name := "a", labelKey := "y", predictionKey := "pa", exampleWeightKey := "w" }
/-- second model. -/
def demoB : ModelSpec := { name := "b", labelKey := "y", predictionKey := "pb", exampleWeightKey := "w" }

/-- an array of one number. -/
def num (x : ℚ) : Arr ℚ := ⟨[1], [x]⟩
/-- transformed features of the models. -/
def demoOwn (s : ModelSpec) : Dict String (Arr ℚ) := if s.name = "a" then [("y", num 5)] else [("z", num 6)]

/-- features and transformed features. -/
def demoFeatures : Batch (Arr ℚ) :=
  ⟨[("y", num 1), ("w", num 2)],
    storedForest (storeOutputs true ([demoA, demoB].map fun s => (nameOf [demoA, demoB] s, demoOwn s)))⟩
/-- features with predictions. -/
def demoPredictions : Batch (Arr Fl) := ⟨[("pa", ⟨[1], [.fin (1/2)]⟩), ("pb", ⟨[1], [.fin (1/4)]⟩)], .nil⟩

theorem demo_named : Named [demoA, demoB] := ⟨by decide, by decide⟩

example : ∃ L P W, extractLabels [demoA, demoB] demoFeatures = .ok L ∧
    extractPredictions [demoA, demoB] demoPredictions (.leaf none) = .ok P ∧
    extractWeights [demoA, demoB] demoFeatures (.leaf none) = .ok W ∧
    find { specs := readerSpecs [demoA, demoB], model := "a", exampleWeighted := true } ⟨L, P, W⟩ =
      .ok ⟨some (num 5), some ⟨[1], [.fin (1/2)]⟩, num 2⟩ := by
  exact C97_inputs_partial [demoA, demoB] demo_named (by simp [Dict.WF, Dict.keys, demoA, demoB])
    (by simp [Dict.WF, Dict.keys, demoA, demoB]) (by simp [Dict.WF, Dict.keys, demoA, demoB]) demoFeatures demoOwn
    (Or.inr ⟨by decide, rfl⟩) demoPredictions (fun _ => []) (Or.inl ⟨rfl, fun _ _ => rfl⟩) demoA (by simp)
    { specs := readerSpecs [demoA, demoB], model := "a", exampleWeighted := true } ⟨rfl, rfl⟩ (by decide)
    (by intro _ _ s hs; simp only [List.mem_cons, List.not_mem_nil, or_false] at hs; rcases hs with rfl | rfl <;> decide)
    (by decide) "pa" rfl _ rfl rfl (by decide) "w" rfl _ rfl (.leaf none) (.leaf none)

/-- **C97 fails if only one of several models has transformed features**: these are stored without the name of the model
and then used for all models: the label of `b` is the transformed label of `a`. -/
theorem C97_other_models_features :
    (match outputsPerModel (fun _ => false) [("a", [some [("y", num 5)], none]), ("b", [none, none])] with
      | .ok outs => extractLabels [demoA, demoB] ⟨[("y", num 1)], storedForest (storeOutputs true outs)⟩
      | .error e => .error e) =
    .ok (.node (.cons "a" (.leaf (some (num 5))) (.cons "b" (.leaf (some (num 5))) .nil))) := rfl

/-- **C97 fails if the label of a model has the name of another model**: the label of `b`, the feature `a`, is looked up
among the labels of the models and the label of the model `a` is used. -/
theorem C97_label_of_other_model :
    ∃ L, extractLabels [demoA, { demoB with labelKey := "a" }] ⟨[("y", num 1), ("a", num 7)], .nil⟩ = .ok L ∧
      find { specs := readerSpecs [demoA, { demoB with labelKey := "a" }], model := "b" }
        ⟨L, .node (.cons "b" (.leaf (some ⟨[1], [.fin (1/4)]⟩)) .nil), .leaf none⟩ =
        .ok ⟨some (num 1), some ⟨[1], [.fin (1/4)]⟩, ⟨[], [1]⟩⟩ := ⟨_, rfl, by decide +kernel⟩

/-- **Example weights of one model only**: weighted metrics of the others fail. -/
theorem C97_weight_of_one_model_fails :
    ∃ W, extractWeights [demoA, { demoB with exampleWeightKey := "" }] ⟨[("w", num 2)], .nil⟩ (.leaf none) = .ok W ∧
      find { specs := readerSpecs [demoA, demoB], model := "b", exampleWeighted := true }
        ⟨.leaf (some (num 1)), .node (.cons "b" (.leaf (some ⟨[1], [.fin (1/4)]⟩)) .nil), W⟩ = .error .valueError :=
  ⟨_, rfl, by decide +kernel⟩

/-- **One prediction key for several outputs**: unlike one label key, it fails. -/
theorem C97_prediction_key_with_output :
    ∃ P, extractPredictions [{ demoA with predictionKey := "p" }] ⟨[("p", ⟨[1], [.fin (1/4)]⟩)], .nil⟩ (.leaf none)
        = .ok P ∧
      find { specs := readerSpecs [{ demoA with predictionKey := "p" }], output := "o" }
        ⟨.leaf (some (num 1)), P, .leaf none⟩ = .error .valueError := ⟨_, rfl, by decide +kernel⟩

/-- **A model named like one of its transformed features**: the extraction fails. -/
theorem C97_named_like_feature :
    extractLabels [{ demoA with name := "x" }]
      ⟨[("y", num 1)], storedForest (storeOutputs true [("", [("x", num 5)])])⟩ = .error .valueError := rfl

/-! ### C98 -/

/-- The output of a model that is the prediction of a metric: a single output itself, otherwise the one of the
metric's output name, of the prediction key, or the first of the common names. -/
def chosen (key output : String) (d : Dict String V) : Option V :=
  match d with
  | [(_, v)] => if output = "" then some v else none
  | d => if output ≠ "" then Dict.get? d output else if key ≠ "" then Dict.get? d key
    else ["scores", "outputs", "predictions", "logistic", "probabilities", "logits"].findSome? (Dict.get? d)

private theorem find?_unwrapFalse (outs : List (String × Dict String V)) (k : String) :
    (unwrapAll false outs).find? k = (Dict.get? outs k).map (unwrapOutput false) := by
  induction outs with
  | nil => rfl
  | cons kv outs ih =>
    obtain ⟨k', d⟩ := kv
    rw [Dict.get?_cons]
    simp only [unwrapAll, Forest.find?]
    by_cases h : k' = k
    · simp [h]
    · simp [h, ih]

private theorem unwrapOutput_cases (d : Dict String V) (hd : d ≠ []) :
    (∃ n v, d = [(n, v)] ∧ unwrapOutput false d = .leaf v) ∨
    (2 ≤ d.length ∧ unwrapOutput false d = .node (ofDict d)) := by
  match d, hd with
  | [(n, v)], _ => exact Or.inl ⟨n, v, rfl, rfl⟩
  | _ :: _ :: _, _ => exact Or.inr ⟨by simp, rfl⟩

private theorem ofDict_ne_nil (d : Dict String V) (hd : d ≠ []) : ofDict d ≠ .nil := by
  cases d with
  | nil => exact absurd rfl hd
  | cons => simp [ofDict]

private theorem req_model (specs : List ModelSpec) (hn : Named specs) (out : ModelSpec → Dict String (Option β))
    (s : ModelSpec) (hs : s ∈ specs) (hne : out s ≠ []) (model : String) (hm : model = nameOf specs s) :
    req model (storeOutputs false (specs.map fun s => (nameOf specs s, out s))) = .ok (unwrapOutput false (out s)) := by
  by_cases hl : specs.length = 1
  · obtain ⟨x, rfl⟩ := List.length_eq_one_iff.mp hl
    obtain rfl : s = x := by simpa using hs
    have hm : model = "" := by simpa [nameOf] using hm
    simp [req, hm, storeOutputs]
  · have hmap : (specs.map fun s => (nameOf specs s, out s)) = specs.map fun s => (s.name, out s) := by
      apply List.map_congr_left
      intro x _
      simp [nameOf, hl]
    have hst : storeOutputs false (specs.map fun s => (nameOf specs s, out s))
        = .node (unwrapAll false (specs.map fun s => (s.name, out s))) := by
      rw [hmap]
      match specs, hl with
      | [], _ => rfl
      | _ :: _ :: _, _ => rfl
    have hm : model = s.name := by simpa [nameOf, hl] using hm
    have hf : (unwrapAll false (specs.map fun s => (s.name, out s))).find? s.name = some (unwrapOutput false (out s)) := by
      rw [find?_unwrapFalse, get?_map_names specs hn.nodup out s hs]; rfl
    have hg : Inputs.getByKey (unwrapAll false (specs.map fun s => (s.name, out s))) s.name
        = some (unwrapOutput false (out s)) := by
      rcases unwrapOutput_cases (out s) hne with ⟨n, v, _, h⟩ | ⟨_, h⟩
      · rw [h] at hf ⊢; exact getByKey_leaf _ _ _ hf
      · rw [h] at hf ⊢; exact getByKey_node _ _ _ hf (ofDict_ne_nil _ hne)
    rw [hst]
    simp [req, hm, hn.named hl s hs, Inputs.isNoneLeaf, Inputs.requireKey, hg]

private theorem leaf_parts (a : Args) (l : Option (Arr ℚ)) (w : Option (Arr ℚ)) (lk : String) :
    labelPart a lk (.leaf l) = .ok l ∧
      ∃ w', weightPart a (.leaf w) = .ok w' ∧
        w'.getD ⟨[], [1]⟩ = if a.exampleWeighted then w.getD ⟨[], [1]⟩ else ⟨[], [1]⟩ := by
  have ho : ∀ (k : String) (x : Option (Arr ℚ)), opt k (Tree.leaf x) = .leaf x := by
    intro k x
    by_cases h : k = "" <;> simp [opt, h, Inputs.optionalKey]
  refine ⟨by simp [labelPart, ho, Inputs.requireLeaf], ?_⟩
  unfold weightPart
  simp only [ho]
  cases a.exampleWeighted with
  | false => exact ⟨_, rfl, rfl⟩
  | true =>
    cases w with
    | none => exact ⟨_, rfl, rfl⟩
    | some w => exact ⟨_, rfl, rfl⟩

/-- **C98** The prediction used for metrics of a model is the output of that model: the only output itself, otherwise the
output of the metric's output name, of the prediction key of the model, or with a common name. -/
theorem C98_prediction_partial (specs : List ModelSpec) (hn : Named specs)
    (out : ModelSpec → Dict String (Option (Arr Fl))) (s : ModelSpec) (hs : s ∈ specs) (a : Args)
    (ha : Reads a specs s) (v : Arr Fl) (hv : chosen s.predictionKey a.output (out s) = some (some v))
    (l w : Option (Arr ℚ)) :
    find a ⟨.leaf l, storeOutputs false (specs.map fun s => (nameOf specs s, out s)), .leaf w⟩ =
      .ok ⟨l, some v, if a.exampleWeighted then w.getD ⟨[], [1]⟩ else ⟨[], [1]⟩⟩ := by
  have hne : out s ≠ [] := by
    intro h
    rw [h] at hv
    unfold chosen at hv
    simp only [Dict.get?] at hv
    split at hv
    · cases hv
    · split at hv
      · cases hv
      · simp at hv
  have hk : Inputs.specKeys a.specs a.model = (s.predictionKey, s.labelKey) := by
    rw [ha.known, ha.model]
    exact specKeys_readers specs hn s hs
  have hp : predictionPart a (Inputs.specKeys a.specs a.model).1
      (storeOutputs false (specs.map fun s => (nameOf specs s, out s))) = .ok (some v) := by
    rw [hk]
    unfold predictionPart
    rw [req_model specs hn out s hs hne a.model ha.model]
    simp only
    rcases unwrapOutput_cases (out s) hne with ⟨n, x, hd, h⟩ | ⟨h2, h⟩
    · rw [h]
      rw [hd] at hv
      have ho : a.output = "" := by
        by_contra ho
        simp [chosen, ho] at hv
      have hx : x = some v := by simpa [chosen, ho] using hv
      simp [req, ho, hx, Inputs.preparePrediction]
    · rw [h]
      have hch : chosen s.predictionKey a.output (out s) = if a.output ≠ "" then Dict.get? (out s) a.output
          else if s.predictionKey ≠ "" then Dict.get? (out s) s.predictionKey
          else ["scores", "outputs", "predictions", "logistic", "probabilities", "logits"].findSome? (Dict.get? (out s)) := by
        unfold chosen
        match hd : out s, h2 with
        | _ :: _ :: _, _ => rfl
      rw [hch] at hv
      by_cases ho : a.output = ""
      · simp only [ho, ne_eq, not_true, if_false] at hv
        by_cases hpk : s.predictionKey = ""
        · simp only [hpk, ne_eq, not_true, if_false] at hv
          have : Inputs.commonKeys.findSome? (ofDict (out s)).find? = some (.leaf (some v)) := by
            have hgen : ∀ names : List String, names.findSome? (Dict.get? (out s)) = some (some v) →
                names.findSome? (ofDict (out s)).find? = some (.leaf (some v)) := by
              intro names
              induction names with
              | nil => intro h; simp at h
              | cons n names ih =>
                intro h
                simp only [List.findSome?_cons, find?_ofDict] at h ⊢
                cases hg : Dict.get? (out s) n with
                | none => rw [hg] at h; simpa using ih h
                | some x => rw [hg] at h; simp at h; simp [h]
            exact hgen _ hv
          simp [req, ho, Inputs.preparePrediction, hpk, this]
        · simp only [hpk, ne_eq, not_false_eq_true, if_true] at hv
          simp [req, ho, Inputs.preparePrediction, hpk, find?_ofDict, hv]
      · simp only [ho, ne_eq, not_false_eq_true, if_true] at hv
        have : Inputs.getByKey (ofDict (out s)) a.output = some (.leaf (some v)) := by
          apply getByKey_leaf
          rw [find?_ofDict, hv]; rfl
        simp [req, ho, Inputs.isNoneLeaf, Inputs.requireKey, this, Inputs.preparePrediction]
  obtain ⟨hl, w', hw, hw'⟩ := leaf_parts a l w (Inputs.specKeys a.specs a.model).2
  rw [find_of_parts a _ _ _ _ _ _ hl hp hw, hw']

/-- **C98 fails for a model with a single output named in the metrics spec**: the output is stored without its name, so
every metric of that output fails. -/
theorem C98_single_output_fails (specs : List ModelSpec) (hn : Named specs)
    (out : ModelSpec → Dict String (Option (Arr Fl))) (s : ModelSpec) (hs : s ∈ specs) (a : Args)
    (ha : Reads a specs s) (v : Arr Fl) (ho : a.output ≠ "") (hv : out s = [(a.output, some v)])
    (l w : Tree (Option (Arr ℚ))) :
    find a ⟨l, storeOutputs false (specs.map fun s => (nameOf specs s, out s)), w⟩ = .error .valueError := by
  have hr := req_model specs hn out s hs (by rw [hv]; simp) a.model ha.model
  have hr2 : req a.output (unwrapOutput false (out s)) = .error .valueError := by
    rw [hv]
    simp [unwrapOutput, req, ho, Inputs.isNoneLeaf, Inputs.requireKey]
  unfold find
  simp only [byName_eq, hr, hr2, Except.map, bind, Except.bind]

example : find { specs := readerSpecs [demoA, demoB], model := "b", output := "o" }
    ⟨.leaf (some (num 1)), storeOutputs false ([demoA, demoB].map fun s => (nameOf [demoA, demoB] s,
      [("n", some ⟨[1], [.fin 2]⟩), ("o", some ⟨[1], [.fin (if s.name = "a" then 3 else 4)]⟩)])), .leaf none⟩ =
    .ok ⟨some (num 1), some ⟨[1], [.fin 4]⟩, ⟨[], [1]⟩⟩ :=
  C98_prediction_partial [demoA, demoB] demo_named (fun s =>
    [("n", some ⟨[1], [.fin 2]⟩), ("o", some ⟨[1], [.fin (if s.name = "a" then 3 else 4)]⟩)]) demoB (by simp)
    { specs := readerSpecs [demoA, demoB], model := "b", output := "o" } ⟨rfl, rfl⟩ ⟨[1], [.fin 4]⟩ rfl _ none

end Extraction
end TFMA
