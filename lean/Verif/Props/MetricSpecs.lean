import Verif.Lemmas.MetricSpecs

/-!
# C80: the sub keys of a metrics spec; C81: the thresholds of the metrics specs
-/

namespace TFMA
namespace MetricSpecs

open MetricKeys Evaluate

variable {B S T : Type}

/-! ### Specification -/

/-- The sub keys a binarization asks for. -/
def Binarize.Asks (b : Binarize) (sk : SubKey) : Prop :=
  (∃ v ∈ b.classIds, sk = ⟨some v, none, none⟩) ∨ (∃ v ∈ b.kList, sk = ⟨none, some v, none⟩) ∨
    ∃ v ∈ b.topKList, sk = ⟨none, none, some v⟩

/-- The sub keys an aggregation is made for: one per top k, none without. -/
def Aggregate.Asks (a : Aggregate) (sk : Option SubKey) : Prop :=
  (sk = none ∧ (a.topK = none ∨ a.topK = some [])) ∨ ∃ l, a.topK = some l ∧ ∃ v ∈ l, sk = some ⟨none, none, some v⟩

/-- The aggregation type of a spec. -/
def Aggregate.Has (a : Aggregate) : Option AggregationType → Prop
  | none => a.kind = none
  | some t => (a.kind = some .micro ∧ t = ⟨some true, none, none⟩) ∨ (a.kind = some .macroAvg ∧ t = ⟨none, some true, none⟩) ∨
    (a.kind = some .weighted ∧ t = ⟨none, none, some true⟩)

/-- What a spec asks for: the metric for each binarized sub key, each aggregation, and the plain metric if there is neither. -/
inductive Asks (s : Spec B S T) : Option AggregationType → Option SubKey → Prop
  | binarize {b : Binarize} {sk : SubKey} : s.binarize = some b → b.Asks sk → Asks s none (some sk)
  | aggregate {a : Aggregate} {t : Option AggregationType} {sk : Option SubKey} : s.aggregate = some a → a.Has t → a.Asks sk →
      Asks s t sk
  | plain : s.aggregate = none → (∀ b, s.binarize = some b → ∀ sk, ¬ b.Asks sk) → Asks s none none

/-- Every k and top k is at least 1. -/
def Positive (s : Spec B S T) : Prop :=
  (∀ b, s.binarize = some b → (∀ v ∈ b.kList, 1 ≤ v) ∧ ∀ v ∈ b.topKList, 1 ≤ v) ∧
  ∀ a l, s.aggregate = some a → a.topK = some l → ∀ v ∈ l, 1 ≤ v

/-! ### Helpers -/

private theorem new_class (v : ℤ) : SubKey.new (some v) none none = .ok ⟨some v, none, none⟩ := rfl

private theorem new_k (v : ℤ) : SubKey.new none (some v) none = if v < 1 then .error .valueError else .ok ⟨none, some v, none⟩ := by
  simp [SubKey.new]

private theorem new_top (v : ℤ) : SubKey.new none none (some v) = if v < 1 then .error .valueError else .ok ⟨none, none, some v⟩ := by
  simp [SubKey.new]

private theorem binarizeKeys_ok (b : Binarize) (h1 : ∀ v ∈ b.kList, 1 ≤ v) (h2 : ∀ v ∈ b.topKList, 1 ≤ v) :
    binarizeKeys b = .ok ((b.classIds.map (fun v => (⟨some v, none, none⟩ : SubKey)) ++ b.kList.map (fun v => (⟨none, some v, none⟩ : SubKey)) ++
      b.topKList.map (fun v => (⟨none, none, some v⟩ : SubKey))).map some) := by
  unfold binarizeKeys
  rw [mapE_of (g := fun v => (⟨some v, none, none⟩ : SubKey)) (fun v _ => new_class v),
    mapE_of (g := fun v => (⟨none, some v, none⟩ : SubKey)) (fun v hv => by rw [new_k, if_neg (by have := h1 v hv; omega)]),
    mapE_of (g := fun v => (⟨none, none, some v⟩ : SubKey)) (fun v hv => by rw [new_top, if_neg (by have := h2 v hv; omega)])]
  rfl

private theorem mem_binarizeKeys (b : Binarize) (sk : Option SubKey) :
    sk ∈ ((b.classIds.map (fun v => (⟨some v, none, none⟩ : SubKey)) ++ b.kList.map (fun v => (⟨none, some v, none⟩ : SubKey)) ++
      b.topKList.map (fun v => (⟨none, none, some v⟩ : SubKey))).map some) ↔ ∃ k, sk = some k ∧ b.Asks k := by
  unfold Binarize.Asks
  simp only [List.mem_map, List.mem_append]
  constructor
  · rintro ⟨k, (⟨v, hv, rfl⟩ | ⟨v, hv, rfl⟩) | ⟨v, hv, rfl⟩, rfl⟩
    · exact ⟨_, rfl, .inl ⟨v, hv, rfl⟩⟩
    · exact ⟨_, rfl, .inr (.inl ⟨v, hv, rfl⟩)⟩
    · exact ⟨_, rfl, .inr (.inr ⟨v, hv, rfl⟩)⟩
  · rintro ⟨k, rfl, ⟨v, hv, rfl⟩ | ⟨v, hv, rfl⟩ | ⟨v, hv, rfl⟩⟩
    · exact ⟨_, .inl (.inl ⟨v, hv, rfl⟩), rfl⟩
    · exact ⟨_, .inl (.inr ⟨v, hv, rfl⟩), rfl⟩
    · exact ⟨_, .inr ⟨v, hv, rfl⟩, rfl⟩

private theorem aggregateKeys_ok (a : Aggregate) (h : ∀ l, a.topK = some l → ∀ v ∈ l, 1 ≤ v) :
    ∃ ks, aggregateKeys a = .ok ks ∧ ks ≠ [] ∧ ∀ sk, sk ∈ ks ↔ a.Asks sk := by
  have h' : ∀ v ∈ a.topK.getD [], 1 ≤ v := by
    cases ht : a.topK with
    | none => simp
    | some l => exact h l ht
  unfold aggregateKeys
  rw [mapE_of (g := fun v => (⟨none, none, some v⟩ : SubKey)) (fun v hv => by rw [new_top, if_neg (by have := h' v hv; omega)])]
  refine ⟨_, rfl, ?_, ?_⟩
  · cases hl : a.topK.getD [] <;> simp
  · intro sk
    unfold Aggregate.Asks
    cases ht : a.topK with
    | none => simp
    | some l =>
      cases l with
      | nil => simp
      | cons v vs =>
        simp only [Option.getD_some, List.map_cons, List.isEmpty_cons]
        constructor
        · intro h
          simp only [Bool.false_eq_true, if_false, List.mem_cons, List.mem_map] at h
          rcases h with rfl | ⟨k, ⟨u, hu, rfl⟩, rfl⟩
          · exact .inr ⟨_, rfl, v, by simp, rfl⟩
          · exact .inr ⟨_, rfl, u, by simp [hu], rfl⟩
        · rintro (⟨-, h⟩ | ⟨l, hl, u, hu, rfl⟩)
          · simp at h
          · simp only [Option.some.injEq] at hl
            subst hl
            simp only [Bool.false_eq_true, if_false, List.mem_cons, List.mem_map]
            rcases List.mem_cons.1 hu with rfl | hu
            · exact .inl rfl
            · exact .inr ⟨_, ⟨u, hu, rfl⟩, rfl⟩

theorem Aggregate.has_iff (a : Aggregate) (t : Option AggregationType) : a.Has t ↔ t = aggregationType a := by
  unfold Aggregate.Has aggregationType
  rcases t with _ | t <;> rcases h : a.kind with _ | _ | _ | _ <;> simp

/-- The pairs in the dictionary of sub keys. -/
def Pairs (subs : SubKeys) (t : Option AggregationType) (sk : Option SubKey) : Prop := ∃ sks, (t, sks) ∈ subs ∧ sk ∈ sks

private theorem bin_part (s : Spec B S T) (hp : Positive s) :
    ∃ r, binarizePart s.binarize = .ok r ∧
      ((r = [] ∧ ∀ b, s.binarize = some b → ∀ sk, ¬ b.Asks sk) ∨
        ∃ b ks, s.binarize = some b ∧ r = [(none, ks)] ∧ ks ≠ [] ∧ ∀ sk, sk ∈ ks ↔ ∃ k, sk = some k ∧ b.Asks k) := by
  cases hb : s.binarize with
  | none => exact ⟨[], rfl, .inl ⟨rfl, by simp⟩⟩
  | some b =>
    obtain ⟨h1, h2⟩ := hp.1 b hb
    simp only [binarizePart, binarizeKeys_ok b h1 h2]
    have hm := mem_binarizeKeys b
    generalize ((b.classIds.map (fun v => (⟨some v, none, none⟩ : SubKey)) ++ b.kList.map (fun v => (⟨none, some v, none⟩ : SubKey)) ++
      b.topKList.map (fun v => (⟨none, none, some v⟩ : SubKey))).map some) = ks at hm
    refine ⟨_, rfl, ?_⟩
    cases ks with
    | nil =>
      left
      refine ⟨rfl, ?_⟩
      intro b' hb' sk hsk
      cases hb'
      have := (hm (some sk)).2 ⟨sk, rfl, hsk⟩
      cases this
    | cons x xs => right; exact ⟨b, x :: xs, rfl, rfl, by simp, hm⟩

/-- **C80**: a spec yields exactly the sub keys and aggregations it asks for, provided that it does not combine a binarization with
an aggregation that has no type.  Missing: that combination, see `C80_lost`. -/
theorem C80_sub_keys_partial (s : Spec B S T) (hp : Positive s)
    (hk : ∀ a b, s.aggregate = some a → s.binarize = some b → a.kind = none → ∀ sk, ¬ b.Asks sk) :
    ∃ subs, createSubKeys s = .ok subs ∧ ∀ t sk, Pairs subs t sk ↔ Asks s t sk := by
  obtain ⟨r, hr, hr'⟩ := bin_part s hp
  unfold createSubKeys
  simp only [hr]
  cases ha : s.aggregate with
  | none =>
    refine ⟨_, rfl, ?_⟩
    rcases hr' with ⟨rfl, hb⟩ | ⟨b, ks, hb, rfl, hne, hm⟩
    · intro t sk
      simp only [List.isEmpty_nil, if_true, Pairs, List.mem_singleton, Prod.mk.injEq]
      constructor
      · rintro ⟨_, ⟨rfl, rfl⟩, h⟩
        rw [List.mem_singleton.1 h]
        exact .plain ha hb
      · intro h
        cases h with
        | binarize h1 h2 => exact absurd h2 (hb _ h1 _)
        | aggregate h1 => rw [ha] at h1; cases h1
        | plain => exact ⟨_, ⟨rfl, rfl⟩, by simp⟩
    · intro t sk
      simp only [List.isEmpty_cons, Bool.false_eq_true, if_false, Pairs, List.mem_singleton, Prod.mk.injEq]
      constructor
      · rintro ⟨_, ⟨rfl, rfl⟩, h⟩
        obtain ⟨k, rfl, hk⟩ := (hm _).1 h
        exact .binarize hb hk
      · intro h
        cases h with
        | binarize h1 h2 =>
          rw [hb] at h1
          cases h1
          exact ⟨_, ⟨rfl, rfl⟩, (hm _).2 ⟨_, rfl, h2⟩⟩
        | aggregate h1 => rw [ha] at h1; cases h1
        | plain _ h1 =>
          exfalso
          cases ks with
          | nil => exact hne rfl
          | cons x xs =>
            obtain ⟨k, -, h2⟩ := (hm x).1 (by simp)
            exact h1 b hb k h2
  | some a =>
    obtain ⟨ks', hks, -, hm'⟩ := aggregateKeys_ok a (fun l hl => hp.2 a l ha hl)
    simp only [hks]
    refine ⟨_, rfl, ?_⟩
    intro t sk
    rcases hr' with ⟨rfl, hb⟩ | ⟨b, ks, hb, rfl, hbne, hm⟩
    · simp only [Dict.set, Pairs, List.mem_singleton, Prod.mk.injEq]
      constructor
      · rintro ⟨_, ⟨rfl, rfl⟩, h⟩
        exact .aggregate ha ((Aggregate.has_iff a _).2 rfl) ((hm' _).1 h)
      · intro h
        cases h with
        | binarize h1 h2 => exact absurd h2 (hb _ h1 _)
        | aggregate h1 h2 h3 =>
          rw [ha] at h1
          cases h1
          exact ⟨_, ⟨(Aggregate.has_iff a _).1 h2, rfl⟩, (hm' _).2 h3⟩
        | plain h1 => rw [ha] at h1; cases h1
    · have hkind : aggregationType a ≠ none := by
        intro h
        cases ks with
        | nil => exact hbne rfl
        | cons x xs =>
          obtain ⟨k, -, h2⟩ := (hm x).1 (by simp)
          refine hk a b ha hb ?_ k h2
          unfold aggregationType at h
          rcases hh : a.kind with _ | _ | _ | _ <;> rw [hh] at h <;> simp at h ⊢
      have hset : Dict.set [((none : Option AggregationType), ks)] (aggregationType a) ks' =
          [(none, ks), (aggregationType a, ks')] := by
        simp only [Dict.set]
        rw [if_neg (by simpa using fun h => hkind h.symm)]
      rw [hset]
      simp only [Pairs, List.mem_cons, Prod.mk.injEq, List.not_mem_nil, or_false]
      constructor
      · rintro ⟨_, ⟨rfl, rfl⟩ | ⟨rfl, rfl⟩, h⟩
        · obtain ⟨k, rfl, hk⟩ := (hm _).1 h
          exact .binarize hb hk
        · exact .aggregate ha ((Aggregate.has_iff a _).2 rfl) ((hm' _).1 h)
      · intro h
        cases h with
        | binarize h1 h2 =>
          rw [hb] at h1
          cases h1
          exact ⟨_, .inl ⟨rfl, rfl⟩, (hm _).2 ⟨_, rfl, h2⟩⟩
        | aggregate h1 h2 h3 =>
          rw [ha] at h1
          cases h1
          exact ⟨_, .inr ⟨(Aggregate.has_iff a _).1 h2, rfl⟩, (hm' _).2 h3⟩
        | plain h1 => rw [ha] at h1; cases h1

private theorem new_k_error {v : ℤ} {e : Err} (h : SubKey.new none (some v) none = .error e) : e = .valueError := by
  rw [new_k] at h
  split at h <;> simp at h
  exact h.symm

private theorem new_top_error {v : ℤ} {e : Err} (h : SubKey.new none none (some v) = .error e) : e = .valueError := by
  rw [new_top] at h
  split at h <;> simp at h
  exact h.symm

private theorem binarizeKeys_error (b : Binarize) (h : ¬ ((∀ v ∈ b.kList, 1 ≤ v) ∧ ∀ v ∈ b.topKList, 1 ≤ v)) :
    binarizeKeys b = .error .valueError := by
  unfold binarizeKeys
  rw [mapE_of (g := fun v => (⟨some v, none, none⟩ : SubKey)) (fun v _ => new_class v)]
  by_cases h1 : ∀ v ∈ b.kList, 1 ≤ v
  · rw [mapE_of (g := fun v => (⟨none, some v, none⟩ : SubKey)) (fun v hv => by rw [new_k, if_neg (by have := h1 v hv; omega)])]
    have h2 : ∃ v ∈ b.topKList, v < 1 := by
      by_contra h2
      push Not at h2
      exact h ⟨h1, h2⟩
    obtain ⟨v, hv, hlt⟩ := h2
    rw [mapE_error (e₀ := .valueError) (fun _ _ => new_top_error) ⟨v, hv, .valueError, by rw [new_top, if_pos hlt]⟩]
    rfl
  · push Not at h1
    obtain ⟨v, hv, hlt⟩ := h1
    rw [mapE_error (f := fun v => SubKey.new none (some v) none) (e₀ := .valueError) (fun _ _ => new_k_error)
      ⟨v, hv, .valueError, by rw [new_k, if_pos hlt]⟩]
    rfl

private theorem aggregateKeys_error (a : Aggregate) (l : List ℤ) (hl : a.topK = some l) (h : ¬ ∀ v ∈ l, 1 ≤ v) :
    aggregateKeys a = .error .valueError := by
  unfold aggregateKeys
  push Not at h
  obtain ⟨v, hv, hlt⟩ := h
  rw [hl, Option.getD_some, mapE_error (e₀ := .valueError) (fun _ _ => new_top_error) ⟨v, hv, .valueError, by rw [new_top, if_pos hlt]⟩]
  rfl

/-- C80: a k or top k below 1 raises ValueError, nothing else does. -/
theorem C80_error (s : Spec B S T) :
    (¬ Positive s → createSubKeys s = .error .valueError) ∧ (Positive s → ∃ subs, createSubKeys s = .ok subs) := by
  constructor
  · intro h
    unfold createSubKeys
    by_cases hb : ∀ b, s.binarize = some b → (∀ v ∈ b.kList, 1 ≤ v) ∧ ∀ v ∈ b.topKList, 1 ≤ v
    · have ha : ∃ a l, s.aggregate = some a ∧ a.topK = some l ∧ ¬ ∀ v ∈ l, 1 ≤ v := by
        by_contra hc
        refine h ⟨hb, fun a l h1 h2 => ?_⟩
        by_contra h3
        exact hc ⟨a, l, h1, h2, h3⟩
      obtain ⟨a, l, ha, hl, hv⟩ := ha
      have hbin : ∃ r, binarizePart s.binarize = .ok r := by
        unfold binarizePart
        cases hb' : s.binarize with
        | none => exact ⟨_, rfl⟩
        | some b =>
          obtain ⟨h1, h2⟩ := hb b hb'
          simp only [binarizeKeys_ok b h1 h2]
          exact ⟨_, rfl⟩
      obtain ⟨r, hr⟩ := hbin
      simp only [hr, ha, aggregateKeys_error a l hl hv]
    · push Not at hb
      obtain ⟨b, hb, h1⟩ := hb
      have : binarizePart s.binarize = .error .valueError := by
        unfold binarizePart
        rw [hb]
        simp only
        rw [binarizeKeys_error b (fun hc => by
          obtain ⟨v, hv, hlt⟩ := h1 hc.1
          exact absurd (hc.2 v hv) (by omega))]
      simp only [this]
  · intro h
    obtain ⟨r, hr, -⟩ := bin_part s h
    unfold createSubKeys
    simp only [hr]
    cases ha : s.aggregate with
    | none => exact ⟨_, rfl⟩
    | some a =>
      obtain ⟨ks, hks, -⟩ := aggregateKeys_ok a (fun l hl => h.2 a l ha hl)
      simp only [hks]
      exact ⟨_, rfl⟩

/-- C80 (negation): an aggregation without type silently replaces the binarization. -/
theorem C80_lost (s : Spec B S T) (hp : Positive s) (a : Aggregate) (ha : s.aggregate = some a) (hk : a.kind = none) :
    createSubKeys s = createSubKeys { s with binarize := none } := by
  obtain ⟨r, hr, hr'⟩ := bin_part s hp
  obtain ⟨ks, hks, -⟩ := aggregateKeys_ok a (fun l hl => hp.2 a l ha hl)
  unfold createSubKeys
  have ht : aggregationType a = none := by simp [aggregationType, hk]
  have e : binarizePart none = .ok [] := rfl
  simp only [hr, ha, hks, ht, e]
  rcases hr' with ⟨rfl, -⟩ | ⟨b, ks, -, rfl, -⟩ <;> simp [Dict.set]

/-- Non-vacuous: class 3 and the two best classes binarized, micro average over the best five. -/
example : createSubKeys ({
      binarize := some { classIds := [3], topKList := [2] }
      aggregate := some { kind := some .micro, topK := some [5] } } : Spec B S T) =
    .ok [(none, [some ⟨some 3, none, none⟩, some ⟨none, none, some 2⟩]), (some ⟨some true, none, none⟩, [some ⟨none, none, some 5⟩])] :=
  rfl

/-- The loss: class weights without aggregation type remove the binarization to class 3. -/
example : createSubKeys ({ binarize := some { classIds := [3] }, aggregate := some { classWeights := [(3, 1)] } } : Spec B S T) =
    .ok [(none, [none])] := rfl

/-! ### C81: thresholds -/

/-- A name of the list, or the empty name if there is none. -/
def Names (l : List String) (n : String) : Prop := n ∈ l ∨ (l = [] ∧ n = "")

theorem mem_orEmpty (l : List String) (n : String) : n ∈ orEmpty l ↔ Names l n := by
  unfold orEmpty Names
  cases l <;> simp

/-- A model has weights, for some of the outputs. -/
def WeightSpec.Has (m : WeightSpec) (outputs : List String) : Prop :=
  m.exampleWeightKey ≠ "" ∨ ∃ o ∈ outputs, ∃ k, Dict.get? m.exampleWeightKeys o = some k

/-- The model of that name: the first of that name, a single model for the empty name. -/
def ModelOf (models : List WeightSpec) (n : String) (m : WeightSpec) : Prop :=
  (models = [m] ∧ n = "") ∨
    ((n = "" → models.length ≠ 1) ∧ ∃ l r, models = l ++ m :: r ∧ m.name = n ∧ ∀ x ∈ l, x.name ≠ n)

/-- Whether the metrics of a spec are weighted if it does not say so. -/
def DefaultWeighted (models : List WeightSpec) (s : Spec B S T) : Prop :=
  if s.modelNames = [] then ∃ m ∈ models, m.Has s.outputNames
  else ∃ n ∈ s.modelNames, ∃ m, ModelOf models n m ∧ m.Has s.outputNames

/-- The weighted or unweighted variants of the metrics of a spec. -/
def Variant (models : List WeightSpec) (s : Spec B S T) (ew : Bool) : Prop :=
  match s.weights with
  | some (w, u) => (ew = true ∧ w = true) ∨ (ew = false ∧ u = true)
  | none => ew = true ↔ DefaultWeighted models s

private theorem hasWeightKey_iff (m : WeightSpec) (outputs : List String) : hasWeightKey outputs m = true ↔ m.Has outputs := by
  unfold hasWeightKey WeightSpec.Has
  by_cases h : m.exampleWeightKey = ""
  · simp [h, Dict.has, Option.isSome_iff_exists]
  · simp [h]

private theorem getModelSpec_iff (models : List WeightSpec) (n : String) (m : WeightSpec) :
    getModelSpec models n = some m ↔ ModelOf models n m := by
  unfold getModelSpec ModelOf
  by_cases h : models.length = 1 ∧ n = ""
  · rw [if_pos h]
    obtain ⟨x, rfl⟩ := List.length_eq_one_iff.1 h.1
    simp [h.2]
  · rw [if_neg h, List.find?_eq_some_iff_append]
    constructor
    · rintro ⟨h1, l, r, rfl, h2⟩
      refine .inr ⟨fun hn hl => h ⟨hl, hn⟩, l, r, rfl, by simpa using h1, fun x hx => by simpa using h2 x hx⟩
    · rintro (⟨rfl, rfl⟩ | ⟨-, l, r, rfl, h1, h2⟩)
      · simp at h
      · exact ⟨by simpa using h1, l, r, rfl, fun x hx => by simpa using h2 x hx⟩

/-- **C81** (variants): a metric is computed weighted, unweighted or both as the spec says; by default it is weighted exactly if a
model of the spec has weights. -/
theorem C81_variants (models : List WeightSpec) (s : Spec B S T) (ew : Bool) : ew ∈ weightOptions models s ↔ Variant models s ew := by
  unfold weightOptions Variant
  cases hw : s.weights with
  | some p =>
    obtain ⟨w, u⟩ := p
    cases w <;> cases u <;> cases ew <;> simp
  | none =>
    simp only [List.mem_singleton]
    have key : weightedDefault models s = true ↔ DefaultWeighted models s := by
      unfold weightedDefault DefaultWeighted
      by_cases hm : s.modelNames = []
      · simp [hm, hasWeightKey_iff]
      · rw [if_neg (by simpa using hm), if_neg hm, List.any_eq_true]
        constructor
        · rintro ⟨n, hn, h⟩
          cases hg : getModelSpec models n with
          | none => rw [hg] at h; cases h
          | some m => rw [hg] at h; exact ⟨n, hn, m, (getModelSpec_iff _ _ _).1 hg, (hasWeightKey_iff _ _).1 h⟩
        · rintro ⟨n, hn, m, hm, h⟩
          refine ⟨n, hn, ?_⟩
          rw [(getModelSpec_iff _ _ _).2 hm]
          exact (hasWeightKey_iff _ _).2 h
    rw [← key]
    cases ew <;> cases weightedDefault models s <;> simp

/-- The sub keys and aggregations a spec expands to (C80). -/
def Gets (s : Spec B S T) (t : Option AggregationType) (sk : Option SubKey) : Prop :=
  ∃ subs, createSubKeys s = .ok subs ∧ Pairs subs t sk

/-- A key of a metric of the spec. -/
def KeyOf (s : Spec B S T) (name : String) (ew : Option Bool) (k : MetricKey) : Prop :=
  k.name = name ∧ Names s.modelNames k.modelName ∧ Names s.outputNames k.outputName ∧ Gets s k.aggregationType k.subKey ∧
    k.exampleWeighted = ew ∧ k.isDiff = false

/-- The thresholds configured for a key, by metric name in the spec or with the metric. -/
def ConfiguredFor (models : List WeightSpec) (specs : List (Spec B S T)) (k : MetricKey) (e : Option S × Threshold T) : Prop :=
  ∃ s ∈ specs, (∃ name, (name, e) ∈ s.thresholds ∧ KeyOf s name none k) ∨
    ∃ m ∈ s.metrics, e ∈ m.thresholds ∧ ∃ ew, Variant models s ew ∧ KeyOf s m.name (some ew) k

/-- The thresholds to be checked: value thresholds for the key itself, change thresholds for its difference to the baseline. -/
def Checked (models : List WeightSpec) (specs : List (Spec B S T)) (k : MetricKey) (sl : Option S) (t : T) : Prop :=
  (∃ th, ConfiguredFor models specs k (sl, th) ∧ th.value = some t) ∨
    ∃ k' th, ConfiguredFor models specs k' (sl, th) ∧ th.change = some t ∧ k = { k' with isDiff := true }

private theorem mem_keysForMetric (name : String) (s : Spec B S T) (agg : Option AggregationType) (sks : List (Option SubKey))
    (ews : List (Option Bool)) (k : MetricKey) :
    k ∈ keysForMetric name s agg sks ews ↔ k.name = name ∧ Names s.modelNames k.modelName ∧ Names s.outputNames k.outputName ∧
      k.subKey ∈ sks ∧ k.aggregationType = agg ∧ k.exampleWeighted ∈ ews ∧ k.isDiff = false := by
  unfold keysForMetric
  simp only [List.mem_flatMap, List.mem_map, mem_orEmpty]
  constructor
  · rintro ⟨model, h1, output, h2, sk, h3, ew, h4, rfl⟩
    exact ⟨rfl, h1, h2, h3, rfl, h4, rfl⟩
  · rintro ⟨h1, h2, h3, h4, h5, h6, h7⟩
    obtain ⟨n, m, o, sk, a, ew, d⟩ := k
    simp only at h1 h2 h3 h4 h5 h6 h7
    subst h1 h5 h7
    exact ⟨m, h2, o, h3, sk, h4, ew, h6, rfl⟩

variable [DecidableEq S] [DecidableEq T]

/-- The dictionary holds the threshold. -/
def Holds (d : Thresholds S T) (k : MetricKey) (sl : Option S) (t : T) : Prop := ∃ l, Dict.get? d k = some l ∧ (sl, t) ∈ l

private theorem holds_iff (d : Thresholds S T) (k : MetricKey) (sl : Option S) (t : T) :
    Holds d k sl t ↔ (sl, t) ∈ (Dict.get? d k).getD [] := by
  unfold Holds
  cases Dict.get? d k <;> simp

private theorem holds_add (d : Thresholds S T) (k : MetricKey) (sl : Option S) (t : T) (k' : MetricKey) (sl' : Option S) (t' : T) :
    Holds (addIfNotExists d k sl t) k' sl' t' ↔ Holds d k' sl' t' ∨ (k' = k ∧ sl' = sl ∧ t' = t) := by
  unfold addIfNotExists
  by_cases h : (sl, t) ∈ (Dict.get? d k).getD []
  · rw [if_pos h]
    constructor
    · exact .inl
    · rintro (h' | ⟨rfl, rfl, rfl⟩)
      · exact h'
      · exact (holds_iff _ _ _ _).2 h
  · rw [if_neg h, holds_iff, holds_iff, Dict.get?_set]
    by_cases hk : k = k'
    · subst hk
      simp
    · rw [if_neg hk]
      constructor
      · exact .inl
      · rintro (h' | ⟨rfl, -⟩)
        · exact h'
        · exact absurd rfl hk

private theorem holds_addThreshold (d : Thresholds S T) (k : MetricKey) (e : Option S × Threshold T) (k' : MetricKey) (sl : Option S)
    (t : T) : Holds (addThreshold d k e) k' sl t ↔ Holds d k' sl t ∨
      (sl = e.1 ∧ ((k' = k ∧ e.2.value = some t) ∨ (k' = { k with isDiff := true } ∧ e.2.change = some t))) := by
  obtain ⟨sl0, v, c⟩ := e
  unfold addThreshold
  cases v <;> cases c <;> simp only [holds_add, MetricKey.makeDiffKey, Option.some.injEq, reduceCtorEq, and_false, or_false,
    false_or]
  · constructor
    · rintro (h | ⟨h1, h2, h3⟩)
      · exact .inl h
      · exact .inr ⟨h2, h1, h3.symm⟩
    · rintro (h | ⟨h1, h2, h3⟩)
      · exact .inl h
      · exact .inr ⟨h2, h1, h3.symm⟩
  · constructor
    · rintro (h | ⟨h1, h2, h3⟩)
      · exact .inl h
      · exact .inr ⟨h2, h1, h3.symm⟩
    · rintro (h | ⟨h1, h2, h3⟩)
      · exact .inl h
      · exact .inr ⟨h2, h1, h3.symm⟩
  · constructor
    · rintro ((h | ⟨h1, h2, h3⟩) | ⟨h1, h2, h3⟩)
      · exact .inl h
      · exact .inr ⟨h2, .inl ⟨h1, h3.symm⟩⟩
      · exact .inr ⟨h2, .inr ⟨h1, h3.symm⟩⟩
    · rintro (h | ⟨h1, ⟨h2, h3⟩ | ⟨h2, h3⟩⟩)
      · exact .inl (.inl h)
      · exact .inl (.inr ⟨h2, h1, h3.symm⟩)
      · exact .inr ⟨h2, h1, h3.symm⟩

private theorem holds_fold (l : List (MetricKey × Option S × Threshold T)) (d : Thresholds S T) (k : MetricKey) (sl : Option S) (t : T) :
    Holds (l.foldl (fun d e => addThreshold d e.1 e.2) d) k sl t ↔ Holds d k sl t ∨
      ∃ k' th, (k', sl, th) ∈ l ∧ ((k = k' ∧ th.value = some t) ∨ (k = { k' with isDiff := true } ∧ th.change = some t)) := by
  induction l generalizing d with
  | nil => simp
  | cons e l ih =>
    rw [List.foldl_cons, ih, holds_addThreshold]
    obtain ⟨k0, sl0, th0⟩ := e
    simp only [List.mem_cons, Prod.mk.injEq]
    constructor
    · rintro ((h | ⟨rfl, h⟩) | ⟨k', th, h, h'⟩)
      · exact .inl h
      · exact .inr ⟨k0, th0, .inl ⟨rfl, rfl, rfl⟩, h⟩
      · exact .inr ⟨k', th, .inr h, h'⟩
    · rintro (h | ⟨k', th, ⟨rfl, rfl, rfl⟩ | h, h'⟩)
      · exact .inl (.inl h)
      · exact .inl (.inr ⟨rfl, h'⟩)
      · exact .inr ⟨k', th, h, h'⟩

private theorem nodup_add {d : Thresholds S T} (h : ∀ k l, Dict.get? d k = some l → l.Nodup ∧ l ≠ []) (k : MetricKey) (sl : Option S)
    (t : T) (k' : MetricKey) (l : List (Option S × T)) (hl : Dict.get? (addIfNotExists d k sl t) k' = some l) : l.Nodup ∧ l ≠ [] := by
  unfold addIfNotExists at hl
  by_cases hm : (sl, t) ∈ (Dict.get? d k).getD []
  · rw [if_pos hm] at hl
    exact h k' l hl
  · rw [if_neg hm, Dict.get?_set] at hl
    by_cases hk : k = k'
    · rw [if_pos hk] at hl
      cases hl
      refine ⟨?_, by simp⟩
      rw [List.nodup_append]
      refine ⟨?_, by simp, ?_⟩
      · cases hd : Dict.get? d k with
        | none => simp
        | some l0 => exact (h k l0 hd).1
      · rintro a ha b hb rfl
        rw [List.mem_singleton.1 hb] at ha
        exact hm ha
    · rw [if_neg hk] at hl
      exact h k' l hl

private theorem nodup_fold (l : List (MetricKey × Option S × Threshold T)) {d : Thresholds S T}
    (h : ∀ k l, Dict.get? d k = some l → l.Nodup ∧ l ≠ []) :
    ∀ k l', Dict.get? (l.foldl (fun d e => addThreshold d e.1 e.2) d) k = some l' → l'.Nodup ∧ l' ≠ [] := by
  induction l generalizing d with
  | nil => exact h
  | cons e l ih =>
    rw [List.foldl_cons]
    apply ih
    obtain ⟨k0, sl0, v, c⟩ := e
    intro k l' hl
    unfold addThreshold at hl
    cases v <;> cases c <;> simp only at hl
    · exact h k l' hl
    · exact nodup_add h _ _ _ k l' hl
    · exact nodup_add h _ _ _ k l' hl
    · exact nodup_add (fun k l => nodup_add h _ _ _ k l) _ _ _ k l' hl

/-- **C81**: the thresholds that are checked are exactly the configured ones: value thresholds for the metric itself, change thresholds
for the difference to the baseline, for every model, output, sub key and variant of the spec, each once. -/
theorem C81_thresholds (models : List WeightSpec) (specs : List (Spec B S T)) (d : Thresholds S T)
    (h : metricThresholds models specs = .ok d) :
    (∀ k sl t, Holds d k sl t ↔ Checked models specs k sl t) ∧ ∀ k l, Dict.get? d k = some l → l.Nodup ∧ l ≠ [] := by
  unfold metricThresholds at h
  cases h1 : flatMapE specThresholds specs with
  | error e => rw [h1] at h; cases h
  | ok a =>
    cases h2 : keysAndMetrics models specs with
    | error e => rw [h1, h2] at h; cases h
    | ok b =>
      rw [h1, h2] at h
      simp only [bind, Except.bind, pure, Except.pure, Except.ok.injEq] at h
      subst h
      refine ⟨?_, nodup_fold _ (by simp)⟩
      have key : ∀ k e, (k, e) ∈ a ++ b.flatMap (fun e => e.2.thresholds.map fun t => (e.1, t)) ↔ ConfiguredFor models specs k e := by
        intro k e
        rw [List.mem_append, mem_flatMapE h1]
        unfold keysAndMetrics at h2
        simp only [List.mem_flatMap, List.mem_map, Prod.mk.injEq, Prod.exists, mem_flatMapE h2]
        unfold ConfiguredFor
        constructor
        · rintro (⟨s, hs, ys, hy, hm⟩ | ⟨k', m, ⟨s, hs, ys, hy, hm⟩, e₁, e₂, he', rfl, rfl⟩)
          · refine ⟨s, hs, .inl ?_⟩
            unfold specThresholds at hy
            cases hc : createSubKeys s with
            | error e => rw [hc] at hy; cases hy
            | ok subs =>
              rw [hc] at hy
              simp only [bind, Except.bind, pure, Except.pure, Except.ok.injEq] at hy
              subst hy
              simp only [List.mem_flatMap, List.mem_map, Prod.mk.injEq, Prod.exists] at hm
              obtain ⟨agg, sks, h3, name, sl, th, h4, k', h5, rfl, rfl⟩ := hm
              rw [mem_keysForMetric] at h5
              obtain ⟨i1, i2, i3, i4, i5, i6, i7⟩ := h5
              exact ⟨name, h4, i1, i2, i3, ⟨subs, hc, sks, by rw [i5]; exact h3, i4⟩, by simpa using i6, i7⟩
          · refine ⟨s, hs, .inr ?_⟩
            cases hc : createSubKeys s with
            | error e => rw [hc] at hy; cases hy
            | ok subs =>
              rw [hc] at hy
              simp only [bind, Except.bind, pure, Except.pure, Except.ok.injEq] at hy
              subst hy
              simp only [List.mem_flatMap, List.mem_map, Prod.mk.injEq, Prod.exists] at hm
              obtain ⟨agg, sks, h3, m', h4, k'', h5, rfl, rfl⟩ := hm
              rw [mem_keysForMetric] at h5
              obtain ⟨i1, i2, i3, i4, i5, i6, i7⟩ := h5
              obtain ⟨ew, hew, hew'⟩ := List.mem_map.1 i6
              exact ⟨m', h4, he', ew, (C81_variants _ _ _).1 hew, i1, i2, i3, ⟨subs, hc, sks, by rw [i5]; exact h3, i4⟩, hew'.symm, i7⟩
        · rintro ⟨s, hs, ⟨name, hn, i1, i2, i3, ⟨subs, hc, sks, h3, i4⟩, i6, i7⟩ |
            ⟨m, hm, he, ew, hew, i1, i2, i3, ⟨subs, hc, sks, h3, i4⟩, i6, i7⟩⟩
          · left
            refine ⟨s, hs, _, by unfold specThresholds; rw [hc]; rfl, ?_⟩
            simp only [List.mem_flatMap, List.mem_map, Prod.mk.injEq, Prod.exists]
            exact ⟨_, sks, h3, name, e.1, e.2, hn, k, (mem_keysForMetric _ _ _ _ _ _).2 ⟨i1, i2, i3, i4, rfl, by simpa using i6, i7⟩, rfl, rfl⟩
          · right
            refine ⟨k, m, ⟨s, hs, _, by rw [hc]; rfl, ?_⟩, e.1, e.2, he, rfl, rfl⟩
            simp only [List.mem_flatMap, List.mem_map, Prod.mk.injEq, Prod.exists]
            refine ⟨_, sks, h3, m, hm, k, (mem_keysForMetric _ _ _ _ _ _).2 ⟨i1, i2, i3, i4, rfl, ?_, i7⟩, rfl, rfl⟩
            rw [i6]
            exact List.mem_map_of_mem ((C81_variants _ _ _).2 hew)
      intro k sl t
      rw [holds_fold]
      unfold Checked
      constructor
      · rintro (⟨l, h, -⟩ | ⟨k', th, hm, ⟨rfl, hv⟩ | ⟨rfl, hv⟩⟩)
        · cases h
        · exact .inl ⟨th, (key _ _).1 hm, hv⟩
        · exact .inr ⟨k', th, (key _ _).1 hm, hv, rfl⟩
      · rintro (⟨th, hm, hv⟩ | ⟨k', th, hm, hv, rfl⟩)
        · exact .inr ⟨k, th, (key _ _).2 hm, .inl ⟨rfl, hv⟩⟩
        · exact .inr ⟨k', th, (key _ _).2 hm, .inr ⟨rfl, hv⟩⟩

/-- C81: thresholds are rejected exactly if some k or top k is below 1. -/
theorem C81_error (models : List WeightSpec) (specs : List (Spec B S T)) :
    (∃ d, metricThresholds models specs = .ok d) ↔ ∀ s ∈ specs, Positive s := by
  constructor
  · rintro ⟨d, h⟩ s hs
    by_contra hp
    unfold metricThresholds at h
    cases h1 : flatMapE specThresholds specs with
    | error e => rw [h1] at h; cases h
    | ok a =>
      obtain ⟨ys, hy⟩ := (flatMapE_ok h1).1 s hs
      unfold specThresholds at hy
      rw [(C80_error s).1 hp] at hy
      cases hy
  · intro h
    have h1 : ∀ s ∈ specs, ∃ subs, createSubKeys s = .ok subs := fun s hs => (C80_error s).2 (h s hs)
    have h2 : ∃ a, flatMapE specThresholds specs = .ok a := by
      clear h
      induction specs with
      | nil => exact ⟨_, rfl⟩
      | cons s l ih =>
        obtain ⟨a, ha⟩ := ih fun s hs => h1 s (by simp [hs])
        obtain ⟨subs, hc⟩ := h1 s (by simp)
        simp only [flatMapE, ha, specThresholds, hc]
        exact ⟨_, rfl⟩
    have h3 : ∃ b, keysAndMetrics models specs = .ok b := by
      unfold keysAndMetrics
      clear h h2
      induction specs with
      | nil => exact ⟨_, rfl⟩
      | cons s l ih =>
        obtain ⟨a, ha⟩ := ih fun s hs => h1 s (by simp [hs])
        obtain ⟨subs, hc⟩ := h1 s (by simp)
        simp only [flatMapE, ha, hc]
        exact ⟨_, rfl⟩
    obtain ⟨a, ha⟩ := h2
    obtain ⟨b, hb⟩ := h3
    unfold metricThresholds
    rw [ha, hb]
    exact ⟨_, rfl⟩

/-- A metric "auc" with a value and a change threshold of its own, for the classes 0 and 1 of two models, and a threshold by name. -/
example : metricThresholds [⟨"m", "w", []⟩] [({
      metrics := [{ name := "auc", config := "AUC", create := fun _ => .ok [], thresholds := [(none, ⟨some 1, some 2⟩)] }]
      modelNames := ["m", "n"]
      binarize := some { classIds := [0] }
      thresholds := [("loss", some "slice", ⟨some 3, none⟩)] } : Spec Unit String ℕ)] =
    .ok [
      (⟨"loss", "m", "", some ⟨some 0, none, none⟩, none, none, false⟩, [(some "slice", 3)]),
      (⟨"loss", "n", "", some ⟨some 0, none, none⟩, none, none, false⟩, [(some "slice", 3)]),
      (⟨"auc", "m", "", some ⟨some 0, none, none⟩, none, some true, false⟩, [(none, 1)]),
      (⟨"auc", "m", "", some ⟨some 0, none, none⟩, none, some true, true⟩, [(none, 2)]),
      (⟨"auc", "n", "", some ⟨some 0, none, none⟩, none, some true, false⟩, [(none, 1)]),
      (⟨"auc", "n", "", some ⟨some 0, none, none⟩, none, some true, true⟩, [(none, 2)])] := by
  decide +kernel

end MetricSpecs
end TFMA
