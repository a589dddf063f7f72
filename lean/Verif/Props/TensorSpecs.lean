import Verif.Lemmas.TensorSpecs

/-!
# C148: values become the tensors a model asks for

utils/util.py 112–280: tensor values are turned into tensors, those a model asks for by its specs are picked out and given the shape
asked for, and specs are read off a batch.

Specifications: `Becomes` says which tensor holds a value, `ShapedAs` what a spec does to the shape of a value, `Mirrors` that two
nested dictionaries have the same keys everywhere and related leaves; none of them mentions the functions of the model.
-/

namespace TFMA
namespace TensorSpecs

open Tensors Extracts VarLen

variable {α β γ : Type}

/-- The tensor that holds a value: the same numbers under the same indices. Sparse values need one index per value with a number
for each dimension; row splits start at 0, never decrease and end at the number of the rows below. -/
inductive Becomes : Leaf α → Tensor α → Prop where
  | dense (shape data) : Becomes (.nd shape data) (.dense shape data)
  | sparse (values : List α) (indices shape) (h1 : indices.length = values.length)
      (h2 : ∀ ix ∈ indices, ix.length = shape.length) : Becomes (.sparse ⟨values, indices, shape⟩) (.sparse ⟨values, indices, shape⟩)
  | varlen (values : List α) (indices shape) (h1 : indices.length = values.length) (h2 : indices ≠ [] → shape.length = 2) :
      Becomes (.varlen ⟨values, indices, shape⟩) (.sparse ⟨values, indices.map fun p => [p.1, p.2], shape⟩)
  | ragged (values : List α) (s splits) (h : raggedOk values (s :: splits) = true) :
      Becomes (.ragged ⟨values, s :: splits⟩) (.ragged ⟨values, s :: splits⟩)
  | flat (values : List α) : Becomes (.ragged ⟨values, []⟩) (.dense [values.length] values)

/-- Two nested dictionaries with the same keys at every level and related leaves. -/
def Mirrors (R : Path → β → γ → Prop) (x : Tree β) (y : Tree γ) : Prop :=
  ∀ p, match x.at? p, y.at? p with
    | none, none => True
    | some (.leaf a), some (.leaf b) => R p a b
    | some (.node f), some (.node g) => f.keys = g.keys
    | _, _ => False

/-- What asking for a shape does to a value: of a dense value of at least one dimension the first dimension and the numbers in their
order are kept; the others become the dimensions asked for, of which at most one may be open, and only if it is then the only way to
get the number of elements right. -/
def ShapedAs (s : Spec) (a b : Leaf α) : Prop :=
  match a, s with
  | .nd (n :: shape) data, .dense (some dims) =>
    ∃ rest, b = .nd (n :: rest) data ∧ List.Forall₂ (fun d r => ∀ k, d = some k → r = k) (dims.drop 1) rest ∧
      (n :: rest).prod = (n :: shape).prod ∧
      ((dims.drop 1).filter Option.isNone).length ≤ 1 ∧
      (((dims.drop 1).filter Option.isNone).length = 1 → n ≠ 0 ∧ ((dims.drop 1).filterMap id).prod ≠ 0)
  | _, _ => b = a

theorem toTensor_iff (v : Leaf α) (t : Tensor α) : toTensor v = .ok t ↔ Becomes v t := by
  constructor
  · intro h
    match v, h with
    | .none, h => cases h
    | .object, h => cases h
    | .nd shape data, h => cases h; exact .dense _ _
    | .ragged ⟨values, []⟩, h => cases h; exact .flat _
    | .ragged ⟨values, s :: splits⟩, h =>
      simp only [toTensor] at h
      split at h
      · rename_i hr; cases h; exact .ragged _ _ _ hr
      · cases h
    | .sparse ⟨values, indices, shape⟩, h =>
      simp only [toTensor] at h
      split at h
      · rename_i hr
        cases h
        simp only [sparseOk, Bool.and_eq_true, decide_eq_true_eq, List.all_eq_true] at hr
        exact .sparse _ _ _ hr.1 hr.2
      · cases h
    | .varlen ⟨values, indices, shape⟩, h =>
      simp only [toTensor] at h
      split at h
      · rename_i hr
        cases h
        simp only [sparseOk, Bool.and_eq_true, decide_eq_true_eq, List.all_eq_true, List.length_map, List.mem_map] at hr
        refine .varlen _ _ _ hr.1 fun hne => ?_
        obtain ⟨i, hi⟩ := List.exists_mem_of_ne_nil _ hne
        exact (hr.2 _ ⟨i, hi, rfl⟩).symm
      · cases h
  · rintro (⟨shape, data⟩ | ⟨values, indices, shape, h1, h2⟩ | ⟨values, indices, shape, h1, h2⟩ | ⟨values, s, splits, h⟩ | ⟨values⟩)
    · rfl
    · simp only [toTensor]
      rw [if_pos]
      simp only [sparseOk, Bool.and_eq_true, decide_eq_true_eq, List.all_eq_true]
      exact ⟨h1, h2⟩
    · simp only [toTensor]
      rw [if_pos]
      simp only [sparseOk, Bool.and_eq_true, decide_eq_true_eq, List.all_eq_true, List.length_map, List.mem_map]
      refine ⟨h1, ?_⟩
      rintro _ ⟨i, hi, rfl⟩
      exact (h2 (List.ne_nil_of_mem hi)).symm
    · simp only [toTensor]
      rw [if_pos h]
    · rfl

theorem shaped_iff (s : Spec) (a b : Leaf α) : shaped s a = .ok b ↔ ShapedAs s a b := by
  match a, s with
  | .nd (n :: shape) data, .dense (some dims) =>
    have hid : ∀ ds : List (Option ℕ), (some n :: ds).filterMap id = n :: ds.filterMap id := fun _ => rfl
    simp only [shaped, ShapedAs, reshape, hid, List.filter_cons, Option.isNone_some, Bool.false_eq_true,
      if_false, List.prod_cons]
    generalize dims.drop 1 = ds
    constructor
    · intro h
      split at h
      · cases h
      · rename_i shape' hs
        cases h
        split at hs
        · rename_i h0
          split at hs
          · rename_i hp
            cases hs
            refine ⟨_, rfl, ?_, hp, by omega, fun h => by omega⟩
            exact (unknown_zero h0).imp fun d r h k hk => by rw [h] at hk; cases hk; rfl
          · cases hs
        · rename_i h1
          split at hs
          · cases hs
          · rename_i hp
            simp only [not_or, ne_eq, Decidable.not_not] at hp
            cases hs
            refine ⟨_, rfl, forall₂_getD _ _, ?_, by omega, fun _ => ⟨?_, ?_⟩⟩
            · rw [unknown_one _ h1, Nat.mul_left_comm, Nat.div_mul_cancel (Nat.dvd_of_mod_eq_zero hp.2)]
            · rintro rfl; exact hp.1 (Nat.zero_mul _)
            · intro h; exact hp.1 (by rw [h, Nat.mul_zero])
        · cases hs
    · rintro ⟨rest, rfl, hf, hp, hle, hone⟩
      match h : (ds.filter Option.isNone).length, hle with
      | 0, _ =>
        have := unknown_zero_unique h hf
        subst this
        simp only
        rw [if_pos hp]
      | 1, _ =>
        obtain ⟨x, rfl⟩ := unknown_one_unique h hf
        obtain ⟨hn, hk⟩ := hone h
        simp only
        rw [unknown_one _ h] at hp
        have hx : n * shape.prod = x * (n * (ds.filterMap id).prod) := by rw [← hp, Nat.mul_left_comm]
        have hpos : 0 < n * (ds.filterMap id).prod := Nat.mul_pos (Nat.pos_of_ne_zero hn) (Nat.pos_of_ne_zero hk)
        rw [if_neg]
        · simp only [List.map_cons, Option.getD_some]
          rw [hx, Nat.mul_div_cancel _ hpos]
        · rw [hx]
          simp only [Nat.mul_mod_left, not_true_eq_false, ne_eq, or_false]
          omega
  | .none, _ | .varlen _, _ | .sparse _, _ | .ragged _, _ | .object, _ | .nd [] _, _ | .nd (_ :: _) _, .sparse _
  | .nd (_ :: _) _, .ragged _ | .nd (_ :: _) _, .dense none =>
    simp only [shaped, ShapedAs, Except.ok.injEq]
    exact eq_comm

theorem at?_leaf (a : β) (p : Path) (x : Tree β) : (Tree.leaf a).at? p = some x ↔ p = [] ∧ x = .leaf a := by
  cases p with
  | nil => simp [Tree.at?, eq_comm]
  | cons k p => simp [Tree.at?]

theorem leafAt_eq_some {t : Tree β} {p : Path} {a : β} : t.leafAt p = some a ↔ t.at? p = some (.leaf a) := by
  unfold Tree.leafAt
  split
  · rename_i b h; rw [h]; simp
  · rename_i h
    constructor
    · intro h'; cases h'
    · intro h'; exact absurd h' (h a)

/-- Mirrored step by step. -/
theorem Mirrors_leaf {R : Path → β → γ → Prop} {a : β} {b : γ} (h : R [] a b) : Mirrors R (.leaf a) (.leaf b) := by
  intro p
  cases p with
  | nil => simpa [Tree.at?] using h
  | cons k p => simp [Tree.at?]

theorem Mirrors_node {R : Path → β → γ → Prop} {f : Forest β} {g : Forest γ} (hk : f.keys = g.keys)
    (h : ∀ k x y, f.find? k = some x → g.find? k = some y → Mirrors (fun p => R (k :: p)) x y) : Mirrors R (.node f) (.node g) := by
  intro p
  cases p with
  | nil => simpa [Tree.at?] using hk
  | cons k p =>
    rw [at?_cons_node, at?_cons_node]
    have hn : f.find? k = none ↔ g.find? k = none := by
      rw [Forest.find?_eq_none_iff, Forest.find?_eq_none_iff, hk]
    cases hf : f.find? k with
    | none => rw [hn.1 hf]; trivial
    | some x =>
      cases hg : g.find? k with
      | none => rw [hn.2 hg] at hf; cases hf
      | some y => exact h k x y hf hg p

/-- **C148** (conversion). Without specs the result has the keys of the values at every level and, at each leaf, the tensor that
holds the value there. -/
theorem C148_convert (v : Tree (Leaf α)) (t : Tree (Tensor α)) (h : toTensorflow v none = .ok t) :
    Mirrors (fun _ a b => Becomes a b) v t := by
  simp only [toTensorflow] at h
  induction v using Tree.lookup_induction generalizing t with
  | hl a =>
    simp only [convert] at h
    split at h
    · cases h
    · rename_i b hb
      cases h
      exact Mirrors_leaf ((toTensor_iff _ _).1 hb)
  | hn f ih =>
    simp only [convert] at h
    split at h
    · cases h
    · rename_i g hg
      cases h
      obtain ⟨h1, h2⟩ := convertAll_spec hg
      refine Mirrors_node h1 fun k x y hx hy => ?_
      rcases h2 k with ⟨h, _⟩ | ⟨v', t', hv, ht, hc⟩
      · rw [h] at hx; cases hx
      · rw [hv] at hx; rw [ht] at hy; cases hx; cases hy
        exact ih k _ hv _ hc

/-- **C148** (conversion, acceptance). Values can be converted exactly if each of them is the value of some tensor. -/
theorem C148_convert_accepted (v : Tree (Leaf α)) (hv : v.WF) :
    (∃ t, toTensorflow v none = .ok t) ↔ ∀ p a, v.leafAt p = some a → ∃ b, Becomes a b := by
  constructor
  · rintro ⟨t, ht⟩ p a ha
    have := C148_convert v t ht p
    rw [leafAt_eq_some.1 ha] at this
    split at this
    · rename_i h _; cases h
    · rename_i b h _; cases h; exact ⟨_, this⟩
    · rename_i h _; cases h
    · exact this.elim
  · intro h
    simp only [toTensorflow]
    induction v using Tree.lookup_induction with
    | hl a =>
      obtain ⟨b, hb⟩ := h [] a rfl
      exact ⟨.leaf b, by simp only [convert, (toTensor_iff _ _).2 hb]⟩
    | hn f ih =>
      unfold Tree.WF at hv
      obtain ⟨g, hg⟩ := convertAll_ok hv fun k w hk => ih k w hk (Forest.WF_find? hv hk) fun p a ha =>
        h (k :: p) a (by rw [Tree.leafAt_cons_node, hk]; exact ha)
      exact ⟨.node g, by simp only [convert, hg]⟩

/-- **C148** (specs). If no dictionary among the specs is empty, the result has exactly the keys of the specs at every level, and at
each leaf the tensor that holds the value found there in the shape asked for. -/
theorem C148_specs (v : Tree (Leaf α)) (s : Tree Spec) (t : Tree (Tensor α)) (hs : NoEmpty s)
    (h : toTensorflow v (some s) = .ok t) :
    Mirrors (fun p sp b => ∃ a a', v.leafAt p = some a ∧ ShapedAs sp a a' ∧ Becomes a' b) s t := by
  simp only [toTensorflow] at h
  induction s using Tree.lookup_induction generalizing v t with
  | hl sp =>
    cases v with
    | node f => simp only [toTensors] at h; cases h
    | leaf a =>
      simp only [toTensors] at h
      split at h
      · cases h
      · rename_i a' ha'
        split at h
        · cases h
        · rename_i b hb
          cases h
          exact Mirrors_leaf ⟨a, a', rfl, (shaped_iff _ _ _).1 ha', (toTensor_iff _ _).1 hb⟩
  | hn S ih =>
    cases S with
    | nil => exact absurd rfl (hs [])
    | cons k₀ s₀ rest =>
      cases v with
      | leaf a => simp only [toTensors] at h; cases h
      | node f =>
        simp only [toTensors] at h
        split at h
        · cases h
        · rename_i g hg
          cases h
          obtain ⟨h1, h2⟩ := toTensorsAll_spec hg
          refine Mirrors_node h1 fun k x y hx hy => ?_
          rcases h2 k with ⟨h, _⟩ | ⟨s', v', t', hs', hv, ht, hc⟩
          · rw [h] at hx; cases hx
          · rw [hs'] at hx; rw [ht] at hy; cases hx; cases hy
            have := ih k _ hs' _ _ (NoEmpty_child hs hs') hc
            simpa only [Tree.leafAt_cons_node, hv, Option.bind_some] using this

/-- **C148** (specs, acceptance). With specs among which no dictionary is empty, values are accepted exactly if every spec finds a
value of a tensor at its own place that can be given the shape asked for; whatever else there is does not matter. -/
theorem C148_specs_accepted (v : Tree (Leaf α)) (s : Tree Spec) (hs : NoEmpty s) (hw : s.WF) :
    (∃ t, toTensorflow v (some s) = .ok t) ↔
      ∀ p sp, s.leafAt p = some sp → ∃ a a' b, v.leafAt p = some a ∧ ShapedAs sp a a' ∧ Becomes a' b := by
  constructor
  · rintro ⟨t, ht⟩ p sp hp
    have := C148_specs v s t hs ht p
    rw [leafAt_eq_some.1 hp] at this
    split at this
    · rename_i h _; cases h
    · rename_i b h _; cases h
      obtain ⟨a, a', h1, h2, h3⟩ := this
      exact ⟨a, a', _, h1, h2, h3⟩
    · rename_i h _; cases h
    · exact this.elim
  · intro h
    simp only [toTensorflow]
    induction s using Tree.lookup_induction generalizing v with
    | hl sp =>
      obtain ⟨a, a', b, h1, h2, h3⟩ := h [] sp rfl
      cases v with
      | node f => cases h1
      | leaf x =>
        cases h1
        exact ⟨.leaf b, by simp only [toTensors, (shaped_iff _ _ _).2 h2, (toTensor_iff _ _).2 h3]⟩
    | hn S ih =>
      unfold Tree.WF at hw
      cases v with
      | leaf x =>
        obtain ⟨p, sp, hp⟩ := exists_leaf _ hs
        obtain ⟨a, _, _, h1, _⟩ := h p sp hp
        cases p with
        | nil => cases hp
        | cons k p => cases h1
      | node f =>
        have key : ∃ g, toTensorsAll S f = .ok g := by
          refine toTensorsAll_ok hw fun k s' hk => ?_
          have hc : ∀ p sp, s'.leafAt p = some sp → ∃ a a' b, (f.find? k).bind (fun t => t.leafAt p) = some a ∧
              ShapedAs sp a a' ∧ Becomes (α := α) a' b := fun p sp hp => by
            have := h (k :: p) sp (by rw [Tree.leafAt_cons_node, hk]; exact hp)
            simpa only [Tree.leafAt_cons_node] using this
          cases hf : f.find? k with
          | none =>
            obtain ⟨p, sp, hp⟩ := exists_leaf _ (NoEmpty_child hs hk)
            obtain ⟨a, _, _, h1, _⟩ := hc p sp hp
            rw [hf] at h1; cases h1
          | some v' =>
            simp only [hf, Option.bind_some] at hc
            obtain ⟨t, ht⟩ := ih k s' hk v' (NoEmpty_child hs hk) (Forest.WF_find? hw hk) hc
            exact ⟨v', t, rfl, ht⟩
        obtain ⟨g, hg⟩ := key
        cases S with
        | nil => exact absurd rfl (hs [])
        | cons k₀ s₀ rest => exact ⟨.node g, by simp only [toTensors, hg]⟩

/-- A tensor with a first dimension, as TensorFlow lets one be made. -/
inductive Batch : Tensor α → Prop where
  | dense (n : ℕ) (shape data) : Batch (.dense (n :: shape) data)
  | sparse (values : List α) (indices n shape) (h1 : indices.length = values.length)
      (h2 : ∀ ix ∈ indices, ix.length = (n :: shape).length) : Batch (.sparse ⟨values, indices, n :: shape⟩)
  | ragged (values : List α) (s splits) (h : raggedOk values (s :: splits) = true) : Batch (.ragged ⟨values, s :: splits⟩)

/-- Two tensors of the same kind; if dense, with rows of the same shape. -/
inductive SameRows : Tensor α → Tensor α → Prop where
  | dense (n m : ℕ) (shape data data') : SameRows (.dense (n :: shape) data) (.dense (m :: shape) data')
  | sparse (t u) : SameRows (.sparse t) (.sparse u)
  | ragged (t u) : SameRows (.ragged t) (.ragged u)

/-- **C148** (inferred specs, acceptance). Specs can be read off tensors exactly if every dense and sparse one has a first
dimension. -/
theorem C148_infer_accepted (f : Forest (Tensor α)) (hw : f.WF) :
    (∃ g, inferAll f = .ok g) ↔ ∀ p b, (Tree.node f).leafAt p = some b →
      (∀ data, b ≠ .dense [] data) ∧ ∀ values indices, b ≠ .sparse ⟨values, indices, []⟩ := by
  have key : ∀ t : Tree (Tensor α), t.WF → ((∃ s, infer t = .ok s) ↔ ∀ p b, t.leafAt p = some b →
      (∀ data, b ≠ .dense [] data) ∧ ∀ values indices, b ≠ .sparse ⟨values, indices, []⟩) := by
    intro t ht
    induction t using Tree.lookup_induction with
    | hl b =>
      simp only [infer]
      constructor
      · rintro ⟨s, hs⟩ p b' hb
        cases p with
        | cons k p => cases hb
        | nil =>
          cases hb
          split at hs
          · cases hs
          · rename_i s' hs'
            refine ⟨?_, ?_⟩
            · rintro data rfl; simp only [inferOne] at hs'; cases hs'
            · rintro values indices rfl; simp [inferOne] at hs'
      · intro h
        obtain ⟨h1, h2⟩ := h [] b rfl
        match b, h1, h2 with
        | .dense [] data, h1, _ => exact absurd rfl (h1 data)
        | .dense (n :: shape) data, _, _ => exact ⟨_, rfl⟩
        | .ragged t, _, _ => exact ⟨_, rfl⟩
        | .sparse ⟨values, indices, []⟩, _, h2 => exact absurd rfl (h2 values indices)
        | .sparse ⟨values, indices, n :: shape⟩, _, _ => simp [inferOne]
    | hn f ih =>
      unfold Tree.WF at ht
      simp only [infer]
      constructor
      · rintro ⟨s, hs⟩ p b hb
        split at hs
        · cases hs
        · rename_i g hg
          cases p with
          | nil => cases hb
          | cons k p =>
            rw [Tree.leafAt_cons_node] at hb
            rcases (inferAll_spec hg).2 k with ⟨h, _⟩ | ⟨v, t, hv, _, hc⟩
            · rw [h] at hb; cases hb
            · rw [hv] at hb
              exact (ih k v hv (Forest.WF_find? ht hv)).1 ⟨t, hc⟩ p b hb
      · intro h
        obtain ⟨g, hg⟩ := inferAll_ok ht fun k v hk => (ih k v hk (Forest.WF_find? ht hk)).2 fun p b hb =>
          h (k :: p) b (by rw [Tree.leafAt_cons_node, hk]; exact hb)
        exact ⟨.node g, by rw [hg]⟩
  rw [← key (.node f) (by unfold Tree.WF; exact hw)]
  simp only [infer]
  constructor
  · rintro ⟨g, hg⟩; exact ⟨.node g, by rw [hg]⟩
  · rintro ⟨s, hs⟩
    split at hs
    · cases hs
    · rename_i g hg; exact ⟨g, hg⟩

theorem infer_mirrors (t : Tree (Tensor α)) : ∀ s, infer t = .ok s → Mirrors (fun _ b sp => inferOne b = .ok sp) t s := by
  induction t using Tree.lookup_induction with
  | hl b =>
    intro s h
    simp only [infer] at h
    split at h
    · cases h
    · rename_i sp hsp; cases h; exact Mirrors_leaf hsp
  | hn f ih =>
    intro s h
    simp only [infer] at h
    split at h
    · cases h
    · rename_i g hg
      cases h
      obtain ⟨h1, h2⟩ := inferAll_spec hg
      refine Mirrors_node h1 fun k x y hx hy => ?_
      rcases h2 k with ⟨h, _⟩ | ⟨v', t', hv, ht, hc⟩
      · rw [h] at hx; cases hx
      · rw [hv] at hx; rw [ht] at hy; cases hx; cases hy
        exact ih k _ hv _ hc

theorem Mirrors_WF (t : Tree β) : ∀ {R : Path → β → γ → Prop} {s : Tree γ}, Mirrors R t s → t.WF → s.WF := by
  induction t using Tree.lookup_induction with
  | hl b =>
    intro R s h _
    cases s with
    | leaf => unfold Tree.WF; trivial
    | node => exact (h []).elim
  | hn f ih =>
    intro R s h hw
    cases s with
    | leaf => exact (h []).elim
    | node g =>
      unfold Tree.WF at hw ⊢
      refine keys_WF_of hw (h []) fun k x y hx hy => ?_
      refine ih k x hx (R := fun p => R (k :: p)) (fun p => ?_) (Forest.WF_find? hw hx)
      have := h (k :: p)
      rwa [at?_cons_node, at?_cons_node, hx, hy] at this

theorem Mirrors_NoEmpty {R : Path → β → γ → Prop} {t : Tree β} {s : Tree γ} (h : Mirrors R t s) (ht : NoEmpty t) : NoEmpty s := by
  intro p hp
  have := h p
  rw [hp] at this
  split at this
  · rename_i h'; cases h'
  · rename_i h'; cases h'
  · rename_i f _ h1 h'
    cases h'
    cases f with
    | nil => exact ht p h1
    | cons => simp [Forest.keys] at this
  · exact this

theorem inferred_keeps {b b' : Tensor α} {sp : Spec} (hi : inferOne b = .ok sp) (hr : SameRows b b') (hb : Batch b') :
    ∀ a' c, (ShapedAs sp (toValue b') a' ∧ Becomes a' c) ↔ a' = toValue b' ∧ c = b' := by
  intro a' c
  have hB : ∀ c, Becomes (toValue b') c ↔ c = b' := by
    intro c
    rw [← toTensor_iff]
    cases hb with
    | dense n shape data => simp only [toValue, toTensor, Except.ok.injEq]; exact eq_comm
    | sparse values indices n shape h1 h2 =>
      have : sparseOk (⟨values, indices, n :: shape⟩ : Sparse α) = true := by
        simp only [sparseOk, Bool.and_eq_true, decide_eq_true_eq, List.all_eq_true]; exact ⟨h1, h2⟩
      simp only [toValue, toTensor, this, if_true, Except.ok.injEq]; exact eq_comm
    | ragged values s splits h =>
      simp only [toValue, toTensor, h, if_true, Except.ok.injEq]; exact eq_comm
  have hS : ShapedAs sp (toValue b') a' ↔ a' = toValue b' := by
    rw [← shaped_iff]
    cases hr with
    | dense n m shape data data' =>
      cases hi
      have h0 : ((shape.map some).filter Option.isNone).length = 0 := by
        induction shape with
        | nil => rfl
        | cons d ds ih => simp
      have h1 : (shape.map some).filterMap id = shape := by
        clear h0 hb hB
        induction shape with
        | nil => rfl
        | cons d ds ih => simp
      simp only [toValue, shaped, reshape, List.drop_one, List.tail_cons, List.filter_cons, Option.isNone_some,
        Bool.false_eq_true, if_false, h0, List.filterMap_cons, id, if_true]
      simp only [id] at h1
      erw [h1]
      simp [eq_comm]
    | sparse t u => simp only [toValue, shaped, Except.ok.injEq]; exact eq_comm
    | ragged t u => simp only [toValue, shaped, Except.ok.injEq]; exact eq_comm
  rw [hS]
  constructor
  · rintro ⟨rfl, h⟩; exact ⟨rfl, (hB c).1 h⟩
  · rintro ⟨rfl, rfl⟩; exact ⟨rfl, (hB _).2 rfl⟩

/-- The spec that describes every batch of such rows: the same kind of tensor, the number of rows open, the other dimensions those of the
tensor if it has them and open if they are ragged. -/
inductive Describes : Tensor α → Spec → Prop where
  | dense (n shape) (data : List α) : Describes (.dense (n :: shape) data) (.dense (some (none :: shape.map some)))
  | sparse (values : List α) (indices n shape) : Describes (.sparse ⟨values, indices, n :: shape⟩) (.sparse (none :: shape.map some))
  | ragged (values : List α) (splits) : Describes (.ragged ⟨values, splits⟩) (.ragged (List.replicate (splits.length + 1) none))

/-- **C148** (inferred specs, contents). The specs read off a batch have its keys, and under each the spec that describes the tensor. -/
theorem C148_infer_describes (f : Forest (Tensor α)) (g : Forest Spec) (hg : inferAll f = .ok g) :
    Mirrors (fun _ b sp => Describes b sp) (.node f) (.node g) := by
  have hm : Mirrors (fun _ b sp => inferOne b = .ok sp) (.node f) (.node g) := infer_mirrors _ _ (by simp only [infer, hg])
  have one : ∀ (b : Tensor α) sp, inferOne b = .ok sp → Describes b sp := by
    intro b sp h
    match b, h with
    | .dense (n :: shape) data, h => cases h; exact .dense _ _ _
    | .sparse ⟨values, indices, n :: shape⟩, h =>
      simp only [inferOne, List.length_cons, Nat.not_lt.2 (Nat.le_add_left 1 _), if_false, List.drop_succ_cons, List.drop_zero] at h
      cases h; exact .sparse _ _ _ _
    | .sparse ⟨values, indices, []⟩, h => simp [inferOne] at h
    | .ragged ⟨values, splits⟩, h =>
      simp only [inferOne] at h
      cases h
      have : (none :: splits.map fun _ => (none : Option ℕ)) = List.replicate (splits.length + 1) none := by
        rw [List.replicate_succ, List.map_const']
      rw [this]; exact .ragged _ _
  intro p
  have := hm p
  split at this
  · trivial
  · exact one _ _ this
  · exact this
  · exact this.elim

/-- **C148** (inferred specs). Specs read off one batch of tensors accept every other batch that has, wherever the first has a tensor,
one of the same kind with rows of the same shape: they come out of their values unchanged, and with nothing else. -/
theorem C148_infer (f : Forest (Tensor α)) (g : Forest Spec) (v : Tree (Leaf α)) (hw : f.WF) (hne : NoEmpty (.node f))
    (hg : inferAll f = .ok g)
    (hv : ∀ p b, (Tree.node f).leafAt p = some b → ∃ b', v.leafAt p = some (toValue b') ∧ SameRows b b' ∧ Batch b') :
    ∃ t, toTensorflow v (some (.node g)) = .ok t ∧ Mirrors (fun p _ b' => v.leafAt p = some (toValue b') ∧ Batch b') (.node f) t := by
  have hm : Mirrors (fun _ b sp => inferOne b = .ok sp) (.node f) (.node g) := infer_mirrors _ _ (by simp only [infer, hg])
  have hgw : (Tree.node g).WF := Mirrors_WF _ hm (by unfold Tree.WF; exact hw)
  have hgn : NoEmpty (.node g) := Mirrors_NoEmpty hm hne
  have back : ∀ p sp, (Tree.node g).leafAt p = some sp → ∃ b, (Tree.node f).leafAt p = some b ∧ inferOne b = .ok sp := by
    intro p sp hp
    have := hm p
    rw [leafAt_eq_some.1 hp] at this
    split at this
    · rename_i h; cases h
    · rename_i b _ hb h; cases h; exact ⟨b, leafAt_eq_some.2 hb, this⟩
    · rename_i h; cases h
    · exact this.elim
  obtain ⟨t, ht⟩ := (C148_specs_accepted v (.node g) hgn hgw).2 fun p sp hp => by
    obtain ⟨b, hb, hi⟩ := back p sp hp
    obtain ⟨b', h1, h2, h3⟩ := hv p b hb
    have := (inferred_keeps hi h2 h3 (toValue b') b').2 ⟨rfl, rfl⟩
    exact ⟨_, _, _, h1, this.1, this.2⟩
  refine ⟨t, ht, fun p => ?_⟩
  have h1 := hm p
  have h2 := C148_specs v _ t hgn ht p
  cases e : (Tree.node f).at? p with
  | none =>
    rw [e] at h1
    cases e' : (Tree.node g).at? p with
    | none =>
      rw [e'] at h2
      cases e'' : t.at? p with
      | none => trivial
      | some x => rw [e''] at h2; exact h2.elim
    | some x => rw [e'] at h1; exact h1.elim
  | some x =>
    rw [e] at h1
    cases x with
    | leaf b =>
      cases e' : (Tree.node g).at? p with
      | none => rw [e'] at h1; exact h1.elim
      | some y =>
        rw [e'] at h1 h2
        cases y with
        | node => exact h1.elim
        | leaf sp =>
          cases e'' : t.at? p with
          | none => rw [e''] at h2; exact h2.elim
          | some z =>
            rw [e''] at h2
            cases z with
            | node => exact h2.elim
            | leaf c =>
              obtain ⟨a, a', ha, hs, hb⟩ := h2
              obtain ⟨b', g1, g2, g3⟩ := hv p b (leafAt_eq_some.2 e)
              rw [g1] at ha; cases ha
              obtain ⟨rfl, rfl⟩ := (inferred_keeps h1 g2 g3 a' c).1 ⟨hs, hb⟩
              exact ⟨g1, g3⟩
    | node f' =>
      cases e' : (Tree.node g).at? p with
      | none => rw [e'] at h1; exact h1.elim
      | some y =>
        rw [e'] at h1 h2
        cases y with
        | leaf => exact h1.elim
        | node g' =>
          cases e'' : t.at? p with
          | none => rw [e''] at h2; exact h2.elim
          | some z =>
            rw [e''] at h2
            cases z with
            | leaf => exact h2.elim
            | node t' => exact h1.trans h2

/-- **C148** (round trip). Tensors with a first dimension come back from their values. -/
theorem C148_round_trip (t : Tree (Tensor α)) (hb : ∀ p b, t.leafAt p = some b → Batch b) (hw : t.WF) :
    toTensorflow (toValues t) none = .ok t := by
  simp only [toTensorflow]
  induction t using Tree.rec (motive_2 := fun f => f.WF → (∀ p b, (Tree.node f).leafAt p = some b → Batch b) →
      convertAll (toValuesAll f) = .ok f) with
  | leaf b =>
    have := hb [] b rfl
    simp only [toValues, convert]
    have h : toTensor (toValue b) = .ok b := by
      cases this with
      | dense => rfl
      | sparse values indices n shape h1 h2 =>
        have : sparseOk (⟨values, indices, n :: shape⟩ : Sparse α) = true := by
          simp only [sparseOk, Bool.and_eq_true, decide_eq_true_eq, List.all_eq_true]; exact ⟨h1, h2⟩
        simp only [toValue, toTensor, this, if_true]
      | ragged values s splits h => simp only [toValue, toTensor, h, if_true]
    rw [h]
  | node f ih =>
    unfold Tree.WF at hw
    simp only [toValues, convert]
    rw [ih hw hb]
  | nil _ _ => rfl
  | cons k t rest iht ihr hw hb =>
    unfold Forest.WF at hw
    simp only [toValuesAll, convertAll]
    rw [iht (fun p b h => hb (k :: p) b (by rw [Tree.leafAt_cons_node]; simpa [Forest.find?] using h)) hw.2.1]
    rw [ihr hw.2.2 fun p b h => ?_]
    cases p with
    | nil => cases h
    | cons k' p =>
      rw [Tree.leafAt_cons_node] at h
      refine hb (k' :: p) b ?_
      rw [Tree.leafAt_cons_node]
      have hne : k ≠ k' := by
        rintro rfl
        rw [(Forest.find?_eq_none_iff _ _).2 hw.1] at h
        cases h
      simpa [Forest.find?, hne] using h

/-- **C148** (values). The values of the tensors made of values are those values, except that values of variable length come back as
sparse ones and ragged ones without row splits as arrays. -/
theorem C148_values_back (v : Tree (Leaf α)) (t : Tree (Tensor α)) (h : toTensorflow v none = .ok t) :
    ∀ p a, v.leafAt p = some a → ∃ a', (toValues t).leafAt p = some a' ∧
      (a' = a ∨ (∃ values indices shape, a = .varlen ⟨values, indices, shape⟩ ∧
        a' = .sparse ⟨values, indices.map fun q => [q.1, q.2], shape⟩) ∨
        ∃ values, a = .ragged ⟨values, []⟩ ∧ a' = .nd [values.length] values) := by
  intro p a ha
  have hm := C148_convert v t h p
  rw [leafAt_eq_some.1 ha] at hm
  split at hm
  · rename_i h _; cases h
  · rename_i b h hb
    cases h
    refine ⟨toValue b, ?_, ?_⟩
    · have : ∀ (p : Path) (t : Tree (Tensor α)), t.at? p = some (.leaf b) → (toValues t).leafAt p = some (toValue b) := by
        intro p
        induction p with
        | nil => intro t ht; cases ht; rfl
        | cons k p ih =>
          intro t ht
          cases t with
          | leaf => cases ht
          | node f =>
            rw [at?_cons_node] at ht
            simp only [toValues]
            rw [Tree.leafAt_cons_node, toValuesAll_find?]
            cases hf : f.find? k with
            | none => rw [hf] at ht; cases ht
            | some t' => rw [hf] at ht; exact ih t' ht
      exact this p t hb
    · cases hm with
      | dense => exact .inl rfl
      | sparse => exact .inl rfl
      | varlen values indices shape => exact .inr (.inl ⟨values, indices, shape, rfl, rfl⟩)
      | ragged => exact .inl rfl
      | flat values => exact .inr (.inr ⟨values, rfl, rfl⟩)
  · rename_i h _; cases h
  · exact hm.elim

/-- **C148** (full claim fails: two open dimensions). Where a spec leaves two dimensions besides the first open, as a model for images
of any size does, every dense value with a dimension is refused, even if it has the very shape asked for. -/
theorem C148_two_open_fails (v : Tree (Leaf α)) (s : Tree Spec) (hs : NoEmpty s) (p : Path) (d : Option ℕ) (dims : List (Option ℕ))
    (n : ℕ) (shape data) (hp : s.leafAt p = some (.dense (some (d :: dims)))) (hv : v.leafAt p = some (.nd (n :: shape) data))
    (hd : 2 ≤ (dims.filter Option.isNone).length) : ∀ t, toTensorflow v (some s) ≠ .ok t := by
  intro t ht
  have := C148_specs v s t hs ht p
  rw [leafAt_eq_some.1 hp] at this
  split at this
  · rename_i h _; cases h
  · rename_i h _
    cases h
    obtain ⟨a, a', h1, h2, _⟩ := this
    rw [hv] at h1; cases h1
    obtain ⟨_, _, _, _, h3, _⟩ := h2
    simp only [List.drop_one, List.tail_cons] at h3
    omega
  · rename_i h _; cases h
  · exact this

/-- **C148** (full claim fails: empty batches). Where a spec leaves one dimension besides the first open, an empty batch is refused. -/
theorem C148_empty_batch_fails (v : Tree (Leaf α)) (s : Tree Spec) (hs : NoEmpty s) (p : Path) (d : Option ℕ) (dims : List (Option ℕ))
    (shape data) (hp : s.leafAt p = some (.dense (some (d :: dims)))) (hv : v.leafAt p = some (.nd (0 :: shape) data))
    (hd : none ∈ dims) : ∀ t, toTensorflow v (some s) ≠ .ok t := by
  intro t ht
  have := C148_specs v s t hs ht p
  rw [leafAt_eq_some.1 hp] at this
  split at this
  · rename_i h _; cases h
  · rename_i h _
    cases h
    obtain ⟨a, a', h1, h2, _⟩ := this
    rw [hv] at h1; cases h1
    obtain ⟨_, _, _, _, h3, h4⟩ := h2
    simp only [List.drop_one, List.tail_cons] at h3 h4
    have : 0 < (dims.filter Option.isNone).length := List.length_pos_of_mem (List.mem_filter.2 ⟨hd, rfl⟩)
    exact (h4 (by omega)).1 rfl
  · rename_i h _; cases h
  · exact this

/-- **C148** (full claim fails: empty specs). An empty dictionary of specs does not ask for nothing but for everything. -/
theorem C148_empty_specs_fails (f : Forest (Leaf α)) (hw : f.WF)
    (h : ∀ p a, (Tree.node f).leafAt p = some a → ∃ b, Becomes a b) :
    ∃ t, toTensorflow (.node f) (some (.node .nil)) = .ok t ∧ Mirrors (fun _ a b => Becomes a b) (.node f) t := by
  obtain ⟨t, ht⟩ := (C148_convert_accepted (.node f) (by unfold Tree.WF; exact hw)).2 h
  have he : toTensorflow (.node f) (some (.node .nil)) = toTensorflow (.node f) none := by simp only [toTensorflow, toTensors]
  exact ⟨t, he.trans ht, C148_convert _ _ ht⟩

/-! ### Concrete cases -/

/-- two images of 2×1 points and a text feature the model does not ask for. -/
def values1 : Tree (Leaf ℕ) :=
  .node (.cons "x" (.leaf (.nd [2, 2, 1] [1, 2, 3, 4])) (.cons "y" (.leaf .object) (.cons "z" (.node (.cons "w"
    (.leaf (.varlen ⟨[7], [(0, 0)], [2, 1]⟩)) .nil)) .nil)))

example : toTensorflow values1 (some (.node (.cons "x" (.leaf (.dense (some [none, none]))) .nil))) =
    .ok (.node (.cons "x" (.leaf (.dense [2, 2] [1, 2, 3, 4])) .nil)) := rfl
example : toTensorflow values1 (some (.node (.cons "x" (.leaf (.dense (some [none, none, none]))) .nil))) = .error .valueError := rfl
example : toTensorflow values1 (some (.node (.cons "z" (.node (.cons "w" (.leaf (.sparse [none, none])) .nil)) .nil))) =
    .ok (.node (.cons "z" (.node (.cons "w" (.leaf (.sparse ⟨[7], [[0, 0]], [2, 1]⟩)) .nil)) .nil)) := rfl
example : toTensorflow values1 none = .error .runtimeError := rfl
example : toTensorflow values1 (some (.node .nil)) = .error .runtimeError := rfl
example : toTensorflow values1 (some (.node (.cons "v" (.leaf (.dense none)) .nil))) = .error .valueError := rfl
example : inferAll (.cons "x" (.leaf (.dense [2, 3] [1, 2, 3, 4, 5, 6])) .nil : Forest (Tensor ℕ)) =
    .ok (.cons "x" (.leaf (.dense (some [none, some 3]))) .nil) := rfl
example : toTensorflow (.node (.cons "x" (.leaf (.nd [1, 3] [7, 8, 9])) .nil) : Tree (Leaf ℕ))
    (some (.node (.cons "x" (.leaf (.dense (some [none, some 3]))) .nil))) =
    .ok (.node (.cons "x" (.leaf (.dense [1, 3] [7, 8, 9])) .nil)) := rfl
example : inferAll (.cons "x" (.leaf (.dense [] [1])) .nil : Forest (Tensor ℕ)) = .error .valueError := rfl

end TensorSpecs
end TFMA
