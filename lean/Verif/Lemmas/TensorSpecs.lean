import Verif.Model.TensorSpecs
import Verif.Lemmas.Extracts
import Mathlib.Tactic.Common
import Mathlib.Data.List.Forall2

/-!
# Lemmas about converting nested dictionaries of tensor values
-/

namespace TFMA

/-- Induction over nested dictionaries by looking keys up. -/
theorem Tree.lookup_induction {α : Type} {P : Tree α → Prop} (hl : ∀ a, P (.leaf a))
    (hn : ∀ f : Forest α, (∀ k t, f.find? k = some t → P t) → P (.node f)) (t : Tree α) : P t := by
  induction t using Tree.rec (motive_2 := fun f => ∀ k t, f.find? k = some t → P t) with
  | leaf a => exact hl a
  | node f ih => exact hn f ih
  | nil k t h => cases h
  | cons k' t' rest iht ihr k t h =>
    simp only [Forest.find?] at h
    split at h
    · cases h; exact iht
    · exact ihr k t h

namespace TensorSpecs

open Tensors Extracts VarLen

variable {α β : Type}

/-- every dictionary of the tree has a key. -/
def NoEmpty (t : Tree β) : Prop := ∀ p, t.at? p ≠ some (.node .nil)

theorem NoEmpty_child {f : Forest β} (h : NoEmpty (.node f)) {k t} (hk : f.find? k = some t) : NoEmpty t := by
  intro p hp
  apply h (k :: p)
  rw [at?_cons_node, hk]; exact hp

theorem exists_leaf (t : Tree β) (h : NoEmpty t) : ∃ p a, t.leafAt p = some a := by
  induction t using Tree.lookup_induction with
  | hl a => exact ⟨[], a, rfl⟩
  | hn f ih =>
    cases f with
    | nil => exact absurd rfl (h [])
    | cons k t rest =>
      have hk : (Forest.cons k t rest).find? k = some t := by simp [Forest.find?]
      obtain ⟨p, a, hp⟩ := ih k t hk (NoEmpty_child h hk)
      exact ⟨k :: p, a, by rw [Tree.leafAt_cons_node, hk]; exact hp⟩

theorem convertAll_spec {f : Forest (Leaf α)} : ∀ {g}, convertAll f = .ok g → f.keys = g.keys ∧
    ∀ k, (f.find? k = none ∧ g.find? k = none) ∨ ∃ v t, f.find? k = some v ∧ g.find? k = some t ∧ convert v = .ok t := by
  induction f using Forest.rec (motive_1 := fun _ => True) with
  | leaf => trivial
  | node => trivial
  | nil =>
    intro g h
    simp only [convertAll] at h
    cases h
    exact ⟨rfl, fun k => .inl ⟨rfl, rfl⟩⟩
  | cons k' v rest _ ih =>
    intro g h
    simp only [convertAll] at h
    split at h
    · cases h
    · rename_i t ht
      split at h
      · cases h
      · rename_i g' hg'
        cases h
        obtain ⟨h1, h2⟩ := ih hg'
        refine ⟨by simp [Forest.keys, h1], fun k => ?_⟩
        by_cases hk : k' = k
        · exact .inr ⟨v, t, by simp [Forest.find?, hk], by simp [Forest.find?, hk], ht⟩
        · simp only [Forest.find?, hk, if_false]; exact h2 k

theorem convertAll_ok {f : Forest (Leaf α)} (hw : f.WF) (h : ∀ k v, f.find? k = some v → ∃ t, convert v = .ok t) :
    ∃ g, convertAll f = .ok g := by
  induction f using Forest.rec (motive_1 := fun _ => True) with
  | leaf => trivial
  | node => trivial
  | nil => exact ⟨.nil, by simp only [convertAll]⟩
  | cons k' v rest _ ih =>
    unfold Forest.WF at hw
    obtain ⟨t, ht⟩ := h k' v (by simp [Forest.find?])
    obtain ⟨g, hg⟩ := ih hw.2.2 (fun k w hk => h k w (by
      simp only [Forest.find?]
      rw [if_neg]
      · exact hk
      · rintro rfl; exact hw.1 ((Forest.mem_keys_iff _ _).2 ⟨w, hk⟩)))
    exact ⟨.cons k' t g, by simp only [convertAll, ht, hg]⟩

theorem toTensorsAll_spec {S : Forest Spec} {f : Forest (Leaf α)} : ∀ {g}, toTensorsAll S f = .ok g → S.keys = g.keys ∧
    ∀ k, (S.find? k = none ∧ g.find? k = none) ∨
      ∃ s v t, S.find? k = some s ∧ f.find? k = some v ∧ g.find? k = some t ∧ toTensors s v = .ok t := by
  induction S using Forest.rec (motive_1 := fun _ => True) with
  | leaf => trivial
  | node => trivial
  | nil =>
    intro g h
    simp only [toTensorsAll] at h
    cases h
    exact ⟨rfl, fun k => .inl ⟨rfl, rfl⟩⟩
  | cons k' s rest _ ih =>
    intro g h
    simp only [toTensorsAll] at h
    split at h
    · cases h
    · rename_i v hv
      split at h
      · cases h
      · rename_i t ht
        split at h
        · cases h
        · rename_i g' hg'
          cases h
          obtain ⟨h1, h2⟩ := ih hg'
          refine ⟨by simp [Forest.keys, h1], fun k => ?_⟩
          by_cases hk : k' = k
          · subst hk
            exact .inr ⟨s, v, t, by simp [Forest.find?], hv, by simp [Forest.find?], ht⟩
          · simp only [Forest.find?, hk, if_false]; exact h2 k

theorem toTensorsAll_ok {S : Forest Spec} {f : Forest (Leaf α)} (hw : S.WF)
    (h : ∀ k s, S.find? k = some s → ∃ v t, f.find? k = some v ∧ toTensors s v = .ok t) : ∃ g, toTensorsAll S f = .ok g := by
  induction S using Forest.rec (motive_1 := fun _ => True) with
  | leaf => trivial
  | node => trivial
  | nil => exact ⟨.nil, by simp only [toTensorsAll]⟩
  | cons k' s rest _ ih =>
    unfold Forest.WF at hw
    obtain ⟨v, t, hv, ht⟩ := h k' s (by simp [Forest.find?])
    obtain ⟨g, hg⟩ := ih hw.2.2 (fun k w hk => h k w (by
      simp only [Forest.find?]
      rw [if_neg]
      · exact hk
      · rintro rfl; exact hw.1 ((Forest.mem_keys_iff _ _).2 ⟨w, hk⟩)))
    exact ⟨.cons k' t g, by simp only [toTensorsAll, hv, ht, hg]⟩

theorem inferAll_spec {f : Forest (Tensor α)} : ∀ {g}, inferAll f = .ok g → f.keys = g.keys ∧
    ∀ k, (f.find? k = none ∧ g.find? k = none) ∨ ∃ v t, f.find? k = some v ∧ g.find? k = some t ∧ infer v = .ok t := by
  induction f using Forest.rec (motive_1 := fun _ => True) with
  | leaf => trivial
  | node => trivial
  | nil =>
    intro g h
    simp only [inferAll] at h
    cases h
    exact ⟨rfl, fun k => .inl ⟨rfl, rfl⟩⟩
  | cons k' v rest _ ih =>
    intro g h
    simp only [inferAll] at h
    split at h
    · cases h
    · rename_i t ht
      split at h
      · cases h
      · rename_i g' hg'
        cases h
        obtain ⟨h1, h2⟩ := ih hg'
        refine ⟨by simp [Forest.keys, h1], fun k => ?_⟩
        by_cases hk : k' = k
        · exact .inr ⟨v, t, by simp [Forest.find?, hk], by simp [Forest.find?, hk], ht⟩
        · simp only [Forest.find?, hk, if_false]; exact h2 k

theorem inferAll_ok {f : Forest (Tensor α)} (hw : f.WF) (h : ∀ k v, f.find? k = some v → ∃ t, infer v = .ok t) :
    ∃ g, inferAll f = .ok g := by
  induction f using Forest.rec (motive_1 := fun _ => True) with
  | leaf => trivial
  | node => trivial
  | nil => exact ⟨.nil, by simp only [inferAll]⟩
  | cons k' v rest _ ih =>
    unfold Forest.WF at hw
    obtain ⟨t, ht⟩ := h k' v (by simp [Forest.find?])
    obtain ⟨g, hg⟩ := ih hw.2.2 (fun k w hk => h k w (by
      simp only [Forest.find?]
      rw [if_neg]
      · exact hk
      · rintro rfl; exact hw.1 ((Forest.mem_keys_iff _ _).2 ⟨w, hk⟩)))
    exact ⟨.cons k' t g, by simp only [inferAll, ht, hg]⟩

theorem keys_eq_find?_none {f : Forest α} {g : Forest β} (h : f.keys = g.keys) (k : String) :
    f.find? k = none ↔ g.find? k = none := by
  rw [Forest.find?_eq_none_iff, Forest.find?_eq_none_iff, h]

theorem keys_WF_of {f : Forest α} : ∀ {g : Forest β}, f.WF → f.keys = g.keys →
    (∀ k t u, f.find? k = some t → g.find? k = some u → u.WF) → g.WF := by
  induction f using Forest.rec (motive_1 := fun _ => True) with
  | leaf => trivial
  | node => trivial
  | nil =>
    intro g _ h _
    cases g with
    | nil => simp only [Forest.WF]
    | cons => simp [Forest.keys] at h
  | cons k t rest _ ih =>
    intro g hw h hc
    cases g with
    | nil => simp [Forest.keys] at h
    | cons k' u rest' =>
      simp only [Forest.keys, List.cons.injEq] at h
      obtain ⟨rfl, h⟩ := h
      unfold Forest.WF at hw ⊢
      refine ⟨h ▸ hw.1, hc k t u (by simp [Forest.find?]) (by simp [Forest.find?]), ih hw.2.2 h ?_⟩
      intro k' t' u' h1 h2
      have hne : k ≠ k' := by rintro rfl; exact hw.1 ((Forest.mem_keys_iff _ _).2 ⟨_, h1⟩)
      exact hc k' t' u' (by simp [Forest.find?, hne, h1]) (by simp [Forest.find?, hne, h2])

theorem toValuesAll_find? (f : Forest (Tensor α)) (k : String) : (toValuesAll f).find? k = (f.find? k).map toValues := by
  induction f using Forest.rec (motive_1 := fun _ => True) with
  | leaf => trivial
  | node => trivial
  | nil => simp [toValuesAll, Forest.find?]
  | cons k' t rest _ ih =>
    simp only [toValuesAll, Forest.find?, ih]
    split <;> simp

theorem toValuesAll_keys (f : Forest (Tensor α)) : (toValuesAll f).keys = f.keys := by
  induction f using Forest.rec (motive_1 := fun _ => True) with
  | leaf => trivial
  | node => trivial
  | nil => simp [toValuesAll, Forest.keys]
  | cons k' t rest _ ih => simp [toValuesAll, Forest.keys, ih]

/-! ### reshaping -/

theorem unknown_zero : ∀ {dims : List (Option ℕ)}, (dims.filter Option.isNone).length = 0 →
    List.Forall₂ (fun d r => d = some r) dims (dims.filterMap id)
  | [], _ => .nil
  | none :: _, h => by simp at h
  | some d :: ds, h => by
    simp only [List.filterMap_cons, id]
    exact .cons rfl (unknown_zero (by simpa using h))

theorem unknown_zero_unique : ∀ {dims : List (Option ℕ)} {rs : List ℕ}, (dims.filter Option.isNone).length = 0 →
    List.Forall₂ (fun d r => ∀ k, d = some k → r = k) dims rs → rs = dims.filterMap id
  | [], _, _, h => by cases h; rfl
  | none :: _, _, h, _ => by simp at h
  | some d :: ds, _, h, hr => by
    cases hr with
    | cons h1 h2 =>
      simp only [List.filterMap_cons, id, h1 d rfl]
      rw [unknown_zero_unique (by simpa using h) h2]; rfl

theorem unknown_one : ∀ {dims : List (Option ℕ)} (x : ℕ), (dims.filter Option.isNone).length = 1 →
    (dims.map fun d => d.getD x).prod = x * (dims.filterMap id).prod
  | [], _, h => by simp at h
  | some d :: ds, x, h => by
    have := unknown_one (dims := ds) x (by simpa using h)
    simp only [List.map_cons, Option.getD_some, List.prod_cons, this, List.filterMap_cons, id]
    rw [Nat.mul_left_comm]
  | none :: ds, x, h => by
    have h0 : (ds.filter Option.isNone).length = 0 := by simpa using h
    have h1 : ds.map (fun d => d.getD x) = ds.filterMap id := by
      clear h
      induction ds with
      | nil => rfl
      | cons d ds ih =>
        cases d with
        | none => simp at h0
        | some d => simp only [List.map_cons, Option.getD_some, List.filterMap_cons, id]; rw [ih (by simpa using h0)]; rfl
    simp only [List.map_cons, Option.getD_none, List.prod_cons, h1, List.filterMap_cons, id]

theorem unknown_one_unique : ∀ {dims : List (Option ℕ)} {rs : List ℕ}, (dims.filter Option.isNone).length = 1 →
    List.Forall₂ (fun d r => ∀ k, d = some k → r = k) dims rs → ∃ x, rs = dims.map fun d => d.getD x
  | [], _, h, _ => by simp at h
  | some d :: ds, _, h, hr => by
    cases hr with
    | cons h1 h2 =>
      obtain ⟨x, hx⟩ := unknown_one_unique (by simpa using h) h2
      exact ⟨x, by simp [h1 d rfl, hx]⟩
  | none :: ds, _, h, hr => by
    cases hr with
    | @cons _ r _ rs h1 h2 =>
      have h0 : (ds.filter Option.isNone).length = 0 := by simpa using h
      refine ⟨r, ?_⟩
      have := unknown_zero_unique h0 h2
      have h1 : ds.map (fun d => d.getD r) = ds.filterMap id := by
        clear h h2 this
        induction ds with
        | nil => rfl
        | cons d ds ih =>
          cases d with
          | none => simp at h0
          | some d => simp only [List.map_cons, Option.getD_some, List.filterMap_cons, id]; rw [ih (by simpa using h0)]; rfl
      simp [this, h1]

theorem forall₂_getD (dims : List (Option ℕ)) (x : ℕ) :
    List.Forall₂ (fun d r => ∀ k, d = some k → r = k) dims (dims.map fun d => d.getD x) := by
  induction dims with
  | nil => exact .nil
  | cons d ds ih => exact .cons (by rintro k rfl; rfl) ih

end TensorSpecs
end TFMA
