import Verif.Py.Basic

/-!
# Nested dictionaries

`Tree α` is a python value that is either a dictionary (of trees, in insertion order) or something else
(a leaf holding an `α`).
-/

namespace TFMA

mutual
/-- A possibly nested dictionary value. -/
inductive Tree (α : Type) where
  | leaf (a : α)
  | node (kids : Forest α)

/-- The items of one dictionary level. -/
inductive Forest (α : Type) where
  | nil
  | cons (key : String) (value : Tree α) (rest : Forest α)
end

namespace Forest

variable {α : Type}

/-- `d.get(k)`. -/
def find? : Forest α → String → Option (Tree α)
  | .nil, _ => none
  | .cons k' t rest, k => if k' = k then some t else find? rest k

/-- `k in d`. -/
def has (f : Forest α) (k : String) : Bool := (find? f k).isSome

/-- `list(d)`. -/
def keys : Forest α → List String
  | .nil => []
  | .cons k _ rest => k :: keys rest

/-- `d[k] = t`. -/
def set : Forest α → String → Tree α → Forest α
  | .nil, k, t => .cons k t .nil
  | .cons k' t' rest, k, t => if k' = k then .cons k' t rest else .cons k' t' (set rest k t)

/-- `not d`. -/
def isEmpty : Forest α → Bool
  | .nil => true
  | .cons _ _ _ => false

/-- items of `a` followed by those of `b`. -/
def append : Forest α → Forest α → Forest α
  | .nil, b => b
  | .cons k t rest, b => .cons k t (append rest b)

/-- `[(k, v) for k, v in d.items()]`. -/
def items : Forest α → List (String × Tree α)
  | .nil => []
  | .cons k t rest => (k, t) :: items rest

end Forest

/-- A sequence of keys into a nested dictionary. -/
abbrev Path := List String

namespace Tree

variable {α : Type}

/-- The value reached by following the keys, if every step finds its key in a dictionary. -/
def at? : Tree α → Path → Option (Tree α)
  | t, [] => some t
  | .leaf _, _ :: _ => none
  | .node f, k :: p => match f.find? k with
    | none => none
    | some t => at? t p

/-- The leaf stored at the end of the path. -/
def leafAt (t : Tree α) (p : Path) : Option α :=
  match t.at? p with
  | some (.leaf a) => some a
  | _ => none

end Tree

mutual
/-- every dictionary level has each key once. -/
def Tree.WF {α : Type} : Tree α → Prop
  | .leaf _ => True
  | .node f => Forest.WF f
/-- every dictionary level has each key once. -/
def Forest.WF {α : Type} : Forest α → Prop
  | .nil => True
  | .cons k t rest => k ∉ rest.keys ∧ Tree.WF t ∧ Forest.WF rest
end

namespace Forest
variable {α : Type}

theorem mem_keys_iff (f : Forest α) (k : String) : k ∈ f.keys ↔ ∃ t, f.find? k = some t := by
  induction f using Forest.rec (motive_1 := fun _ => True) with
  | leaf => trivial
  | node => trivial
  | nil => simp [keys, find?]
  | cons k' t rest _ ih =>
    simp only [keys, List.mem_cons, find?, ih]
    by_cases h : k' = k
    · simp [h]
    · simp [h, Ne.symm h]

theorem find?_eq_none_iff (f : Forest α) (k : String) : f.find? k = none ↔ k ∉ f.keys := by
  rw [mem_keys_iff]
  cases h : f.find? k <;> simp

theorem find?_set (f : Forest α) (k k' : String) (t : Tree α) :
    (f.set k t).find? k' = if k = k' then some t else f.find? k' := by
  induction f using Forest.rec (motive_1 := fun _ => True) with
  | leaf => trivial
  | node => trivial
  | nil => simp [set, find?]
  | cons k₁ t₁ rest _ ih =>
    simp only [set]
    by_cases h : k₁ = k
    · subst h
      by_cases h2 : k₁ = k' <;> simp [find?, h2]
    · simp only [h, if_false, find?, ih]
      by_cases h2 : k₁ = k'
      · subst h2; simp [Ne.symm h]
      · simp [h2]

theorem keys_set (f : Forest α) (k : String) (t : Tree α) :
    (f.set k t).keys = if k ∈ f.keys then f.keys else f.keys ++ [k] := by
  induction f using Forest.rec (motive_1 := fun _ => True) with
  | leaf => trivial
  | node => trivial
  | nil => simp [set, keys]
  | cons k₁ t₁ rest _ ih =>
    simp only [set]
    by_cases h : k₁ = k
    · subst h; simp [keys]
    · simp only [h, if_false, keys, ih, List.mem_cons, Ne.symm h, false_or]
      split <;> simp_all

theorem find?_append (f g : Forest α) (k : String) :
    (f.append g).find? k = (f.find? k).or (g.find? k) := by
  induction f using Forest.rec (motive_1 := fun _ => True) with
  | leaf => trivial
  | node => trivial
  | nil => simp [append, find?]
  | cons k₁ t₁ rest _ ih =>
    simp only [append, find?, ih]
    split <;> simp

theorem keys_append (f g : Forest α) : (f.append g).keys = f.keys ++ g.keys := by
  induction f using Forest.rec (motive_1 := fun _ => True) with
  | leaf => trivial
  | node => trivial
  | nil => simp [append, keys]
  | cons k₁ t₁ rest _ ih => simp [append, keys, ih]

theorem WF_find? {f : Forest α} (h : f.WF) {k t} (hf : f.find? k = some t) : t.WF := by
  induction f using Forest.rec (motive_1 := fun _ => True) with
  | leaf => trivial
  | node => trivial
  | nil => simp [find?] at hf
  | cons k₁ t₁ rest _ ih =>
    unfold Forest.WF at h
    simp only [find?] at hf
    split at hf
    · cases hf; exact h.2.1
    · exact ih h.2.2 hf

theorem isEmpty_iff (f : Forest α) : f.isEmpty = true ↔ f = .nil := by
  cases f <;> simp [isEmpty]

theorem WF_set {f : Forest α} (h : f.WF) {k} {t : Tree α} (ht : t.WF) : (f.set k t).WF := by
  induction f using Forest.rec (motive_1 := fun _ => True) with
  | leaf => trivial
  | node => trivial
  | nil => unfold set Forest.WF; exact ⟨by simp [keys], ht, by unfold Forest.WF; trivial⟩
  | cons k₁ t₁ rest _ ih =>
    unfold Forest.WF at h
    simp only [set]
    split
    · unfold Forest.WF; exact ⟨h.1, ht, h.2.2⟩
    · rename_i hk
      unfold Forest.WF
      refine ⟨?_, h.2.1, ih h.2.2⟩
      rw [keys_set]
      split
      · exact h.1
      · simp only [List.mem_append, List.mem_singleton, not_or]; exact ⟨h.1, hk⟩

end Forest

end TFMA
