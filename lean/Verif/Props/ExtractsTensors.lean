import Verif.Props.Extracts
import Mathlib.Data.List.Forall2

/-!
# C13: which sparse and ragged values are split and merged, and what merging them gives
-/

namespace TFMA
namespace Extracts

open VarLen Tensors

variable {α : Type}

/-! ### specification -/

/-- The sparse tensor a value stands for: itself, or for one of variable length the tensor with an entry in row `p.1` and column `p.2` for
each of its positions. -/
inductive Stands : Leaf α → Sparse α → Prop
  | sparse (t : Sparse α) : Stands (.sparse t) t
  | varlen (v : VarLenTensorValue α) (ix : List (List ℕ)) (h : List.Forall₂ (fun p i => i.length = 2 ∧ i[0]? = some p.1 ∧ i[1]? = some p.2) v.indices ix) :
      Stands (.varlen v) ⟨v.values, ix, v.denseShape⟩

/-- One index for each value, with one number for each dimension. -/
def WellFormed (t : Sparse α) : Prop := t.indices.length = t.values.length ∧ ∀ ix ∈ t.indices, ix.length = t.denseShape.length

/-! ### proofs -/

private theorem forall₂_pairs (l : List (ℕ × ℕ)) (ix : List (List ℕ)) :
    List.Forall₂ (fun p i => i.length = 2 ∧ i[0]? = some p.1 ∧ i[1]? = some p.2) l ix ↔ ix = l.map fun p => [p.1, p.2] := by
  induction l generalizing ix with
  | nil =>
    constructor
    · intro h; cases h; rfl
    · rintro rfl; exact .nil
  | cons p l ih =>
    constructor
    · intro h
      cases h with
      | cons h1 h2 =>
        rename_i i is
        rw [(ih is).1 h2]
        obtain ⟨a, b, c⟩ := h1
        match i, a, b, c with
        | [x, y], _, b, c =>
          simp at b c
          simp [b, c]
    · rintro rfl
      exact .cons ⟨rfl, rfl, rfl⟩ ((ih _).2 rfl)

private theorem stands_iff (l : Leaf α) (t : Sparse α) : Stands l t ↔ asSparse? l = some t := by
  constructor
  · intro h
    cases h with
    | sparse => rfl
    | varlen v ix h => rw [(forall₂_pairs _ _).1 h]; rfl
  · intro h
    cases l with
    | sparse u => cases h; exact .sparse _
    | varlen v => cases h; exact .varlen v _ ((forall₂_pairs _ _).2 rfl)
    | none => cases h
    | nd _ _ => cases h
    | ragged _ => cases h
    | object => cases h

private theorem forall₂_iff {β γ : Type} {P Q : β → γ → Prop} (h : ∀ a b, P a b ↔ Q a b) (xs : List β) (ys : List γ) :
    List.Forall₂ P xs ys ↔ List.Forall₂ Q xs ys :=
  ⟨fun H => H.imp fun a b => (h a b).1, fun H => H.imp fun a b => (h a b).2⟩

private theorem allSome_iff {β γ : Type} (f : β → Option γ) (xs : List β) (ys : List γ) :
    allSome f xs = some ys ↔ List.Forall₂ (fun x y => f x = some y) xs ys := by
  induction xs generalizing ys with
  | nil =>
    constructor
    · intro h; cases h; exact .nil
    · intro h; cases h; rfl
  | cons x xs ih =>
    unfold allSome
    constructor
    · intro h
      cases hx : f x with
      | none => rw [hx] at h; cases h
      | some a =>
        cases hs : allSome f xs with
        | none => rw [hx, hs] at h; cases h
        | some as => rw [hx, hs] at h; cases h; exact .cons hx ((ih as).1 hs)
    · intro h
      cases h with
      | cons h1 h2 => rw [h1, (ih _).2 h2]

private theorem sparseOk_iff (t : Sparse α) : sparseOk t = true ↔ WellFormed t := by
  unfold sparseOk WellFormed
  simp only [Bool.and_eq_true, decide_eq_true_eq, List.all_eq_true]

private theorem placed_zipIdx (ts : List (Sparse α)) (k : ℕ) :
    placed k ts = (ts.zipIdx k).flatMap fun p => (p.1.indices.zip p.1.values).map fun e => (p.2 :: e.1, e.2) := by
  induction ts generalizing k with
  | nil => rfl
  | cons t ts ih => simp only [placed, List.zipIdx_cons, List.flatMap_cons, ih]

private theorem mergeSparse_iff (ts : List (Sparse α)) (r : Sparse α) (h : mergeSparse ts = .ok r) :
    ts ≠ [] ∧ (∀ t ∈ ts, WellFormed t) ∧ (∀ t ∈ ts, ∀ u ∈ ts, t.denseShape.length = u.denseShape.length) ∧
    (r.indices.zip r.values).Perm ((ts.zipIdx).flatMap fun p => (p.1.indices.zip p.1.values).map fun e => (p.2 :: e.1, e.2)) := by
  cases ts with
  | nil => cases h
  | cons t ts =>
    simp only [mergeSparse] at h
    split at h
    · cases h
    next h1 =>
      split at h
      · cases h
      next h2 =>
        cases h
        simp only [Bool.not_eq_true, Bool.not_eq_false', List.all_eq_true, sparseOk_iff] at h1
        simp only [Bool.not_eq_true, Bool.not_eq_false', List.all_eq_true, decide_eq_true_eq] at h2
        refine ⟨by simp, h1, ?_, ?_⟩
        · have h3 : ∀ u ∈ t :: ts, u.denseShape.length = t.denseShape.length := by
            intro u hu
            rcases List.mem_cons.1 hu with rfl | hu
            · rfl
            · exact h2 u hu
          exact fun u hu w hw => (h3 u hu).trans (h3 w hw).symm
        · rw [← placed_zipIdx]
          simp only [List.zip_map', List.map_id']
          exact List.perm_insertionSort _ _

private theorem mergeSparse_ok (ts : List (Sparse α)) (h0 : ts ≠ []) (h1 : ∀ t ∈ ts, WellFormed t)
    (h2 : ∀ t ∈ ts, ∀ u ∈ ts, t.denseShape.length = u.denseShape.length) : ∃ r, mergeSparse ts = .ok r := by
  cases ts with
  | nil => exact absurd rfl h0
  | cons t ts =>
    simp only [mergeSparse]
    rw [if_neg, if_neg]
    · exact ⟨_, rfl⟩
    · simp only [Bool.not_eq_true, Bool.not_eq_false', List.all_eq_true, decide_eq_true_eq]
      exact fun u hu => h2 u (by simp [hu]) t (by simp)
    · simp only [Bool.not_eq_true, Bool.not_eq_false', List.all_eq_true, sparseOk_iff]
      exact h1

/-- **C13** (which sparse values are merged). Values of which the first is sparse are merged if and only if all of them are sparse or of
variable length, each has one index of the right size for each value, and all have the same number of dimensions. -/
theorem C13_sparse_accepted (squeeze : Bool) (t : Sparse α) (ls : List (Leaf α)) :
    (∃ r, mergeLeaf squeeze (.sparse t :: ls) = .ok r) ↔
      ∃ ts, List.Forall₂ Stands (.sparse t :: ls) ts ∧ (∀ u ∈ ts, WellFormed u) ∧
        ∀ u ∈ ts, ∀ w ∈ ts, u.denseShape.length = w.denseShape.length := by
  have hf : ∀ ts, List.Forall₂ Stands (.sparse t :: ls) ts ↔ allSome asSparse? (.sparse t :: ls) = some ts := by
    intro ts
    rw [allSome_iff]
    exact forall₂_iff stands_iff _ _
  unfold mergeLeaf
  rw [if_pos (by rfl)]
  constructor
  · rintro ⟨r, h⟩
    cases hs : allSome asSparse? (.sparse t :: ls) with
    | none => rw [hs] at h; cases h
    | some ts =>
      rw [hs] at h
      simp only at h
      cases hm : mergeSparse ts with
      | error e => rw [hm] at h; cases h
      | ok r' =>
        obtain ⟨-, h1, h2, -⟩ := mergeSparse_iff ts r' hm
        exact ⟨ts, (hf ts).2 hs, h1, h2⟩
  · rintro ⟨ts, h1, h2, h3⟩
    have hne : ts ≠ [] := by rintro rfl; cases h1
    obtain ⟨r, hr⟩ := mergeSparse_ok ts hne h2 h3
    exact ⟨.sparse r, by rw [(hf ts).1 h1]; simp only [hr]⟩

/-- **C13** (what sparse values are merged to). The entries of the merged tensor are those of the values, each with the place of its value
put before its index. -/
theorem C13_sparse_entries (squeeze : Bool) (t : Sparse α) (ls : List (Leaf α)) (r : Leaf α)
    (h : mergeLeaf squeeze (.sparse t :: ls) = .ok r) (ts : List (Sparse α)) (hts : List.Forall₂ Stands (.sparse t :: ls) ts) :
    ∃ s, r = .sparse s ∧ (s.indices.zip s.values).Perm
      ((ts.zipIdx).flatMap fun p => (p.1.indices.zip p.1.values).map fun e => (p.2 :: e.1, e.2)) := by
  have hs : allSome asSparse? (.sparse t :: ls) = some ts := by
    rw [allSome_iff]
    exact (forall₂_iff stands_iff _ _).1 hts
  unfold mergeLeaf at h
  rw [if_pos (by rfl), hs] at h
  simp only at h
  cases hm : mergeSparse ts with
  | error e => rw [hm] at h; cases h
  | ok r' =>
    rw [hm] at h
    cases h
    exact ⟨r', rfl, (mergeSparse_iff ts r' hm).2.2.2⟩

example : mergeLeaf false [.sparse ⟨[7], [[0, 2]], [1, 3]⟩, .varlen ⟨[8], [(1, 0)], [2, 1]⟩] =
    .ok (.sparse (⟨[7, 8], [[0, 0, 2], [1, 1, 0]], [2, 2, 3]⟩ : Sparse ℕ)) := by rfl

example : mergeLeaf false [.sparse (⟨[7], [], [1, 3]⟩ : Sparse ℕ)] = .error .valueError := by rfl

private theorem raggedOk_iff (v : List α) (ss : List (List ℕ)) : raggedOk v ss = true ↔ ∃ n, RaggedBatch v ss n := by
  constructor
  · intro h
    suffices H : RaggedBatch v ss (nrows v ss) from ⟨_, H⟩
    induction ss with
    | nil => rfl
    | cons s rest ih =>
      obtain ⟨h1, h2⟩ := (raggedOk_cons v s rest).1 h
      refine ⟨?_, _, h1, ih h2⟩
      have : s ≠ [] := by
        rintro rfl
        have := h1.1
        cases this
      have := List.length_pos_of_ne_nil this
      simp only [nrows]
      omega
  · rintro ⟨n, h⟩
    exact h.ok.1

/-- **C13** (which ragged values are split). A ragged value is split if and only if its row splits fit each other and the values. -/
theorem C13_ragged_accepted (keep expand : Bool) (t : Ragged α) :
    (∃ rows, rowsOf keep expand (.ragged t) = .ok rows) ↔ ∃ n, RaggedBatch t.values t.splits n := by
  rw [← raggedOk_iff]
  by_cases h : raggedOk t.values t.splits = true
  · simp only [rowsOf, h, Bool.not_true, Bool.false_eq_true, if_false, iff_true]
    split <;> exact ⟨_, rfl⟩
  · simp [rowsOf, h]

example : rowsOf false false (.ragged (⟨[1, 2], [[0, 1]]⟩ : Ragged ℕ)) = .error .runtimeError := by rfl

/-- **C13** (which ragged values are merged). Ragged values are merged if and only if all values are ragged with at least one and the same
number of ragged dimensions, and the row splits of each fit. -/
theorem C13_ragged_merge_accepted (squeeze : Bool) (t : Ragged α) (ls : List (Leaf α)) :
    (∃ r, mergeLeaf squeeze (.ragged t :: ls) = .ok r) ↔
      ∃ ts : List (Ragged α), Leaf.ragged t :: ls = ts.map Leaf.ragged ∧ (∀ u ∈ ts, (∃ n, RaggedBatch u.values u.splits n) ∧ u.splits ≠ []) ∧
        ∀ u ∈ ts, ∀ w ∈ ts, u.splits.length = w.splits.length := by
  have hf : ∀ (l : List (Leaf α)) (ts : List (Ragged α)), allSome asRagged? l = some ts ↔ l = ts.map Leaf.ragged := by
    intro l ts
    rw [allSome_iff]
    constructor
    · intro h
      induction h with
      | nil => rfl
      | cons h1 _ ih =>
        rename_i a b _ _ _
        rw [ih]
        cases a <;> cases h1
        rfl
    · rintro rfl
      induction ts with
      | nil => exact .nil
      | cons u ts ih => exact .cons rfl ih
  unfold mergeLeaf
  rw [if_neg (by simp), if_pos (by simp [asRagged?])]
  constructor
  · rintro ⟨r, h⟩
    cases hs : allSome asRagged? (.ragged t :: ls) with
    | none => rw [hs] at h; cases h
    | some ts =>
      rw [hs] at h
      refine ⟨ts, (hf _ _).1 hs, ?_⟩
      cases ts with
      | nil => cases h
      | cons u us =>
        simp only [mergeRagged] at h
        split at h
        · cases h
        next r' hr =>
          split at hr
          · cases hr
          next h1 =>
            split at hr
            · cases hr
            next h2 =>
              simp only [Bool.not_eq_true, Bool.not_eq_false', List.all_eq_true, raggedOk_iff] at h1
              simp only [not_or, Bool.not_eq_true, Bool.not_eq_false', List.all_eq_true, decide_eq_true_eq] at h2
              have h3 : ∀ w ∈ u :: us, w.splits.length = u.splits.length := by
                intro w hw
                rcases List.mem_cons.1 hw with rfl | hw
                · rfl
                · exact h2.2 w hw
              refine ⟨fun w hw => ⟨h1 w hw, ?_⟩, fun w hw z hz => (h3 w hw).trans (h3 z hz).symm⟩
              intro he
              have := h3 w hw
              rw [he] at this
              exact h2.1 (List.eq_nil_of_length_eq_zero this.symm)
  · rintro ⟨ts, h1, h2, h3⟩
    rw [(hf _ _).2 h1]
    cases ts with
    | nil => cases h1
    | cons u us =>
      simp only [mergeRagged]
      rw [if_neg, if_neg]
      · exact ⟨_, rfl⟩
      · simp only [not_or, Bool.not_eq_true, Bool.not_eq_false', List.all_eq_true, decide_eq_true_eq]
        exact ⟨(h2 u (by simp)).2, fun w hw => h3 w (by simp [hw]) u (by simp)⟩
      · simp only [Bool.not_eq_true, Bool.not_eq_false', List.all_eq_true, raggedOk_iff]
        exact fun w hw => (h2 w hw).1

example : ∃ r, mergeLeaf false [.ragged (⟨[1, 2], [[0, 1, 2]]⟩ : Ragged ℕ), .ragged ⟨[], [[0]]⟩] = .ok r := ⟨_, rfl⟩

end Extracts
end TFMA
