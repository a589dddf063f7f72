import Verif.Model.Inputs
import Mathlib.Tactic.Linarith
import Mathlib.Tactic.Ring
import Mathlib.Algebra.BigOperators.Group.List.Basic
import Mathlib.Data.List.Range

/-!
# C27, C28: fractional labels and one-hot vectors
-/

namespace TFMA
namespace Inputs

/-! ### C27 -/

theorem mathIsClose_zero (w : ℚ) : mathIsClose w 0 = true ↔ w = 0 := by
  unfold mathIsClose
  simp only [sub_zero, abs_zero, decide_eq_true_eq]
  constructor
  · intro h
    have h0 := abs_nonneg w
    rw [max_eq_left h0] at h
    have : |w| = 0 := by linarith
    exact abs_eq_zero.1 this
  · rintro rfl
    simp

/-- C27: splitting preserves the total weight and the weighted label, every part has the prediction, the label 0 or 1
and a weight other than zero, and the order is negative before positive. -/
theorem C27_preserves (l w : ℚ) (p : Arr Fl) (hl : 0 ≤ l ∧ l ≤ 1) :
    ∃ parts : List (ℚ × ℚ),
      fractionalLabels ⟨one l, p, one w⟩ = .ok (parts.map fun lw => ⟨one lw.1, p, one lw.2⟩) ∧
      (parts.map Prod.snd).sum = w ∧
      (parts.map fun lw => lw.2 * lw.1).sum = w * l ∧
      (∀ lw ∈ parts, lw.2 ≠ 0 ∧ (lw.1 = 0 ∨ lw.1 = 1)) ∧
      parts.length ≤ 2 ∧ (parts.map Prod.fst).Pairwise (· < ·) := by
  have hin : withinInterval l 0 1 = true := by
    unfold withinInterval epsilon
    simp only [Bool.and_eq_true, decide_eq_true_eq]
    constructor <;> linarith
  refine ⟨[((0 : ℚ), w * (1 - l)), (1, w * l)].filter fun lw => !mathIsClose lw.2 0, ?_, ?_, ?_, ?_, ?_, ?_⟩
  · simp only [fractionalLabels, one, hin]
    rfl
  · by_cases h1 : w * (1 - l) = 0 <;> by_cases h2 : w * l = 0 <;>
      simp only [List.filter_cons, List.filter_nil, (mathIsClose_zero _).2, h1, h2] <;>
      simp [mathIsClose_zero, ← Bool.not_eq_true, h1, h2] <;> linarith
  · by_cases h1 : w * (1 - l) = 0 <;> by_cases h2 : w * l = 0 <;>
      simp [List.filter_cons, mathIsClose_zero, ← Bool.not_eq_true, h1, h2]
  · intro lw hlw
    have := List.mem_filter.1 hlw
    refine ⟨?_, ?_⟩
    · intro h
      have h2 := this.2
      rw [(mathIsClose_zero lw.2).2 h] at h2
      simp at h2
    · have h1 := this.1
      simp only [List.mem_cons, List.not_mem_nil, or_false] at h1
      rcases h1 with rfl | rfl
      · left; rfl
      · right; rfl
  · exact (List.length_filter_le _ _).trans (by simp)
  · apply List.Pairwise.sublist (l₂ := [0, 1])
    · exact (List.filter_sublist).map Prod.fst
    · simp

/-- C27: a label further than the tolerance 1e-7 outside [0, 1] is rejected, everything else is accepted. -/
theorem C27_rejects_iff (l w : ℚ) (p : Arr Fl) :
    fractionalLabels ⟨one l, p, one w⟩ = .error .valueError ↔ l < -1/10000000 ∨ 1 + 1/10000000 < l := by
  simp only [fractionalLabels, one]
  by_cases h : withinInterval l 0 1 = true
  · simp only [h, Bool.not_true]
    unfold withinInterval epsilon at h
    simp only [Bool.and_eq_true, decide_eq_true_eq] at h
    constructor
    · intro h'; simp at h'
    · rintro (h' | h') <;> (exfalso; linarith [h.1, h.2])
  · have hf : withinInterval l 0 1 = false := by simpa using h
    simp only [hf, Bool.not_false, if_true]
    unfold withinInterval epsilon at h
    simp only [Bool.and_eq_true, decide_eq_true_eq, not_and_or, not_le] at h
    constructor
    · intro _
      rcases h with h | h
      · left; linarith
      · right; linarith
    · intro _; trivial

/-- C27 (boundary): a label within the tolerance but outside [0, 1] is split into a part of negative weight. -/
theorem C27_negative_weight :
    fractionalLabels ⟨one (1 + 1/100000000), one (.fin (1/2)), one 1⟩ =
      .ok [⟨one 0, one (.fin (1/2)), one (-1/100000000)⟩, ⟨one 1, one (.fin (1/2)), one (1 + 1/100000000)⟩] := by
  decide +kernel

example : fractionalLabels ⟨one (1/4), one (.fin (1/2)), one 4⟩ =
    .ok [⟨one 0, one (.fin (1/2)), one 3⟩, ⟨one 1, one (.fin (1/2)), one 1⟩] := by decide +kernel

/-! ### C28 -/

/-- Vector of `n` values with a one at `i` (all zeros if `i` is no class). -/
def hot (n : ℕ) (i : ℤ) : List ℚ := (List.range n).map fun (c : ℕ) => if (c : ℤ) = i then 1 else 0

theorem toInt_int (c : ℤ) : toInt c = c := by
  unfold toInt
  split <;> simp

theorem mapE_ok {β γ : Type} (f : β → Except Err γ) (g : β → γ) (xs : List β) (h : ∀ x ∈ xs, f x = .ok (g x)) :
    mapE f xs = .ok (xs.map g) := by
  induction xs with
  | nil => rfl
  | cons x xs ih =>
    simp only [mapE, h x (by simp), ih fun y hy => h y (by simp [hy])]
    rfl

theorem mapE_error {β γ : Type} (f : β → Except Err γ) (xs : List β) (h : ∃ x ∈ xs, ∃ e, f x = .error e) :
    ∃ e, mapE f xs = .error e := by
  induction xs with
  | nil => obtain ⟨x, hx, -⟩ := h; cases hx
  | cons x xs ih =>
    simp only [mapE]
    cases hx : f x with
    | error e => exact ⟨e, rfl⟩
    | ok y =>
      obtain ⟨z, hz, e, he⟩ := h
      rcases List.mem_cons.1 hz with rfl | hz
      · rw [hx] at he; cases he
      · obtain ⟨e', he'⟩ := ih ⟨z, hz, e, he⟩
        rw [he']
        exact ⟨e', rfl⟩

private theorem eyeRow_ok (n : ℕ) (i : ℤ) (h : -(n : ℤ) ≤ i ∧ i < n) :
    eyeRow n i = .ok (hot n (if i < 0 then i + n else i)) := by
  unfold eyeRow hot
  simp only
  rw [if_neg]
  split <;> omega

private theorem hot_dropLast (n : ℕ) (i : ℤ) : (hot (n + 1) i).dropLast = hot n i := by
  unfold hot
  rw [List.range_succ, List.map_append, List.map_cons, List.map_nil, List.dropLast_concat]

private theorem hot_length (n : ℕ) (i : ℤ) : (hot n i).length = n := by simp [hot]

private theorem flatMap_length (n : ℕ) (cs : List ℤ) (f : ℤ → ℤ) :
    (cs.flatMap fun c => hot n (f c)).length = cs.length * n := by
  induction cs with
  | nil => simp
  | cons c cs ih => simp only [List.flatMap_cons, List.length_append, hot_length, ih, List.length_cons]; ring

/-- What one_hot does with every label that it accepts. -/
theorem oneHot_eq (shape : List ℕ) (cs : List ℤ) (s : List ℕ) (n : ℕ) (hlen : cs.length = s.prod)
    (hc : ∀ c ∈ cs, -(n : ℤ) - 1 ≤ c ∧ c ≤ n) :
    oneHot ⟨shape, cs.map (fun c : ℤ => (c : ℚ))⟩ (s ++ [n]) =
      .ok ⟨s ++ [n], cs.flatMap fun c => hot n (if c < 0 then c + n + 1 else c)⟩ := by
  unfold oneHot
  rw [List.getLast?_concat]
  have h1 : mapE (fun x => eyeRow (n + 1) (toInt x)) (cs.map fun c : ℤ => (c : ℚ)) =
      .ok ((cs.map fun c : ℤ => (c : ℚ)).map fun x => hot (n + 1) (if toInt x < 0 then toInt x + n + 1 else toInt x)) := by
    apply mapE_ok
    intro x hx
    obtain ⟨c, hc', rfl⟩ := List.mem_map.1 hx
    have hb := hc c hc'
    rw [toInt_int, eyeRow_ok (n + 1) c (by push_cast; omega)]
    congr 2
    push_cast
    split <;> ring
  simp only [h1]
  have h2 : (List.map List.dropLast (List.map
      (fun x => hot (n + 1) (if toInt x < 0 then toInt x + n + 1 else toInt x)) (cs.map fun c : ℤ => (c : ℚ)))).flatten =
      cs.flatMap fun c => hot n (if c < 0 then c + n + 1 else c) := by
    rw [List.map_map, List.map_map, List.flatMap_def]
    congr 1
    apply List.map_congr_left
    intro c _
    simp only [Function.comp_apply, toInt_int, hot_dropLast]
  rw [h2]
  unfold Arr.reshape
  rw [if_pos]
  simp only [Arr.size]
  rw [flatMap_length n cs fun c => if c < 0 then c + n + 1 else c, hlen]
  simp

/-- C28 for labels -1 … n-1: each label becomes a vector with a single one at its index, all zeros for -1.  Missing:
the rejection of all other labels, see `C28_accepts_n` and `C28_wraps`. -/
theorem C28_one_hot_partial (shape : List ℕ) (cs : List ℤ) (s : List ℕ) (n : ℕ) (hlen : cs.length = s.prod)
    (hc : ∀ c ∈ cs, -1 ≤ c ∧ c < n) :
    oneHot ⟨shape, cs.map (fun c : ℤ => (c : ℚ))⟩ (s ++ [n]) = .ok ⟨s ++ [n], cs.flatMap (hot n)⟩ := by
  rw [oneHot_eq shape cs s n hlen (fun c h => by have := hc c h; omega)]
  congr 2
  rw [List.flatMap_def, List.flatMap_def]
  congr 1
  apply List.map_congr_left
  intro c h
  have := hc c h
  by_cases h0 : c < 0
  · have : c = -1 := by omega
    subst this
    rw [if_pos h0]
    unfold hot
    apply List.map_congr_left
    intro i hi
    have := List.mem_range.1 hi
    rw [if_neg (by omega), if_neg (by omega)]
  · rw [if_neg h0]

/-- `hot` has exactly one one for a class and none otherwise. -/
theorem C28_hot_spec (n : ℕ) (i : ℤ) :
    (hot n i).length = n ∧ (hot n i).sum = (if 0 ≤ i ∧ i < n then 1 else 0) ∧
      ∀ j : ℕ, j < n → (hot n i)[j]? = some (if (j : ℤ) = i then 1 else 0) := by
  refine ⟨hot_length n i, ?_, ?_⟩
  · induction n with
    | zero => simp only [hot, List.range_zero, List.map_nil, List.sum_nil]; rw [if_neg]; push_cast; omega
    | succ n ih =>
      have : (hot (n + 1) i) = hot n i ++ [if (n : ℤ) = i then 1 else 0] := by
        unfold hot; rw [List.range_succ, List.map_append]; rfl
      rw [this, List.sum_append, ih, List.sum_singleton]
      by_cases h : (n : ℤ) = i
      · rw [if_neg (by omega), if_pos h, if_pos (by push_cast; omega)]; ring
      · rw [if_neg h]
        by_cases h2 : 0 ≤ i ∧ i < n
        · rw [if_pos h2, if_pos (by push_cast; omega)]; ring
        · rw [if_neg h2, if_neg (by push_cast; omega)]; ring
  · intro j hj
    unfold hot
    rw [List.getElem?_map, List.getElem?_range hj]
    rfl

/-- C28: a label beyond n or below -(n+1) is rejected. -/
theorem C28_rejects_partial (shape : List ℕ) (cs : List ℤ) (s : List ℕ) (n : ℕ)
    (h : ∃ c ∈ cs, c < -(n : ℤ) - 1 ∨ n < c) :
    oneHot ⟨shape, cs.map (fun c : ℤ => (c : ℚ))⟩ (s ++ [n]) = .error .valueError := by
  unfold oneHot
  rw [List.getLast?_concat]
  obtain ⟨c, hc, hb⟩ := h
  obtain ⟨e, he⟩ := mapE_error (fun x => eyeRow (n + 1) (toInt x)) (cs.map fun c : ℤ => (c : ℚ))
    ⟨(c : ℚ), List.mem_map.2 ⟨c, hc, rfl⟩, .indexError, by
      simp only [toInt_int]
      unfold eyeRow
      simp only
      rw [if_pos]
      push_cast
      split <;> omega⟩
  simp only [he]

/-- The integer part of a number, rounding towards zero. -/
def IntegerPart (q : ℚ) (c : ℤ) : Prop := if 0 ≤ q then (c : ℚ) ≤ q ∧ q < c + 1 else q ≤ c ∧ (c : ℚ) - 1 < q

private theorem toInt_part {q : ℚ} {c : ℤ} (h : IntegerPart q c) : toInt q = c := by
  unfold IntegerPart at h
  unfold toInt
  by_cases h0 : 0 ≤ q
  · rw [if_pos h0] at h ⊢
    exact Int.floor_eq_iff.2 h
  · rw [if_neg h0] at h ⊢
    exact Int.ceil_eq_iff.2 ⟨h.2, h.1⟩

/-- C28: a label with a fraction counts as its integer part. -/
theorem C28_fraction (shape target : List ℕ) (qs : List ℚ) (cs : List ℤ) (h : List.Forall₂ IntegerPart qs cs) :
    oneHot ⟨shape, qs⟩ target = oneHot ⟨shape, cs.map (fun c : ℤ => (c : ℚ))⟩ target := by
  have : ∀ n : ℕ, mapE (fun x => eyeRow (n + 1) (toInt x)) qs =
      mapE (fun x => eyeRow (n + 1) (toInt x)) (cs.map fun c : ℤ => (c : ℚ)) := by
    intro n
    induction h with
    | nil => rfl
    | cons h1 _ ih => simp only [List.map_cons, mapE, ih, toInt_part h1, toInt_int]
  unfold oneHot
  cases target.getLast? with
  | none => rfl
  | some n => simp only [this]

/-- Non-vacuous: 1/2 counts as class 0, -1/2 too. -/
example : oneHot ⟨[2], [1 / 2, -(1 / 2)]⟩ [2, 3] = oneHot ⟨[2], [0, 0]⟩ [2, 3] := by
  have := C28_fraction [2] [2, 3] [1 / 2, -(1 / 2)] [0, 0] (by
    refine .cons ?_ (.cons ?_ .nil) <;> norm_num [IntegerPart])
  simpa using this

/-- C28 (negation): the label n, which is no class, is accepted as all zeros. -/
theorem C28_accepts_n (n : ℕ) : oneHot ⟨[1], [(n : ℚ)]⟩ [n] = .ok ⟨[n], List.replicate n 0⟩ := by
  have h := oneHot_eq [1] [(n : ℤ)] [] n rfl (by simp; omega)
  simp only [List.map_cons, List.map_nil, Int.cast_natCast, List.nil_append] at h
  rw [h]
  congr 2
  simp only [List.flatMap_cons, List.flatMap_nil, List.append_nil]
  rw [if_neg (by omega)]
  unfold hot
  rw [List.eq_replicate_iff]
  refine ⟨by simp, ?_⟩
  intro x hx
  obtain ⟨i, hi, rfl⟩ := List.mem_map.1 hx
  have := List.mem_range.1 hi
  rw [if_neg (by omega)]

/-- C28 (negation): a negative label -(m+2) marks the class n-1-m. -/
theorem C28_wraps (n m : ℕ) (h : m < n) :
    oneHot ⟨[1], [(-(m : ℚ) - 2)]⟩ [n] = .ok ⟨[n], hot n (n - 1 - m : ℕ)⟩ := by
  have h' := oneHot_eq [1] [-(m : ℤ) - 2] [] n rfl (by simp; omega)
  simp only [List.map_cons, List.map_nil, List.nil_append] at h'
  push_cast at h'
  rw [h']
  congr 2
  simp only [List.flatMap_cons, List.flatMap_nil, List.append_nil]
  congr 1
  rw [if_pos (by omega)]
  omega

/-- A batch of three labels, one of them unknown. -/
example : oneHot ⟨[3, 1], [2, -1, 0]⟩ [3, 3] = .ok ⟨[3, 3], [0, 0, 1, 0, 0, 0, 1, 0, 0]⟩ := by decide +kernel

end Inputs
end TFMA
