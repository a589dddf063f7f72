import Verif.Props.Combiners
import Mathlib.Algebra.BigOperators.Group.List.Basic
import Mathlib.Algebra.Order.BigOperators.Group.List
import Mathlib.Tactic.FieldSimp
import Mathlib.Tactic.Linarith
import Mathlib.Tactic.Positivity

/-!
# C23: squared Pearson correlation

The specification is the textbook one: covariance and variances are weighted sums of products of deviations from
the weighted means.  The code never computes deviations; it combines raw moments.
-/

namespace TFMA
namespace Combiners

open Beam

/-! ### Specification -/

/-- Weighted sum of `f`. -/
def wsum (ts : List Triple) (f : Triple → ℚ) : ℚ := (ts.map fun t => t.weight * f t).sum

/-- Total weight. -/
def wtotal (ts : List Triple) : ℚ := (ts.map fun t => t.weight).sum

/-- Weighted mean. -/
def wmean (ts : List Triple) (f : Triple → ℚ) : ℚ := wsum ts f / wtotal ts

/-- Weighted sum of products of deviations from the means (covariance times total weight). -/
def wcov (ts : List Triple) (f g : Triple → ℚ) : ℚ :=
  wsum ts fun t => (f t - wmean ts f) * (g t - wmean ts g)

/-! ### Lemmas -/

private theorem wsum_dev (ts : List Triple) (f g : Triple → ℚ) (a b : ℚ) :
    wsum ts (fun t => (f t - a) * (g t - b)) =
      wsum ts (fun t => f t * g t) - a * wsum ts g - b * wsum ts f + a * b * wtotal ts := by
  unfold wsum wtotal
  induction ts with
  | nil => simp
  | cons t ts ih => simp only [List.map_cons, List.sum_cons, ih]; ring

private theorem wcov_eq (ts : List Triple) (f g : Triple → ℚ) (h : wtotal ts ≠ 0) :
    wcov ts f g = wsum ts (fun t => f t * g t) - wsum ts f * wsum ts g / wtotal ts := by
  rw [wcov, wsum_dev, wmean, wmean]
  field_simp
  ring

private theorem wsum_nonneg (ts : List Triple) (f : Triple → ℚ) (hw : ∀ t ∈ ts, 0 ≤ t.weight)
    (hf : ∀ t, 0 ≤ f t) : 0 ≤ wsum ts f := by
  apply List.sum_nonneg
  intro x hx
  obtain ⟨t, ht, rfl⟩ := List.mem_map.1 hx
  exact mul_nonneg (hw t ht) (hf t)

private theorem wsum_quad (ts : List Triple) (u v : Triple → ℚ) (a c : ℚ) :
    wsum ts (fun t => (a * v t - c * u t) ^ 2) =
      a ^ 2 * wsum ts (fun t => v t * v t) - 2 * a * c * wsum ts (fun t => u t * v t) +
        c ^ 2 * wsum ts (fun t => u t * u t) := by
  unfold wsum
  induction ts with
  | nil => simp
  | cons t ts ih => simp only [List.map_cons, List.sum_cons, ih]; ring

/-- Weighted Cauchy–Schwarz. -/
private theorem cauchy (ts : List Triple) (u v : Triple → ℚ) (hw : ∀ t ∈ ts, 0 ≤ t.weight)
    (hu : 0 < wsum ts fun t => u t * u t) :
    (wsum ts fun t => u t * v t) ^ 2 ≤ (wsum ts fun t => u t * u t) * wsum ts fun t => v t * v t := by
  have h := wsum_nonneg ts (fun t => ((wsum ts fun t => u t * u t) * v t - (wsum ts fun t => u t * v t) * u t) ^ 2)
    hw (fun t => sq_nonneg _)
  rw [wsum_quad] at h
  nlinarith

/-! ### Theorems -/

/-- C23: for non-negative weights every execution over accepted data reports the squared weighted correlation
`cov² / (var · var)`, and NaN exactly when there is no weight or one of the variances vanishes. -/
theorem C23_value (data : List Flat) (ts : List Triple) (hd : allFlat data = some ts)
    (hw : ∀ t ∈ ts, 0 ≤ t.weight) (s : Sched _) (p : s.inputs.Perm data) :
    (pearsonCombiner.run s).toOption.map pearsonExtract = some
      (if wtotal ts = 0 ∨ wcov ts (·.label) (·.label) = 0 ∨ wcov ts (·.pred) (·.pred) = 0 then Fl.nan
       else .fin (wcov ts (·.label) (·.pred) ^ 2 /
          (wcov ts (·.label) (·.label) * wcov ts (·.pred) (·.pred)))) := by
  rw [C15_pearson_value data s p, hd]
  simp only [Option.map_some, Option.some.injEq]
  have hW : 0 ≤ wtotal ts := by
    apply List.sum_nonneg
    intro x hx
    obtain ⟨t, ht, rfl⟩ := List.mem_map.1 hx
    exact hw t ht
  by_cases h0 : wtotal ts = 0
  · have : ¬ (0 : ℚ) < wtotal ts := by rw [h0]; exact lt_irrefl _
    simp only [pearsonExtract]
    rw [if_neg (by simpa [wtotal] using this), if_pos (Or.inl h0)]
  · have hpos : 0 < wtotal ts := lt_of_le_of_ne hW (Ne.symm h0)
    have ex := wcov_eq ts (·.label) (·.label) h0
    have ey := wcov_eq ts (·.pred) (·.pred) h0
    have exy := wcov_eq ts (·.label) (·.pred) h0
    have vx : 0 ≤ wcov ts (·.label) (·.label) := wsum_nonneg ts _ hw fun t => mul_self_nonneg _
    have vy : 0 ≤ wcov ts (·.pred) (·.pred) := wsum_nonneg ts _ hw fun t => mul_self_nonneg _
    simp only [pearsonExtract]
    rw [if_pos (by simpa [wtotal] using hpos)]
    simp only [wsum, wtotal] at ex ey exy
    simp only [pow_two (List.sum _), ← ex, ← ey, ← exy]
    by_cases hx : wcov ts (·.label) (·.label) = 0
    · rw [if_neg (by rw [hx]; simp), if_pos (Or.inr (Or.inl hx))]
    · by_cases hy : wcov ts (·.pred) (·.pred) = 0
      · rw [if_neg (by rw [hy]; simp), if_pos (Or.inr (Or.inr hy))]
      · rw [if_pos (mul_pos (lt_of_le_of_ne vx (Ne.symm hx)) (lt_of_le_of_ne vy (Ne.symm hy))),
          if_neg (by tauto)]

/-- C23: for non-negative weights the reported value is NaN or lies between 0 and 1. -/
theorem C23_range (data : List Flat) (ts : List Triple) (hd : allFlat data = some ts)
    (hw : ∀ t ∈ ts, 0 ≤ t.weight) (s : Sched _) (p : s.inputs.Perm data) (r : Fl)
    (hr : (pearsonCombiner.run s).toOption.map pearsonExtract = some r) :
    r = .nan ∨ ∃ q : ℚ, r = .fin q ∧ 0 ≤ q ∧ q ≤ 1 := by
  rw [C23_value data ts hd hw s p] at hr
  split at hr
  · left; exact (Option.some.inj hr).symm
  · rename_i h
    right
    have vx : 0 ≤ wcov ts (·.label) (·.label) := wsum_nonneg ts _ hw fun t => mul_self_nonneg _
    have vy : 0 ≤ wcov ts (·.pred) (·.pred) := wsum_nonneg ts _ hw fun t => mul_self_nonneg _
    refine ⟨_, (Option.some.inj hr).symm, ?_, ?_⟩
    · exact div_nonneg (sq_nonneg _) (mul_nonneg vx vy)
    · apply div_le_one_of_le₀ _ (mul_nonneg vx vy)
      exact cauchy ts _ _ hw (lt_of_le_of_ne vx fun e => h (Or.inr (Or.inl e.symm)))

/-- C23: a prediction that is an affine function of the label (with non-zero slope) has correlation 1. -/
theorem C23_affine (data : List Flat) (ts : List Triple) (hd : allFlat data = some ts)
    (hw : ∀ t ∈ ts, 0 ≤ t.weight) (s : Sched _) (p : s.inputs.Perm data) (a b : ℚ) (ha : a ≠ 0)
    (haff : ∀ t ∈ ts, t.pred = a * t.label + b)
    (h0 : wtotal ts ≠ 0) (hx : wcov ts (·.label) (·.label) ≠ 0) :
    (pearsonCombiner.run s).toOption.map pearsonExtract = some (.fin 1) := by
  have sums : ∀ f : Triple → ℚ → ℚ, wsum ts (fun t => f t t.pred) = wsum ts (fun t => f t (a * t.label + b)) := by
    intro f
    unfold wsum
    congr 1
    apply List.map_congr_left
    intro t ht
    simp only [haff t ht]
  have aff : wsum ts (fun t => a * t.label + b) = a * wsum ts (·.label) + b * wtotal ts := by
    unfold wsum wtotal
    clear * -
    induction ts with
    | nil => simp
    | cons t ts ih => simp only [List.map_cons, List.sum_cons, ih]; ring
  have hmean : wmean ts (·.pred) = a * wmean ts (·.label) + b := by
    unfold wmean
    rw [sums (fun _ x => x), aff]
    field_simp
  have sc : ∀ (c : ℚ) (g : Triple → ℚ), wsum ts (fun t => c * g t) = c * wsum ts g := by
    intro c g
    unfold wsum
    clear * -
    induction ts with
    | nil => simp
    | cons t ts ih => simp only [List.map_cons, List.sum_cons, ih]; ring
  have exy : wcov ts (·.label) (·.pred) = a * wcov ts (·.label) (·.label) := by
    unfold wcov
    rw [hmean, sums (fun t x => (t.label - wmean ts (·.label)) * (x - (a * wmean ts (·.label) + b))), ← sc]
    congr 1
    funext t
    ring
  have eyy : wcov ts (·.pred) (·.pred) = a ^ 2 * wcov ts (·.label) (·.label) := by
    unfold wcov
    rw [hmean, sums (fun _ x => (x - (a * wmean ts (·.label) + b)) * (x - (a * wmean ts (·.label) + b))), ← sc]
    congr 1
    funext t
    ring
  rw [C23_value data ts hd hw s p, if_neg, exy, eyy]
  · congr 2
    field_simp
  · rw [eyy]
    rintro (h | h | h)
    · exact h0 h
    · exact hx h
    · rcases mul_eq_zero.1 h with h | h
      · exact ha (pow_eq_zero_iff (two_ne_zero) |>.1 h)
      · exact hx h

/-- A weighted data set with correlation strictly between 0 and 1, meeting the hypotheses. -/
example :
    (pearsonCombiner.run (.merge (.cons (.bundle [.ok [⟨1, 2, 1⟩]]) (.one (.bundle [.ok [⟨2, 4, 3⟩, ⟨0, 1, 1⟩]]))))).toOption.map
      pearsonExtract = some (.fin (625 / 640)) := by
  decide +kernel

example : allFlat ([.ok [⟨1, 2, 1⟩], .ok [⟨2, 4, 3⟩, ⟨0, 1, 1⟩]] : List Flat) = some [⟨1, 2, 1⟩, ⟨2, 4, 3⟩, ⟨0, 1, 1⟩] := by
  decide +kernel

/-- Without the hypothesis on weights the range claim fails: with a negative weight the value can exceed 1. -/
example :
    ((pearsonCombiner.run (.bundle [.ok [⟨-1, -1, 2⟩, ⟨-1, 0, 2⟩, ⟨0, 1, -1⟩]])).toOption.map
      pearsonExtract) = some (.fin (3 / 2)) := by
  decide +kernel

end Combiners
end TFMA
