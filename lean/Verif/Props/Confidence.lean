import Verif.Model.Confidence
import Verif.Lemmas.Combine
import Verif.Py.DictLemmas
import Mathlib.Tactic.Ring
import Mathlib.Tactic.FieldSimp
import Mathlib.Tactic.Linarith
import Mathlib.Tactic.NormNum
import Mathlib.Algebra.BigOperators.Group.List.Basic
import Mathlib.Algebra.BigOperators.Ring.List
import Mathlib.Algebra.Order.BigOperators.Group.List

/-!
# C41: the formulas of the jackknife and the bootstrap
-/

namespace TFMA
namespace Confidence

open Beam

variable {K : Type}

/-! ### Specification -/

/-- The average of a list of numbers. -/
noncomputable def avg (l : List ℝ) : ℝ := l.sum / l.length

/-- The sum of the squared deviations from the average. -/
noncomputable def ssd (l : List ℝ) : ℝ := (l.map fun v => (v - avg l) ^ 2).sum

theorem ssd_nonneg (l : List ℝ) : 0 ≤ ssd l := by
  apply List.sum_nonneg
  intro x hx
  obtain ⟨v, _, rfl⟩ := List.mem_map.1 hx
  exact sq_nonneg _

theorem avg_perm {l m : List ℝ} (p : l.Perm m) : avg l = avg m := by
  unfold avg; rw [p.sum_eq, p.length_eq]

theorem ssd_perm {l m : List ℝ} (p : l.Perm m) : ssd l = ssd m := by
  unfold ssd; rw [avg_perm p, (p.map _).sum_eq]

private theorem sum_map_sub' {T : Type} (l : List T) (f g : T → ℝ) :
    (l.map fun x => f x - g x).sum = (l.map f).sum - (l.map g).sum := by
  induction l with
  | nil => simp
  | cons x l ih => simp only [List.map_cons, List.sum_cons, ih]; ring

private theorem sum_pseudo (l : List ℝ) (a b : ℝ) : (l.map fun s => a - s * b).sum = l.length * a - l.sum * b := by
  induction l with
  | nil => simp
  | cons x l ih => simp only [List.map_cons, List.sum_cons, ih, List.length_cons]; push_cast; ring

private theorem foldl_add (xs : List ℝ) (x : ℝ) : xs.foldl (· + ·) x = x + xs.sum := by
  induction xs generalizing x with
  | nil => simp
  | cons y ys ih => rw [List.foldl_cons, ih, List.sum_cons]; ring

theorem sumFrom_eq (l : List ℝ) (h : l ≠ []) : sumFrom l = some l.sum := by
  cases l with
  | nil => exact absurd rfl h
  | cons x xs => simp only [sumFrom, foldl_add, List.sum_cons]

theorem meanAndStd_eq {l : List ℝ} (h : 2 ≤ l.length) :
    meanAndStd l 1 = .ok (avg l, Real.sqrt (ssd l / (l.length - 1))) := by
  have hne : l ≠ [] := by rintro rfl; simp at h
  have h1 : (l.length : ℤ) ≠ 0 := by omega
  have h2 : (l.length : ℤ) - 1 ≠ 0 := by omega
  unfold meanAndStd
  rw [sumFrom_eq l hne]
  simp only [divInt, h1, if_false, bind, Except.bind]
  rw [sumFrom_eq _ (by simpa using hne)]
  simp only [h2, if_false, pure, Except.pure]
  simp only [ssd, avg]
  norm_num

/-- C41: the mean that is reported is the average of the leave-one-out values, the standard error is the one of the
jackknife, `sqrt ((n - 1) / n * Σ (xᵢ - x̄)²)`, with `n - 1` degrees of freedom; the value of all the data is kept. -/
theorem C41_jackknife (n : ℕ) (hn : 2 ≤ n) (x : ℝ) (samples : List ℝ) (hs : samples.length = n) :
    jackknifeValue (K := K) n (.num x) samples = .ok (.dist
      { mean := avg samples, std := Real.sqrt ((n - 1) / n * ssd samples), dof := n - 1, unsampled := .num x }) := by
  subst hs
  have hne : samples ≠ [] := by rintro rfl; simp at hn
  have h1 : (samples.length : ℤ) ≠ 0 := by omega
  have hpos : (0 : ℝ) < samples.length := by exact_mod_cast (by omega : 0 < samples.length)
  have hpos1 : (0 : ℝ) < samples.length - 1 := by
    have : (2 : ℝ) ≤ samples.length := by exact_mod_cast hn
    linarith
  unfold jackknifeValue
  simp only
  rw [meanAndStd_eq (by simpa using hn)]
  simp only [bind, Except.bind]
  rw [sumFrom_eq _ hne]
  simp only [divInt, h1, if_false, pure, Except.pure, Except.ok.injEq, Out.dist.injEq, TDist.mk.injEq, and_true]
  refine ⟨by simp [avg], ?_⟩
  have hsum : (samples.map fun s => x * samples.length - s * ((samples.length : ℝ) - 1)).sum =
      samples.length * (x * samples.length) - samples.sum * (samples.length - 1) := by
    rw [sum_pseudo]
  have havg : avg (samples.map fun s => x * samples.length - s * ((samples.length : ℝ) - 1)) =
      x * samples.length - (samples.length - 1) * avg samples := by
    unfold avg
    rw [hsum, List.length_map]
    field_simp
  have hssd : ssd (samples.map fun s => x * samples.length - s * ((samples.length : ℝ) - 1)) =
      ((samples.length : ℝ) - 1) ^ 2 * ssd samples := by
    unfold ssd
    rw [havg, List.map_map, ← List.sum_map_mul_left]
    congr 1
    apply List.map_congr_left
    intro s _
    simp only [Function.comp]
    ring
  rw [hssd, List.length_map]
  rw [← Real.sqrt_div' _ hpos.le]
  congr 1
  field_simp

/-- C41: the average of the pseudo values `n * full - (n - 1) * leave-one-out` (the bias corrected jackknife estimate) is
reported as mean only if the leave-one-out values average to the full value. -/
theorem C41_pseudo_mean (n : ℕ) (hn : 2 ≤ n) (x : ℝ) (samples : List ℝ) (hs : samples.length = n) :
    avg (samples.map fun s => x * n - s * (n - 1)) = avg samples ↔ avg samples = x := by
  subst hs
  have hpos : (0 : ℝ) < samples.length := by exact_mod_cast (by omega : 0 < samples.length)
  have hsum : (samples.map fun s => x * samples.length - s * ((samples.length : ℝ) - 1)).sum =
      samples.length * (x * samples.length) - samples.sum * (samples.length - 1) := by
    rw [sum_pseudo]
  have havg : avg (samples.map fun s => x * samples.length - s * ((samples.length : ℝ) - 1)) =
      x * samples.length - (samples.length - 1) * avg samples := by
    unfold avg
    rw [hsum, List.length_map]
    field_simp
  rw [havg]
  constructor
  · intro h
    have : (samples.length : ℝ) * (avg samples - x) = 0 := by linarith
    rcases mul_eq_zero.1 this with h | h
    · exact absurd h hpos.ne'
    · linarith
  · intro h
    rw [h]; ring

/-- C41 (negation of the claim that the mean of the pseudo values is reported): for the full value 0 and two
leave-one-out values 1 the reported mean is 1 while the pseudo values average to -1. -/
theorem C41_not_pseudo_mean :
    (∃ d, jackknifeValue (K := K) 2 (.num 0) [1, 1] = .ok (.dist d) ∧ d.mean = 1) ∧
      avg ([1, 1].map fun s : ℝ => 0 * 2 - s * (2 - 1)) = -1 := by
  constructor
  · refine ⟨_, C41_jackknife 2 (by norm_num) 0 [1, 1] (by simp), ?_⟩
    simp [avg]
  · simp [avg]
    norm_num

private theorem flatten_length {m : ℕ} (bs : List (List ℝ)) (hm : ∀ b ∈ bs, b.length = m) :
    bs.flatten.length = bs.length * m := by
  induction bs with
  | nil => simp
  | cons b bs ih =>
    rw [List.flatten_cons, List.length_append, ih fun b hb => hm b (by simp [hb]), hm b (by simp)]
    simp; ring

private theorem sum_eraseIdx (bs : List (List ℝ)) (i : ℕ) :
    (bs.eraseIdx i).flatten.sum + (bs.getD i []).sum = bs.flatten.sum := by
  induction bs generalizing i with
  | nil => simp
  | cons b bs ih =>
    cases i with
    | zero => simp; ring
    | succ i =>
      simp only [List.eraseIdx_cons_succ, List.flatten_cons, List.sum_append, List.getD_cons_succ]
      rw [← ih i]; ring

private theorem sum_range_getD (bs : List (List ℝ)) :
    ((List.range bs.length).map fun i => (bs.getD i []).sum).sum = bs.flatten.sum := by
  induction bs with
  | nil => simp
  | cons b bs ih =>
    rw [List.length_cons, List.range_succ_eq_map]
    simp only [List.map_cons, List.map_map, List.sum_cons, List.flatten_cons, List.sum_append, List.getD_cons_zero]
    rw [← ih]
    congr 2

/-- C41: for the plain mean over buckets of equal size the reported mean is the mean of all the data. -/
theorem C41_plain_mean {m : ℕ} (bs : List (List ℝ)) (hm : ∀ b ∈ bs, b.length = m) (hpos : 0 < m) (hn : 2 ≤ bs.length) :
    avg ((List.range bs.length).map fun i => avg (bs.eraseIdx i).flatten) = avg bs.flatten := by
  have hm' : (0 : ℝ) < m := by exact_mod_cast hpos
  have hn1 : (0 : ℝ) < bs.length - 1 := by
    have : (2 : ℝ) ≤ bs.length := by exact_mod_cast hn
    linarith
  have hn0 : (0 : ℝ) < bs.length := by linarith
  have hloo : ∀ i ∈ List.range bs.length, avg (bs.eraseIdx i).flatten =
      (bs.flatten.sum - (bs.getD i []).sum) * (1 / ((bs.length - 1) * m)) := by
    intro i hi
    have hi : i < bs.length := List.mem_range.1 hi
    unfold avg
    rw [flatten_length _ (fun b hb => hm b ((List.eraseIdx_sublist bs i).subset hb)), List.length_eraseIdx_of_lt hi,
      ← sum_eraseIdx bs i]
    rw [Nat.cast_mul, Nat.cast_sub (by omega), Nat.cast_one]
    ring
  rw [List.map_congr_left hloo]
  unfold avg
  rw [List.sum_map_mul_right, sum_map_sub', sum_range_getD, flatten_length bs hm]
  simp only [List.length_map, List.length_range, List.map_const', List.sum_replicate, nsmul_eq_mul, Nat.cast_mul]
  field_simp

example : ([[1, 2], [3, 6]] : List (List ℝ)).length ≥ 2 ∧ ∀ b ∈ ([[1, 2], [3, 6]] : List (List ℝ)), b.length = 2 := by
  simp

/-- C41: the bootstrap reports the average and the standard deviation of the samples. -/
theorem C41_bootstrap (n : ℕ) (hn : 2 ≤ n) (v : MV K) (samples : List ℝ) (hs : samples.length = n) :
    bootstrapValue n v samples = .ok (.dist
      { mean := avg samples, std := Real.sqrt (ssd samples / (n - 1)), dof := n - 1, unsampled := v }) := by
  subst hs
  unfold bootstrapValue
  rw [meanAndStd_eq hn]
  rfl

/-- C41: with a single sample both methods raise. -/
theorem C41_one_sample (x s : ℝ) :
    jackknifeValue (K := K) 1 (.num x) [s] = .error .zeroDivisionError ∧
      bootstrapValue (K := K) 1 (.num x) [s] = .error .zeroDivisionError := by
  constructor <;>
    simp [jackknifeValue, bootstrapValue, meanAndStd, sumFrom, divInt, bind, Except.bind]

/-- C41: the interval of a value contains the reported mean in its middle. -/
theorem C41_interval (t : ℝ) (ht : 0 ≤ t) (d : TDist K) (hd : 0 ≤ d.std) :
    (interval t d).2.1 ≤ (interval t d).1 ∧ (interval t d).1 ≤ (interval t d).2.2 ∧
      (interval t d).1 - (interval t d).2.1 = (interval t d).2.2 - (interval t d).1 := by
  have := mul_nonneg hd ht
  unfold interval
  simp only
  exact ⟨by linarith, by linarith, by ring⟩

end Confidence
end TFMA
