import Verif.Props.SelfMerge
import Mathlib.Tactic.Linarith
import Mathlib.Tactic.Positivity
import Mathlib.Algebra.Order.Field.Basic

/-!
# C74: what is averaged by the prediction difference and regression error metrics
-/

namespace TFMA
namespace Combiners

open Beam

/-- Both the difference and the sum of the predictions are below the tolerance 1e-7. -/
def Tiny (b m : ℚ) : Prop := 2 * |b - m| < 1 / 10000000 ∧ |b + m| < 1 / 10000000

/-- **C74** (formula): twice the distance divided by the size of the sum. -/
theorem C74_symdiff_value (b m : ℚ) (h : b + m ≠ 0) (ht : ¬ Tiny b m) :
    symDiff b m = .fin (2 * |b - m| / |b + m|) := by
  unfold Tiny at ht
  unfold symDiff
  simp only
  rw [if_neg ht]
  simp [Fl.div, h]

/-- **C74** (tolerance). -/
theorem C74_symdiff_tiny (b m : ℚ) (ht : Tiny b m) : symDiff b m = .fin 0 := by
  unfold symDiff
  simp only
  exact if_pos ht

/-- **C74** (symmetry): candidate and baseline can be exchanged. -/
theorem C74_symdiff_symm (b m : ℚ) : symDiff b m = symDiff m b := by
  unfold symDiff
  rw [abs_sub_comm, add_comm]

/-- **C74** (range): for predictions that are not negative the difference is a number between 0 and 2, and it is 0 for equal
predictions. -/
theorem C74_symdiff_range (b m : ℚ) (hb : 0 ≤ b) (hm : 0 ≤ m) :
    ∃ q, symDiff b m = .fin q ∧ 0 ≤ q ∧ q ≤ 2 ∧ (b = m → q = 0) := by
  by_cases ht : Tiny b m
  · exact ⟨0, C74_symdiff_tiny b m ht, le_refl _, by norm_num, fun _ => rfl⟩
  · have hne : b + m ≠ 0 := by
      intro h0
      have hb0 : b = 0 := by linarith
      have hm0 : m = 0 := by linarith
      apply ht
      subst hb0; subst hm0
      unfold Tiny
      norm_num
    refine ⟨_, C74_symdiff_value b m hne ht, by positivity, ?_, ?_⟩
    · have hpos : 0 < |b + m| := abs_pos.2 hne
      rw [div_le_iff₀ hpos]
      have : |b - m| ≤ |b + m| := by
        rw [abs_of_nonneg (by linarith : 0 ≤ b + m), abs_le]
        constructor <;> linarith
      linarith
    · rintro rfl; simp

/-- **C74** (zero means agreement up to the tolerance). -/
theorem C74_symdiff_zero (b m : ℚ) (h : symDiff b m = .fin 0) : b = m ∨ Tiny b m := by
  by_cases ht : Tiny b m
  · exact .inr ht
  · left
    by_cases h0 : b + m = 0
    · exfalso
      unfold symDiff at h
      unfold Tiny at ht
      simp only at h
      rw [if_neg ht, h0] at h
      simp only [Fl.div, abs_zero, if_true] at h
      split at h
      · cases h
      · split at h <;> cases h
    · rw [C74_symdiff_value b m h0 ht] at h
      simp only [Fl.fin.injEq, div_eq_zero_iff, mul_eq_zero, abs_eq_zero, OfNat.ofNat_ne_zero, false_or] at h
      rcases h with h | h
      · linarith
      · exact absurd h h0

/-- **C74** (opposite predictions): the difference of `x` and `-x` is infinite, so the metric is only meaningful for
predictions of one sign. -/
theorem C74_symdiff_opposite (x : ℚ) (hx : 1 ≤ |x|) : symDiff x (-x) = .pinf := by
  have hne : x ≠ 0 := by rintro rfl; norm_num at hx
  have h1 : |x - -x| = 2 * |x| := by
    rw [show x - -x = 2 * x by ring, abs_mul]; norm_num
  unfold symDiff
  simp only [h1, add_neg_cancel, abs_zero]
  rw [if_neg (by rintro ⟨h, _⟩; linarith)]
  have hpos : (0 : ℚ) < 2 * (2 * |x|) := by linarith
  simp [Fl.div, hne]

/-- **C74** (errors): the absolute error is the distance, the squared error its square, and the percentage error the
distance in percent of the label, undefined exactly for label 0. -/
theorem C74_errors (l p : ℚ) :
    absError l p = some |p - l| ∧ sqError l p = some ((p - l) ^ 2) ∧
      (pctError l p = none ↔ l = 0) ∧ (l ≠ 0 → pctError l p = some (100 * |p - l| / |l|)) := by
  refine ⟨by rw [absError, abs_sub_comm], by rw [sqError, sq_abs]; congr 1; ring, ?_, ?_⟩
  · unfold pctError; split <;> simp_all
  · intro h
    unfold pctError
    rw [if_neg h, abs_div, abs_sub_comm, mul_div_assoc]

/-- **C74** (means): for weights that are not negative the mean error of any execution is undefined or not negative,
whether or not the runner passes collections that can be iterated repeatedly. -/
theorem C74_mean_error_nonneg (r : Bool) (err : ℚ → ℚ → Option ℚ) (herr : ∀ l p e, err l p = some e → 0 ≤ e)
    (s : Sched Flat) (hs : ∀ ts, .ok ts ∈ s.inputs → ∀ t ∈ ts, 0 ≤ t.weight) (a : RegAcc)
    (h : (regCombiner r err).run s = .ok a) : regExtract a = .nan ∨ ∃ q, regExtract a = .fin q ∧ 0 ≤ q := by
  have hinv : 0 ≤ a.weights ∧ 0 ≤ a.error := by
    have := run_rel (c := regCombiner r err)
      (P := fun (xs : List Flat) (a : RegAcc) => (∀ ts, .ok ts ∈ xs → ∀ t ∈ ts, 0 ≤ t.weight) → 0 ≤ a.weights ∧ 0 ≤ a.error)
      (fun _ => ⟨le_refl _, le_refl _⟩)
      (by
        intro xs a x b ha hb hw
        have ha' := ha fun ts hts => hw ts (by simp [hts])
        cases x with
        | error e => cases hb
        | ok ts =>
          have hts := hw ts (by simp)
          change loop _ a ts = .ok b at hb
          clear ha hw
          induction ts generalizing a with
          | nil => cases hb; exact ha'
          | cons t ts ih =>
            simp only [loop] at hb
            have ht := hts t (by simp)
            cases he : err t.label t.pred with
            | none =>
              rw [he] at hb
              exact ih a ha' (fun t' ht' => hts t' (by simp [ht'])) hb
            | some e =>
              rw [he] at hb
              refine ih _ ⟨add_nonneg ha'.1 ht, add_nonneg ha'.2 (mul_nonneg (herr _ _ _ he) ht)⟩
                (fun t' ht' => hts t' (by simp [ht'])) hb)
      (by
        intro l hl hp b hb hw
        have hall : ∀ x ∈ l.map Prod.snd, 0 ≤ x.weights ∧ 0 ≤ x.error := by
          intro x hx
          rw [List.mem_map] at hx
          obtain ⟨p, hpm, rfl⟩ := hx
          refine hp p hpm fun ts hts => hw ts ?_
          rw [List.mem_flatten]
          exact ⟨p.1, List.mem_map_of_mem hpm, hts⟩
        have hmerge : ∀ (ms : List RegAcc) (x : RegAcc), (0 ≤ x.weights ∧ 0 ≤ x.error) →
            (∀ y ∈ ms, 0 ≤ y.weights ∧ 0 ≤ y.error) →
            0 ≤ (ms.foldl RegAcc.merge x).weights ∧ 0 ≤ (ms.foldl RegAcc.merge x).error := by
          intro ms
          induction ms with
          | nil => intro x hx _; exact hx
          | cons y ms ih =>
            intro x hx hy
            exact ih _ ⟨add_nonneg hx.1 (hy y (by simp)).1, add_nonneg hx.2 (hy y (by simp)).2⟩
              fun z hz => hy z (by simp [hz])
        cases hms : l.map Prod.snd with
        | nil => exact absurd (List.map_eq_nil_iff.1 hms) hl
        | cons x ms =>
          rw [hms] at hall hb
          have hx := hall x (by simp)
          change selfMerge r RegAcc.merge (x :: ms) = .ok b at hb
          simp only [selfMerge, Except.ok.injEq] at hb
          subst hb
          refine hmerge _ x hx fun y hy => hall y ?_
          split at hy
          · exact hy
          · exact List.mem_cons_of_mem _ hy) s a h hs
    exact this
  unfold regExtract
  by_cases h0 : a.weights = 0
  · left; simp [h0]
  · right
    exact ⟨a.error / a.weights, by simp [h0], div_nonneg hinv.2 hinv.1⟩

example : symDiff 3 1 = .fin 1 ∧ symDiff 1 3 = .fin 1 ∧ symDiff 2 (-2) = .pinf ∧ symDiff 0 0 = .fin 0 ∧
    symDiff (1 / 100000000) (2 / 100000000) = .fin 0 ∧ ¬ Tiny 3 1 ∧ (3 : ℚ) + 1 ≠ 0 := by
  refine ⟨?_, ?_, ?_, ?_, ?_, ?_, by norm_num⟩ <;> first | decide +kernel | (unfold Tiny; norm_num)

example : pctError 4 3 = some 25 ∧ pctError 0 3 = none ∧ absError 4 3 = some 1 ∧ sqError 1 3 = some 4 := by
  decide +kernel

/-- The hypotheses of `C74_mean_error_nonneg`: a merged execution with a doubled first accumulator. -/
example : (regCombiner true absError).run (.merge (.cons (.bundle [.ok [⟨1, 3, 1⟩]]) (.one (.bundle [.ok [⟨1, 2, 1⟩]])))) =
    .ok ⟨3, 5⟩ := by decide +kernel

end Combiners
end TFMA
