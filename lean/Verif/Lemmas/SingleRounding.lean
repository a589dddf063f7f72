import Verif.Model.SliceKeys
import Mathlib.Data.Int.Log
import Mathlib.Algebra.Order.Field.Power
import Mathlib.Algebra.Order.Field.Rat
import Mathlib.Data.Rat.Floor
import Mathlib.Tactic.Linarith
import Mathlib.Tactic.NormNum
import Mathlib.Tactic.Positivity
import Mathlib.Tactic.Ring

/-!
A single precision rounding exists: truncation towards zero.
-/

namespace TFMA
namespace Slicer

/-- exponent used for a positive number. -/
def expo (q : ℚ) : ℤ := Int.log 2 q - 23

/-- truncation of a positive number. -/
def truncPos (q : ℚ) : ℚ := (⌊q / (2 : ℚ) ^ expo q⌋ : ℚ) * (2 : ℚ) ^ expo q

theorem scaled_bounds {q : ℚ} (hq : 0 < q) :
    (2 : ℚ) ^ 23 ≤ q / 2 ^ expo q ∧ q / 2 ^ expo q < 2 ^ 24 := by
  have h1 := Int.zpow_log_le_self (b := 2) (r := q) (by norm_num) hq
  have h2 := Int.lt_zpow_succ_log_self (b := 2) (by norm_num) q
  have hp : (0 : ℚ) < 2 ^ expo q := by positivity
  have e1 : (2 : ℚ) ^ Int.log 2 q = 2 ^ 23 * 2 ^ expo q := by
    rw [← zpow_natCast, ← zpow_add₀ (by norm_num)]; congr 1; unfold expo; push_cast; ring
  have e2 : (2 : ℚ) ^ (Int.log 2 q + 1) = 2 ^ 24 * 2 ^ expo q := by
    rw [← zpow_natCast, ← zpow_add₀ (by norm_num)]; congr 1; unfold expo; push_cast; ring
  push_cast at h1 h2
  rw [e1] at h1; rw [e2] at h2
  exact ⟨(le_div_iff₀ hp).mpr h1, (div_lt_iff₀ hp).mpr h2⟩

theorem floor_bounds {q : ℚ} (hq : 0 < q) :
    (2 : ℤ) ^ 23 ≤ ⌊q / (2 : ℚ) ^ expo q⌋ ∧ ⌊q / (2 : ℚ) ^ expo q⌋ < 2 ^ 24 := by
  obtain ⟨h1, h2⟩ := scaled_bounds hq
  constructor
  · rw [Int.le_floor]; exact_mod_cast h1
  · rw [Int.floor_lt]; exact_mod_cast h2

theorem truncPos_pos {q : ℚ} (hq : 0 < q) : 0 < truncPos q := by
  have := (floor_bounds hq).1
  have h : (0 : ℚ) < (⌊q / (2 : ℚ) ^ expo q⌋ : ℚ) := by
    have : (0 : ℤ) < ⌊q / (2 : ℚ) ^ expo q⌋ := lt_of_lt_of_le (by norm_num) this
    exact_mod_cast this
  unfold truncPos; positivity

theorem truncPos_single {q : ℚ} (hq : 0 < q) : Single (truncPos q) := by
  obtain ⟨h1, h2⟩ := floor_bounds hq
  refine ⟨_, _, ?_, rfl⟩
  rw [abs_of_nonneg (le_trans (by norm_num) h1)]; exact h2

theorem truncPos_le {q : ℚ} (_ : 0 < q) : truncPos q ≤ q := by
  have hp : (0 : ℚ) < 2 ^ expo q := by positivity
  unfold truncPos
  rw [← le_div_iff₀ hp]
  exact Int.floor_le _

theorem truncPos_greatest {q s : ℚ} (hq : 0 < q) (hs : Single s) (h0 : 0 < s) (hle : s ≤ q) :
    s ≤ truncPos q := by
  obtain ⟨m, f, hm, rfl⟩ := hs
  have hpf : (0 : ℚ) < 2 ^ f := by positivity
  have hp : (0 : ℚ) < 2 ^ expo q := by positivity
  have hm0 : (0 : ℚ) < m := by
    by_contra h
    have : (m : ℚ) * 2 ^ f ≤ 0 := mul_nonpos_of_nonpos_of_nonneg (by linarith) hpf.le
    linarith
  unfold truncPos
  by_cases hf : expo q ≤ f
  · obtain ⟨d, hd⟩ : ∃ d : ℕ, f = expo q + d := ⟨(f - expo q).toNat, by omega⟩
    have e : (m : ℚ) * 2 ^ f = ((m * 2 ^ d : ℤ) : ℚ) * 2 ^ expo q := by
      rw [hd, zpow_add₀ (by norm_num), zpow_natCast]; push_cast; ring
    rw [e] at hle ⊢
    apply mul_le_mul_of_nonneg_right _ hp.le
    have : m * 2 ^ d ≤ ⌊q / (2 : ℚ) ^ expo q⌋ := by
      rw [Int.le_floor, le_div_iff₀ hp]; exact hle
    exact_mod_cast this
  · have hlt : f ≤ expo q - 1 := by omega
    have h1 : (2 : ℚ) ^ f ≤ 2 ^ (expo q - 1) := zpow_le_zpow_right₀ (by norm_num) hlt
    have hm' : (m : ℚ) ≤ 2 ^ 24 := by
      have := (abs_lt.mp hm).2
      have h : (m : ℚ) < 2 ^ 24 := by exact_mod_cast this
      exact h.le
    have h2 : (m : ℚ) * 2 ^ f ≤ 2 ^ 24 * 2 ^ (expo q - 1) := mul_le_mul hm' h1 hpf.le (by positivity)
    have h3 : (2 : ℚ) ^ 24 * 2 ^ (expo q - 1) = 2 ^ 23 * 2 ^ expo q := by
      rw [zpow_sub₀ (by norm_num), zpow_one]; ring
    rw [h3] at h2
    refine h2.trans (mul_le_mul_of_nonneg_right ?_ hp.le)
    exact_mod_cast (floor_bounds hq).1

theorem single_neg {q : ℚ} (h : Single q) : Single (-q) := by
  obtain ⟨m, e, hm, rfl⟩ := h
  exact ⟨-m, e, by rwa [abs_neg], by push_cast; ring⟩

/-- truncation towards zero. -/
def trunc (q : ℚ) : ℚ := if 0 < q then truncPos q else if q < 0 then -truncPos (-q) else 0

theorem truncPos_mono {a b : ℚ} (ha : 0 < a) (h : a ≤ b) : truncPos a ≤ truncPos b :=
  truncPos_greatest (lt_of_lt_of_le ha h) (truncPos_single ha) (truncPos_pos ha)
    ((truncPos_le ha).trans h)

theorem truncPos_fix {q : ℚ} (hq : 0 < q) (h : Single q) : truncPos q = q :=
  le_antisymm (truncPos_le hq) (truncPos_greatest hq h hq le_rfl)

theorem trunc_fix {q : ℚ} (h : Single q) : trunc q = q := by
  unfold trunc
  split
  · exact truncPos_fix ‹_› h
  · split
    · rw [truncPos_fix (by linarith) (single_neg h)]; ring
    · linarith

/-- Truncation is a single precision rounding, so `SingleRounding` is inhabited. -/
def truncRounding : SingleRounding where
  round := trunc
  single := by
    intro q
    unfold trunc
    split
    · exact truncPos_single ‹_›
    · split
      · exact single_neg (truncPos_single (by linarith))
      · exact ⟨0, 0, by norm_num, by norm_num⟩
  fix := fun q h => trunc_fix h
  mono := by
    intro a b h
    unfold trunc
    by_cases ha : 0 < a
    · rw [if_pos ha, if_pos (lt_of_lt_of_le ha h)]
      exact truncPos_mono ha h
    · rw [if_neg ha]
      by_cases hb : 0 < b
      · rw [if_pos hb]
        have := truncPos_pos hb
        split
        · have := truncPos_pos (q := -a) (by linarith); linarith
        · exact this.le
      · rw [if_neg hb]
        by_cases ha' : a < 0
        · rw [if_pos ha']
          by_cases hb' : b < 0
          · rw [if_pos hb']
            have := truncPos_mono (a := -b) (b := -a) (by linarith) (by linarith)
            linarith
          · rw [if_neg hb']
            have := truncPos_pos (q := -a) (by linarith); linarith
        · rw [if_neg ha', if_neg (by intro h'; exact ha' (lt_of_le_of_lt h h'))]

end Slicer
end TFMA
