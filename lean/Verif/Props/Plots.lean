import Verif.Model.Plots
import Verif.Props.HistogramMatrices
import Verif.Props.ConfusionMatrices
import Verif.Props.Histogram
import Verif.Props.Inputs
import Mathlib.Data.Finset.Card
import Mathlib.Data.Int.Interval
import Mathlib.Tactic.NormNum
import Mathlib.Tactic.FieldSimp
import Mathlib.Tactic.LinearCombination

/-!
# C103: confusion matrix plots
-/

namespace TFMA
namespace Plots

open Beam

/-! ### Rounding of the thresholds -/

/-- Rounding moves a value by at most one half. -/
theorem roundEven_near (x : ℚ) : |(roundEven x : ℚ) - x| ≤ 1 / 2 := by
  have h1 := Int.floor_le x
  have h2 := Int.lt_floor_add_one x
  unfold roundEven
  split_ifs <;> rw [abs_le] <;> push_cast <;> constructor <;> linarith

private theorem roundEven_int (k : ℤ) : roundEven (k : ℚ) = k := by
  unfold roundEven; simp

private theorem roundEven_lt {x y : ℚ} (h : x + 1 < y) : roundEven x < roundEven y := by
  have h1 := abs_le.1 (roundEven_near x)
  have h2 := abs_le.1 (roundEven_near y)
  have : (roundEven x : ℚ) < roundEven y := by linarith
  exact_mod_cast this

private theorem roundEven_bounds {x : ℚ} {a b : ℤ} (h1 : (a : ℚ) ≤ x) (h2 : x ≤ b) : a ≤ roundEven x ∧ roundEven x ≤ b := by
  have h := abs_le.1 (roundEven_near x)
  constructor
  · by_contra hc
    push Not at hc
    have : roundEven x + 1 ≤ a := hc
    have h' : (roundEven x : ℚ) + 1 ≤ a := by exact_mod_cast this
    linarith
  · by_contra hc
    push Not at hc
    have : b + 1 ≤ roundEven x := hc
    have h' : (b : ℚ) + 1 ≤ roundEven x := by exact_mod_cast this
    linarith

/-- C103: a reported threshold is within 5e-7 of the configured one. -/
theorem C103_threshold_near (x : ℚ) : ∃ y, round6 (.fin x) = .fin y ∧ |y - x| ≤ 5 / 10000000 := by
  refine ⟨_, rfl, ?_⟩
  have h := abs_le.1 (roundEven_near (x * 1000000))
  rw [abs_le]
  constructor
  · rw [le_sub_iff_add_le, le_div_iff₀ (by norm_num)]; linarith
  · rw [sub_le_iff_le_add, div_le_iff₀ (by norm_num)]; linarith

example : round6 (.fin (1 / 3)) = .fin (333333 / 1000000) ∧ round6 (.fin (-1 / 10000000)) = .fin 0 := by
  constructor <;> norm_num [round6, roundEven]

/-- C103: a plot of `n` thresholds has `n + 2` rows in ascending order of the thresholds. -/
theorem C103_thresholds (n : ℕ) (hn : 0 < n) :
    ∃ ts : List ℚ, plotThresholds n = .ok (ts.map .fin) ∧ ts.length = n + 2 ∧ ts.Pairwise (· < ·) ∧
      ∀ i, i ≤ n → ts[i + 1]? = some ((i : ℚ) / n) := by
  have hn' : (0 : ℚ) < n := by exact_mod_cast hn
  refine ⟨-1 / 1000000 :: (List.range (n + 1)).map fun (i : ℕ) => (i : ℚ) / n, ?_, by simp, ?_, ?_⟩
  · simp [plotThresholds, Nat.pos_iff_ne_zero.1 hn, Function.comp_def]
  · rw [List.pairwise_cons]
    constructor
    · intro a ha
      obtain ⟨i, _, rfl⟩ := List.mem_map.1 ha
      have : (0 : ℚ) ≤ (i : ℚ) / n := by positivity
      linarith
    · rw [List.pairwise_map]
      refine List.pairwise_lt_range.imp ?_
      intro a b hab
      rw [div_lt_div_iff_of_pos_right hn']
      exact_mod_cast hab
  · intro i hi
    rw [List.getElem?_cons_succ, List.getElem?_map, List.getElem?_range (by omega)]
    rfl

private theorem scaled_lt {n a b : ℕ} (hn : 0 < n) (hb : n ≤ 1000000) (hab : a < b) :
    roundEven ((a : ℚ) / n * 1000000) < roundEven ((b : ℚ) / n * 1000000) := by
  have hn' : (0 : ℚ) < n := by exact_mod_cast hn
  rcases Nat.lt_or_ge n 1000000 with h | h
  · apply roundEven_lt
    have h1 : (a : ℚ) + 1 ≤ b := by exact_mod_cast hab
    have h2 : (n : ℚ) < 1000000 := by exact_mod_cast h
    rw [div_mul_eq_mul_div, div_mul_eq_mul_div, div_add_one (ne_of_gt hn'), div_lt_div_iff_of_pos_right hn']
    nlinarith
  · obtain rfl : n = 1000000 := by omega
    have e : ∀ c : ℕ, (c : ℚ) / (1000000 : ℕ) * 1000000 = ((c : ℤ) : ℚ) := by intro c; push_cast; field_simp
    rw [e, e, roundEven_int, roundEven_int]
    exact_mod_cast hab

/-- C103: the rounded thresholds of a plot are all different if and only if at most a million thresholds were asked for. -/
theorem C103_distinct_iff (n : ℕ) (hn : 0 < n) (ts : List Fl) (h : plotThresholds n = .ok ts) :
    (ts.map round6).Nodup ↔ n ≤ 1000000 := by
  have hn' : (0 : ℚ) < n := by exact_mod_cast hn
  rw [plotThresholds, if_neg (by omega)] at h
  cases h
  have hneg : round6 (.fin (-1 / 1000000)) = .fin (-1 / 1000000) := by
    norm_num [round6, roundEven]
  rw [List.map_cons, List.map_map, List.nodup_cons, hneg]
  constructor
  · rintro ⟨_, hnd⟩
    by_contra hc
    push Not at hc
    have hm : ∀ i ∈ Finset.range (n + 1), roundEven ((i : ℚ) / n * 1000000) ∈ Finset.Icc (0 : ℤ) 1000000 := by
      intro i hi
      have hi' : i ≤ n := by simpa [Nat.lt_succ_iff] using hi
      have hq : (i : ℚ) ≤ n := by exact_mod_cast hi'
      have h0 : (0 : ℚ) ≤ (i : ℚ) / n := by positivity
      have h1 : (i : ℚ) / n ≤ 1 := by rw [div_le_one hn']; exact hq
      rw [Finset.mem_Icc]
      exact roundEven_bounds (by push_cast; linarith) (by push_cast; linarith)
    obtain ⟨i, hi, j, hj, hij, he⟩ := Finset.exists_ne_map_eq_of_card_lt_of_maps_to (by simp; omega) hm
    refine hij (List.inj_on_of_nodup_map hnd (by simpa using hi) (by simpa using hj) ?_)
    simp only [Function.comp_apply, round6, he]
  · intro hb
    refine ⟨?_, ?_⟩
    · intro hm
      obtain ⟨i, _, he⟩ := List.mem_map.1 hm
      simp only [Function.comp_apply, round6, Fl.fin.injEq] at he
      have h0 : (0 : ℚ) ≤ (i : ℚ) / n * 1000000 := by positivity
      have hr : (0 : ℤ) ≤ roundEven ((i : ℚ) / n * 1000000) := by
        have := abs_le.1 (roundEven_near ((i : ℚ) / n * 1000000))
        by_contra hc
        push Not at hc
        have h' : roundEven ((i : ℚ) / n * 1000000) + 1 ≤ 0 := hc
        have h'' : (roundEven ((i : ℚ) / n * 1000000) : ℚ) + 1 ≤ 0 := by exact_mod_cast h'
        linarith
      have hr' : (0 : ℚ) ≤ roundEven ((i : ℚ) / n * 1000000) := by exact_mod_cast hr
      have : (0 : ℚ) ≤ -1 / 1000000 := by rw [← he]; positivity
      norm_num at this
    · unfold List.Nodup
      rw [List.pairwise_map]
      refine List.pairwise_lt_range.imp ?_
      intro a b hab he
      simp only [Function.comp_apply, round6, Fl.fin.injEq] at he
      have h1 := scaled_lt hn hb hab
      have h2 : (roundEven ((a : ℚ) / n * 1000000) : ℚ) < roundEven ((b : ℚ) / n * 1000000) := by exact_mod_cast h1
      linarith

example : (([.fin (-1 / 1000000), .fin 0, .fin (1 / 2), .fin 1] : List Fl).map round6).Nodup ∧
    plotThresholds 2 = .ok [.fin (-1 / 1000000), .fin 0, .fin (1 / 2), .fin 1] := by
  constructor <;> decide +kernel

/-! ### The derived values -/

/-- `a / b` as a value of the plot. -/
def Quot' (v : Fl) (a b : ℚ) : Prop := v = .fin (a / b)

/-- C103: for weights that are not negative the derived values of a row: the quotients where their denominator is positive;
otherwise precision 1, recall 0 and NaN for the rates and the accuracy. -/
theorem C103_values (t : Fl) (m : Bcm.Matrix) (h1 : 0 ≤ m.tp) (h2 : 0 ≤ m.fp) (h3 : 0 ≤ m.tn) (h4 : 0 ≤ m.fn) :
    let r := plotRow (t, m)
    (r.tp = m.tp ∧ r.fp = m.fp ∧ r.tn = m.tn ∧ r.fn = m.fn) ∧
    (if 0 < m.tp ∨ 0 < m.fp then Quot' r.precision m.tp (m.tp + m.fp) else r.precision = .fin 1) ∧
    (if 0 < m.tp ∨ 0 < m.fn then Quot' r.recall m.tp (m.tp + m.fn) else r.recall = .fin 0) ∧
    (if 0 < m.tn ∨ 0 < m.fp then Quot' r.falsePositiveRate m.fp (m.fp + m.tn) else r.falsePositiveRate = .nan) ∧
    (if 0 < m.tn ∨ 0 < m.fn then Quot' r.falseOmissionRate m.fn (m.fn + m.tn) else r.falseOmissionRate = .nan) ∧
    (if 0 < m.tp ∨ 0 < m.fp ∨ 0 < m.tn ∨ 0 < m.fn then Quot' r.accuracy (m.tp + m.tn) (m.tp + m.fp + m.tn + m.fn)
      else r.accuracy = .nan) := by
  have key : ∀ a b : ℚ, 0 ≤ a → 0 ≤ b → ((0 < a ∨ 0 < b) ↔ 0 < a + b) := by
    intro a b ha hb
    constructor
    · rintro (h | h) <;> linarith
    · intro h
      rcases lt_or_eq_of_le ha with h' | h'
      · exact .inl h'
      · right; linarith
  have k2 : ∀ a b : ℚ, 0 ≤ a → 0 ≤ b → ∀ h : ¬ (0 < a ∨ 0 < b), a = 0 ∧ b = 0 := by
    intro a b ha hb h
    push Not at h
    exact ⟨le_antisymm h.1 ha, le_antisymm h.2 hb⟩
  refine ⟨⟨rfl, rfl, rfl, rfl⟩, ?_, ?_, ?_, ?_, ?_⟩
  · split_ifs with h
    · have := (key _ _ h1 h2).1 h
      simp [Quot', plotRow, divideOr, this, Fl.div, ne_of_gt this]
    · obtain ⟨e1, e2⟩ := k2 _ _ h1 h2 h
      simp [plotRow, divideOr, e1, e2]
  · split_ifs with h
    · have := (key _ _ h1 h4).1 h
      simp [Quot', plotRow, divideOr, this, Fl.div, ne_of_gt this]
    · obtain ⟨e1, e2⟩ := k2 _ _ h1 h4 h
      simp [plotRow, divideOr, e1, e2]
  · split_ifs with h
    · have := (key _ _ h3 h2).1 h
      simp [Quot', plotRow, Fl.div, ne_of_gt this, add_comm m.fp m.tn]
    · obtain ⟨e1, e2⟩ := k2 _ _ h3 h2 h
      simp [plotRow, Fl.div, e1, e2]
  · split_ifs with h
    · have := (key _ _ h3 h4).1 h
      simp [Quot', plotRow, Fl.div, ne_of_gt this, add_comm m.fn m.tn]
    · obtain ⟨e1, e2⟩ := k2 _ _ h3 h4 h
      simp [plotRow, Fl.div, e1, e2]
  · split_ifs with h
    · have : 0 < m.tp + m.tn + m.fp + m.fn := by
        rcases h with h | h | h | h <;> linarith
      have e : m.tp + m.fp + m.tn + m.fn = m.tp + m.tn + m.fp + m.fn := by ring
      simp [Quot', plotRow, Fl.div, ne_of_gt this, e]
    · push Not at h
      have e1 : m.tp = 0 := le_antisymm h.1 h1
      have e2 : m.fp = 0 := le_antisymm h.2.1 h2
      have e3 : m.tn = 0 := le_antisymm h.2.2.1 h3
      have e4 : m.fn = 0 := le_antisymm h.2.2.2 h4
      simp [plotRow, Fl.div, e1, e2, e3, e4]

/-- C103: F1 is `2 tp / (2 tp + fp + fn)` when there are true positives; without true positives it is 0 if nothing was
predicted positive, and NaN (not 0) if something was. -/
theorem C103_f1 (t : Fl) (m : Bcm.Matrix) (h1 : 0 ≤ m.tp) (h2 : 0 ≤ m.fp) (h4 : 0 ≤ m.fn) :
    (plotRow (t, m)).f1 =
      if 0 < m.tp then .fin (2 * m.tp / (2 * m.tp + m.fp + m.fn)) else if 0 < m.fp then .nan else .fin 0 := by
  by_cases hp : 0 < m.tp
  · have a : 0 < m.tp + m.fp := by linarith
    have b : 0 < m.tp + m.fn := by linarith
    have c : 0 < m.tp / (m.tp + m.fp) + m.tp / (m.tp + m.fn) := by positivity
    have d : 0 < 2 * m.tp + m.fp + m.fn := by linarith
    simp only [plotRow, divideOr, a, b, hp, if_true, Fl.div, ne_of_gt a, ne_of_gt b, if_false, Fl.mul, Fl.add, ne_of_gt c,
      Fl.fin.injEq]
    have a' := ne_of_gt a; have b' := ne_of_gt b; have d' := ne_of_gt d; have p' := ne_of_gt hp
    have c' := ne_of_gt c
    field_simp
    ring
  · have e : m.tp = 0 := le_antisymm (not_lt.1 hp) h1
    rw [if_neg hp]
    by_cases hf : 0 < m.fp
    · rw [if_pos hf]
      have : m.fp ≠ 0 := ne_of_gt hf
      by_cases hn : 0 < m.fn
      · simp [plotRow, divideOr, e, hf, hn, Fl.div, Fl.mul, Fl.add, this, ne_of_gt hn]
      · simp [plotRow, divideOr, e, hf, hn, Fl.div, Fl.mul, Fl.add, this]
    · rw [if_neg hf]
      have e2 : m.fp = 0 := le_antisymm (not_lt.1 hf) h2
      by_cases hn : 0 < m.fn
      · simp [plotRow, divideOr, e, e2, hn, Fl.div, Fl.mul, Fl.add, ne_of_gt hn]
      · simp [plotRow, divideOr, e, e2, hn, Fl.div, Fl.mul, Fl.add]

example : (plotRow (.fin (1 / 2), ⟨3, 5, 1, 2⟩)).f1 = .fin (6 / 9) ∧ (plotRow (.fin (1 / 2), ⟨0, 5, 1, 2⟩)).f1 = .nan ∧
    (plotRow (.fin (1 / 2), ⟨0, 5, 0, 2⟩)).f1 = .fin 0 ∧ (plotRow (.fin (1 / 2), ⟨3, 5, 1, 2⟩)).accuracy = .fin (8 / 11) := by
  refine ⟨?_, ?_, ?_, ?_⟩ <;> decide +kernel

/-! ### The cells of a plot -/

/-- At the `i`-th threshold of a confusion matrix plot of `n` thresholds a prediction counts as predicted positive: always at
the first threshold (-1e-6), from 0 on at threshold 0, from 1 on at threshold 1, and from one ten thousandth above the
threshold in between. -/
def plotPositive (n i : ℕ) (p : Fl) : Bool :=
  if i = 0 then true
  else if i = 1 then Fl.le (.fin 0) p
  else if i = n + 1 then Fl.le (.fin 1) p
  else Fl.le (.fin (((i : ℚ) - 1) / n + 1 / 10000)) p

/-- The `i`-th threshold. -/
def plotThreshold (n i : ℕ) : ℚ := if i = 0 then -1 / 1000000 else ((i : ℚ) - 1) / n

/-- The weight of the positive and of the negative labels among the examples. -/
def posWeight (es : List Histogram.HExample) : ℚ := (es.map fun e => e.label * e.weight).sum
def negWeight (es : List Histogram.HExample) : ℚ := (es.map fun e => e.weight - e.label * e.weight).sum

private theorem plot_get (n i : ℕ) (hi : i < n + 2) :
    (Fl.fin (-1 / 1000000) :: (List.range (n + 1)).map fun (i : ℕ) => Fl.fin ((i : ℚ) / n))[i]? =
      some (.fin (plotThreshold n i)) := by
  cases i with
  | zero => rfl
  | succ i =>
    rw [List.getElem?_cons_succ, List.getElem?_map, List.getElem?_range (by omega)]
    simp [plotThreshold]

private theorem counts_eq (n : ℕ) (hn : 0 < n) (hd : n ∣ 10000) (i : ℕ) (hi : i < n + 2) (p : Fl) (hp : p ≠ .nan) :
    Bcm.countsPositive (.fin (-1 / 1000000)) i (.fin (plotThreshold n i)) (Bcm.gridBelow p) = plotPositive n i p := by
  obtain ⟨m, hm⟩ := hd
  have hn' : (0 : ℚ) < n := by exact_mod_cast hn
  have hmq : (10000 : ℚ) = n * m := by exact_mod_cast hm
  have hm0 : (0 : ℚ) < m := by
    have : 0 < m := by
      rcases Nat.eq_zero_or_pos m with h | h
      · subst h; omega
      · exact h
    exact_mod_cast this
  unfold Bcm.countsPositive plotPositive plotThreshold
  by_cases h0 : i = 0
  · subst h0
    norm_num [Fl.le, Fl.lt]
  have hpos : (0 : ℚ) ≤ ((i : ℚ) - 1) / n := by
    have : (1 : ℚ) ≤ i := by exact_mod_cast Nat.one_le_iff_ne_zero.2 h0
    apply div_nonneg _ hn'.le
    linarith
  have hle1 : ((i : ℚ) - 1) / n ≤ 1 := by
    rw [div_le_one hn']
    have : (i : ℚ) ≤ n + 1 := by exact_mod_cast (by omega : i ≤ n + 1)
    linarith
  have hna : Fl.le (.fin (1 + 1 / 10000000)) (.fin (((i : ℚ) - 1) / n)) = false := by
    simp only [Fl.le, decide_eq_false_iff_not, not_le]; linarith
  rw [if_neg h0, if_neg h0, hna]
  have hi0 : (i == 0) = false := by simpa using h0
  rw [hi0]
  simp only [Bool.not_false, Bool.true_and, Bool.false_and, Bool.false_or]
  by_cases h1 : i = 1
  · subst h1
    simp only [if_true, Nat.cast_one, sub_self, zero_div, Bcm.corrected]
    cases p with
    | nan => exact absurd rfl hp
    | ninf => rfl
    | pinf => rfl
    | fin q =>
      unfold Bcm.gridBelow
      by_cases hq : q < 0
      · simp only [hq, if_true, Fl.le]; simpa using hq
      · have hq' := not_lt.1 hq
        simp only [hq, if_false, Fl.le]
        split_ifs
        · simp [hq']
        · have : (0 : ℚ) ≤ (⌊q * 10000⌋ : ℚ) := by
            have : (0 : ℤ) ≤ ⌊q * 10000⌋ := Int.floor_nonneg.2 (by linarith)
            exact_mod_cast this
          simp only [hq', decide_true, decide_eq_true_eq]
          positivity
  have hi2 : (1 : ℚ) ≤ (i : ℚ) - 1 := by
    have : (2 : ℚ) ≤ i := by exact_mod_cast (by omega : 2 ≤ i)
    linarith
  have hgt : (0 : ℚ) < ((i : ℚ) - 1) / n := div_pos (by linarith) hn'
  have hne : ¬ (Fl.fin (((i : ℚ) - 1) / n) = .fin 0) := by simp only [Fl.fin.injEq]; exact ne_of_gt hgt
  rw [if_neg h1, Bcm.corrected, if_neg hne]
  simp only [Fl.add]
  by_cases hl : i = n + 1
  · subst hl
    have e : (((n + 1 : ℕ) : ℚ) - 1) / n = 1 := by push_cast; field_simp; ring
    rw [if_pos rfl, e]
    cases p with
    | nan => exact absurd rfl hp
    | ninf => rfl
    | pinf => rfl
    | fin q =>
      unfold Bcm.gridBelow
      by_cases hq : q < 0
      · have : ¬ (1 : ℚ) ≤ q := by linarith
        simp only [hq, if_true, Fl.le, this, decide_false]
      · by_cases hq1 : 1 ≤ q
        · simp [hq, hq1, Fl.le]
        · have h3 : (⌊q * 10000⌋ : ℚ) ≤ q * 10000 := Int.floor_le _
          have h4 : ¬ (1 + 1 / 10000000 : ℚ) ≤ ⌊q * 10000⌋ / 10000 := by
            push Not at hq1 ⊢
            rw [div_lt_iff₀ (by norm_num)]; linarith
          simp only [hq, hq1, if_false, Fl.le, h4]
  · rw [if_neg hl]
    -- the threshold as a multiple of one ten thousandth
    have hk : ∃ k : ℕ, ((i : ℚ) - 1) / n = k / 10000 ∧ k + 1 ≤ 10000 := by
      refine ⟨(i - 1) * m, ?_, ?_⟩
      · rw [Nat.cast_mul, Nat.cast_sub (by omega), Nat.cast_one, hmq]
        field_simp
      · have hmm : 0 < m := by exact_mod_cast hm0
        have : (i - 1 + 1) * m ≤ n * m := Nat.mul_le_mul_right m (by omega)
        rw [Nat.add_mul] at this
        omega
    obtain ⟨k, hk1, hk2⟩ := hk
    rw [hk1]
    have hk2' : (k : ℚ) + 1 ≤ 10000 := by exact_mod_cast hk2
    cases p with
    | nan => exact absurd rfl hp
    | ninf => rfl
    | pinf => rfl
    | fin q =>
      have hk0 : (0 : ℚ) ≤ k := by positivity
      unfold Bcm.gridBelow
      by_cases hq : q < 0
      · have : ¬ ((k : ℚ) / 10000 + 1 / 10000) ≤ q := by
          have : (0 : ℚ) ≤ k / 10000 := by positivity
          linarith
        simp only [hq, if_true, Fl.le, this, decide_false]
      · by_cases hq1 : 1 ≤ q
        · have : ((k : ℚ) / 10000 + 1 / 10000) ≤ q := by linarith
          simp only [hq, hq1, if_false, if_true, Fl.le, this, decide_true]
        · simp only [hq, hq1, if_false, Fl.le, decide_eq_decide]
          have h3 := Int.floor_le (q * 10000)
          have h5 : (((k : ℤ) : ℚ)) = (k : ℚ) := by norm_cast
          constructor
          · intro h
            rw [le_div_iff₀ (by norm_num)] at h
            have hlt : ((k : ℤ) : ℚ) < (⌊q * 10000⌋ : ℚ) := by rw [h5]; linarith
            have hz : (k : ℤ) < ⌊q * 10000⌋ := by exact_mod_cast hlt
            have hz' : ((k : ℤ) : ℚ) + 1 ≤ (⌊q * 10000⌋ : ℚ) := by exact_mod_cast hz
            linarith
          · intro h
            have hz : ((k : ℤ) + 1) ≤ ⌊q * 10000⌋ := by
              rw [Int.le_floor]; push_cast; linarith
            have hz' : ((k : ℤ) : ℚ) + 1 ≤ (⌊q * 10000⌋ : ℚ) := by exact_mod_cast hz
            rw [le_div_iff₀ (by norm_num)]; linarith

private theorem plot_usable (n : ℕ) (hn : 0 < n) :
    Bcm.Usable (.fin (-1 / 1000000) :: (List.range (n + 1)).map fun (i : ℕ) => Fl.fin ((i : ℚ) / n)) := by
  have hn' : (0 : ℚ) < n := by exact_mod_cast hn
  refine ⟨?_, ?_, ?_⟩
  · rw [List.pairwise_cons]
    constructor
    · intro a ha
      obtain ⟨i, _, rfl⟩ := List.mem_map.1 ha
      have : (0 : ℚ) ≤ (i : ℚ) / n := by positivity
      simp only [Fl.lt, Fl.le, Bool.and_eq_true, decide_eq_true_eq, Bool.not_eq_true', decide_eq_false_iff_not, not_le]
      constructor <;> linarith
    · rw [List.pairwise_map]
      refine List.pairwise_lt_range.imp ?_
      intro a b hab
      have : (a : ℚ) / n < (b : ℚ) / n := by
        rw [div_lt_div_iff_of_pos_right hn']
        exact_mod_cast hab
      simp only [Fl.lt, Fl.le, Bool.and_eq_true, decide_eq_true_eq, Bool.not_eq_true', decide_eq_false_iff_not, not_le]
      exact ⟨this.le, this⟩
  · intro t ht
    rcases List.mem_cons.1 ht with rfl | ht
    · exact fun h => nomatch h
    · obtain ⟨i, _, rfl⟩ := List.mem_map.1 ht
      exact fun h => nomatch h
  · intro q hq hneg
    rcases List.mem_cons.1 hq with h | hq
    · cases h; norm_num
    · obtain ⟨i, _, h⟩ := List.mem_map.1 hq
      cases h
      have : (0 : ℚ) ≤ (i : ℚ) / n := by positivity
      linarith

private theorem allFlat_ok {T : Type} (data : List (List T)) : allFlat (data.map .ok) = some data.flatten := by
  induction data with
  | nil => rfl
  | cons x xs ih => simp [allFlat, ih]

private theorem rowsOf_ok (ts : List Fl) (a b c d : List ℚ) (h1 : ts.length ≤ a.length) (h2 : ts.length ≤ b.length)
    (h3 : ts.length ≤ c.length) (h4 : ts.length ≤ d.length) :
    ∃ rows : List Bcm.MRow, rowsOf ts a b c d = .ok rows ∧ rows.length = ts.length ∧
      ∀ (i : ℕ) (r : Bcm.MRow), rows[i]? = some r → ts[i]? = some r.1 ∧ a[i]? = some r.2.tp ∧ b[i]? = some r.2.fp ∧ c[i]? = some r.2.tn ∧
        d[i]? = some r.2.fn := by
  induction ts generalizing a b c d with
  | nil => exact ⟨[], rfl, rfl, by simp⟩
  | cons t ts ih =>
    obtain ⟨x1, a, rfl⟩ := List.exists_cons_of_length_pos (l := a) (by simp at h1; omega)
    obtain ⟨x2, b, rfl⟩ := List.exists_cons_of_length_pos (l := b) (by simp at h2; omega)
    obtain ⟨x3, c, rfl⟩ := List.exists_cons_of_length_pos (l := c) (by simp at h3; omega)
    obtain ⟨x4, d, rfl⟩ := List.exists_cons_of_length_pos (l := d) (by simp at h4; omega)
    obtain ⟨rows, e1, e2, e3⟩ := ih a b c d (by simpa using h1) (by simpa using h2) (by simpa using h3) (by simpa using h4)
    refine ⟨(t, ⟨x1, x3, x2, x4⟩) :: rows, by simp [rowsOf, e1, bind, Except.bind, pure, Except.pure], by simp [e2], ?_⟩
    intro i r hr
    cases i with
    | zero => simp at hr; subst hr; simp
    | succ i => simpa using e3 i r (by simpa using hr)

private theorem round_threshold (n : ℕ) (hn : 0 < n) (hd : n ∣ 10000) (i : ℕ) :
    round6 (.fin (plotThreshold n i)) = .fin (plotThreshold n i) := by
  have key : ∃ k : ℤ, plotThreshold n i * 1000000 = k := by
    obtain ⟨m, hm⟩ := hd
    have hn' : (0 : ℚ) < n := by exact_mod_cast hn
    have hmq : (10000 : ℚ) = n * m := by exact_mod_cast hm
    unfold plotThreshold
    by_cases h : i = 0
    · exact ⟨-1, by simp [h]⟩
    · refine ⟨((i : ℤ) - 1) * m * 100, ?_⟩
      rw [if_neg h]
      push_cast
      rw [div_mul_eq_mul_div, div_eq_iff (ne_of_gt hn')]
      linear_combination ((i : ℚ) - 1) * 100 * hmq
  obtain ⟨k, hk⟩ := key
  simp only [round6, hk, roundEven_int, Fl.fin.injEq]
  rw [← hk]; field_simp

/-- C103: for a number of thresholds that divides 10000 (the default is 1000) and predictions none of which is NaN, the plot
has a row for every threshold in ascending order, whose cells are the weights of the positive and negative labels of the
examples that count as predicted positive, and of the others. -/
theorem C103_plot (n : ℕ) (hn : 0 < n) (hd : n ∣ 10000) (data : List (List Histogram.HExample))
    (hnan : ∀ e ∈ data.flatten, e.pred ≠ .nan) (s : Sched (Except Err (List Histogram.HExample)))
    (hs : s.inputs.Perm (data.map .ok)) :
    ∃ rows, confusionPlot n s = .ok rows ∧ rows.length = n + 2 ∧ ∀ (i : ℕ) (r : PlotRow), rows[i]? = some r →
      r.threshold = .fin (plotThreshold n i) ∧
      r.tp = posWeight (data.flatten.filter fun e => plotPositive n i e.pred) ∧
      r.fp = negWeight (data.flatten.filter fun e => plotPositive n i e.pred) ∧
      r.tn = negWeight (data.flatten.filter fun e => !plotPositive n i e.pred) ∧
      r.fn = posWeight (data.flatten.filter fun e => !plotPositive n i e.pred) := by
  have hn' : (0 : ℚ) < n := by exact_mod_cast hn
  have hist := Histogram.C18_histogram ⟨10000, 0, 1, true⟩ ⟨by norm_num, by norm_num⟩ (data.map .ok) s hs
  rw [allFlat_ok, Option.bind_some, if_neg (by
    rintro ⟨t, ht, h⟩
    exact hnan t ht h)] at hist
  cases hr : (Histogram.combiner ⟨10000, 0, 1, true⟩).run s with
  | error e => rw [hr] at hist; simp [Except.toOption] at hist
  | ok a =>
    rw [hr] at hist
    simp only [Except.toOption, Option.map_some, Option.some.injEq] at hist
    obtain ⟨c, hc, hcells⟩ := Bcm.C54_cells (.fin (-1 / 1000000))
      ((List.range (n + 1)).map fun (i : ℕ) => Fl.fin ((i : ℚ) / n)) (plot_usable n hn)
      (by rintro ⟨h, _⟩; simp at h) (.inr (by norm_num [Fl.lt, Fl.le])) data.flatten hnan
    have hcell : ∀ i, i < n + 2 → Bcm.CellsBy c i data.flatten fun e => plotPositive n i e.pred := by
      intro i hi
      have h := hcells i _ (plot_get n i hi)
      have e1 : ∀ e ∈ data.flatten, Bcm.countsPositive (.fin (-1 / 1000000)) i (.fin (plotThreshold n i))
          (Bcm.gridBelow e.pred) = plotPositive n i e.pred := fun e he => counts_eq n hn hd i hi _ (hnan e he)
      unfold Bcm.CellsBy at h ⊢
      have e2 : ∀ e ∈ data.flatten, (!Bcm.countsPositive (.fin (-1 / 1000000)) i (.fin (plotThreshold n i))
          (Bcm.gridBelow e.pred)) = !plotPositive n i e.pred := fun e he => by rw [e1 e he]
      rwa [List.filter_congr e1, List.filter_congr e2] at h
    have hlast := hcell (n + 1) (by omega)
    obtain ⟨l1, l2, l3, l4⟩ := hlast
    have l1 := (List.getElem?_eq_some_iff.1 l1).1
    have l2 := (List.getElem?_eq_some_iff.1 l2).1
    have l3 := (List.getElem?_eq_some_iff.1 l3).1
    have l4 := (List.getElem?_eq_some_iff.1 l4).1
    obtain ⟨rows, r1, r2, r3⟩ := rowsOf_ok
      (.fin (-1 / 1000000) :: (List.range (n + 1)).map fun (i : ℕ) => Fl.fin ((i : ℚ) / n)) c.tp c.fp c.tn c.fn
      (by simp; omega) (by simp; omega) (by simp; omega) (by simp; omega)
    refine ⟨toProto rows, ?_, by simpa [toProto] using r2, ?_⟩
    · simp only [confusionPlot, plotThresholds, if_neg (Nat.pos_iff_ne_zero.1 hn), hr, bind, Except.bind, pure, Except.pure]
      rw [show Histogram.extract a = Histogram.histogramOf Bcm.defaultConfig data.flatten from hist, hc]
      simp only [r1]
    · intro i r hri
      simp only [toProto, List.getElem?_map, Option.map_eq_some_iff] at hri
      obtain ⟨x, hx, rfl⟩ := hri
      have hi : i < n + 2 := by
        have := (List.getElem?_eq_some_iff.1 hx).1
        rw [r2] at this; simpa using this
      obtain ⟨x0, x1, x2, x3, x4⟩ := r3 i x hx
      rw [plot_get n i hi, Option.some.injEq] at x0
      obtain ⟨c1, c2, c3, c4⟩ := hcell i hi
      rw [c1] at x1; rw [c2] at x2; rw [c3] at x3; rw [c4] at x4
      refine ⟨?_, (Option.some.inj x1).symm, (Option.some.inj x2).symm, (Option.some.inj x3).symm, (Option.some.inj x4).symm⟩
      simp only [plotRow, ← x0]
      exact round_threshold n hn hd i

/-- Non-vacuous: the default number of thresholds, and with two thresholds a prediction of 0.50005, which does not count as
predicted positive at threshold 0.5 since the histogram only knows that it is at least 0.5. -/
example : 1000 ∣ 10000 ∧ plotThreshold 2 2 = 1 / 2 ∧ plotPositive 2 2 (.fin (10001 / 20000)) = false ∧
    plotPositive 2 2 (.fin (5001 / 10000)) = true ∧ plotPositive 2 1 (.fin 0) = true ∧ plotPositive 2 3 (.fin 1) = true := by
  refine ⟨?_, ?_, ?_, ?_, ?_, ?_⟩ <;> decide +kernel


end Plots
end TFMA
