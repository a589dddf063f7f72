import Verif.Model.ConfusionMetrics
import Verif.Props.ConfusionMatrices
import Mathlib.Tactic.FieldSimp
import Mathlib.Tactic.Positivity

/-!
# C75, C76: metrics of a confusion matrix
-/

namespace TFMA
namespace Bcm

open Beam Combiners

/-! ### Specification -/

/-- Weighted relative frequency of the rows with property `A` among those with property `B`; undefined if the latter have no
weight. -/
def freq (A B : Row → Prop) [DecidablePred A] [DecidablePred B] (rows : List Row) : Fl :=
  if 0 < weightWhere B rows then .fin (weightWhere (fun r => A r ∧ B r) rows / weightWhere B rows) else .nan

/-- The row is labelled positive. -/
abbrev Pos (f : Bool) (t : Fl) (r : Row) : Prop := LabelPos f t r.label

/-- The row is predicted positive. -/
abbrev Pred (t : Fl) (r : Row) : Prop := Fl.lt t r.pred = true

/-! ### Sums of cells -/

private theorem ww_split (p q : Row → Prop) [DecidablePred p] [DecidablePred q] (rows : List Row) :
    weightWhere (fun r => p r ∧ q r) rows + weightWhere (fun r => p r ∧ ¬ q r) rows = weightWhere p rows := by
  unfold weightWhere
  induction rows with
  | nil => simp
  | cons r rows ih =>
    by_cases h1 : p r <;> by_cases h2 : q r <;> simp_all [List.filter_cons] <;> linarith

private theorem ww_congr {p q : Row → Prop} [DecidablePred p] [DecidablePred q] (h : ∀ r, p r ↔ q r) (rows : List Row) :
    weightWhere p rows = weightWhere q rows := by
  unfold weightWhere
  congr 2
  apply List.filter_congr
  intro r _
  simp [h r]

private theorem ww_disj (p q : Row → Prop) [DecidablePred p] [DecidablePred q] (h : ∀ r, p r → ¬ q r) (rows : List Row) :
    weightWhere p rows + weightWhere q rows = weightWhere (fun r => p r ∨ q r) rows := by
  unfold weightWhere
  induction rows with
  | nil => simp
  | cons r rows ih =>
    have := h r
    by_cases h1 : p r <;> by_cases h2 : q r <;> simp_all [List.filter_cons] <;> linarith

theorem ratio_eq_freq {A B : Row → Prop} [DecidablePred A] [DecidablePred B] {n d : ℚ} {rows : List Row}
    (hn : n = weightWhere (fun r => A r ∧ B r) rows) (hd : d = weightWhere B rows) : ratio n d = freq A B rows := by
  unfold ratio freq
  rw [hn, hd]

section
variable (f : Bool) (t : Fl) (rows : List Row)

private theorem tp_fp : (matrixOf f t rows).tp + (matrixOf f t rows).fp = weightWhere (Pred t) rows := by
  rw [← ww_split (Pred t) (Pos f t) rows]
  simp only [matrixOf]
  congr 1 <;> apply ww_congr <;> intro r <;> tauto

private theorem tp_fn : (matrixOf f t rows).tp + (matrixOf f t rows).fn = weightWhere (Pos f t) rows :=
  ww_split (Pos f t) (Pred t) rows

private theorem tn_fp : (matrixOf f t rows).tn + (matrixOf f t rows).fp = weightWhere (fun r => ¬ Pos f t r) rows := by
  rw [← ww_split (fun r => ¬ Pos f t r) (Pred t) rows, add_comm]
  rfl

private theorem tn_fn : (matrixOf f t rows).tn + (matrixOf f t rows).fn = weightWhere (fun r => ¬ Pred t r) rows := by
  rw [← ww_split (fun r => ¬ Pred t r) (Pos f t) rows, add_comm]
  simp only [matrixOf]
  congr 1 <;> apply ww_congr <;> intro r <;> tauto

private theorem total : (matrixOf f t rows).tp + (matrixOf f t rows).fp + (matrixOf f t rows).tn + (matrixOf f t rows).fn =
    weightWhere (fun _ => True) rows := by
  have h1 := tp_fp f t rows
  have h2 := tn_fn f t rows
  have h3 := ww_split (fun _ => True) (Pred t) rows
  have h4 : weightWhere (fun r => True ∧ Pred t r) rows = weightWhere (Pred t) rows := ww_congr (by simp) rows
  have h5 : weightWhere (fun r => True ∧ ¬ Pred t r) rows = weightWhere (fun r => ¬ Pred t r) rows := ww_congr (by simp) rows
  linarith

/-- **C75.**  The ratios reported for the matrix of a list of rows are the weighted relative frequencies they are named
after, and are undefined (NaN) exactly when the rows they refer to have no weight. -/
theorem C75_rates :
    binaryAccuracy (matrixOf f t rows) = freq (fun r => Pos f t r ↔ Pred t r) (fun _ => True) rows ∧
    precision (matrixOf f t rows) = freq (Pos f t) (Pred t) rows ∧
    recall (matrixOf f t rows) = freq (Pred t) (Pos f t) rows ∧
    specificity (matrixOf f t rows) = freq (fun r => ¬ Pred t r) (fun r => ¬ Pos f t r) rows ∧
    fallOut (matrixOf f t rows) = freq (Pred t) (fun r => ¬ Pos f t r) rows ∧
    missRate (matrixOf f t rows) = freq (fun r => ¬ Pred t r) (Pos f t) rows ∧
    npv (matrixOf f t rows) = freq (fun r => ¬ Pos f t r) (fun r => ¬ Pred t r) rows ∧
    falseDiscoveryRate (matrixOf f t rows) = freq (fun r => ¬ Pos f t r) (Pred t) rows ∧
    falseOmissionRate (matrixOf f t rows) = freq (Pos f t) (fun r => ¬ Pred t r) rows ∧
    prevalence (matrixOf f t rows) = freq (Pos f t) (fun _ => True) rows ∧
    threatScore (matrixOf f t rows) = freq (fun r => Pos f t r ∧ Pred t r) (fun r => Pos f t r ∨ Pred t r) rows ∧
    predictedPositiveRate (matrixOf f t rows) = freq (Pred t) (fun _ => True) rows := by
  have h1 := tp_fp f t rows
  have h2 := tp_fn f t rows
  have h3 := tn_fp f t rows
  have h4 := tn_fn f t rows
  have h5 := total f t rows
  refine ⟨?_, ?_, ?_, ?_, ?_, ?_, ?_, ?_, ?_, ?_, ?_, ?_⟩
  · refine ratio_eq_freq ?_ h5
    simp only [matrixOf]
    rw [ww_disj _ _ (by intro r; tauto)]
    apply ww_congr; intro r; tauto
  · exact ratio_eq_freq (by simp only [matrixOf]) h1
  · exact ratio_eq_freq (by simp only [matrixOf]; apply ww_congr; intro r; tauto) h2
  · exact ratio_eq_freq (by simp only [matrixOf]; apply ww_congr; intro r; tauto) h3
  · exact ratio_eq_freq (by simp only [matrixOf]; apply ww_congr; intro r; tauto) (by rw [← h3]; ring)
  · exact ratio_eq_freq (by simp only [matrixOf]; apply ww_congr; intro r; tauto) (by rw [← h2]; ring)
  · exact ratio_eq_freq (by simp only [matrixOf]) h4
  · exact ratio_eq_freq (by simp only [matrixOf]) (by rw [← h1]; ring)
  · exact ratio_eq_freq (by simp only [matrixOf]) (by rw [← h4]; ring)
  · refine ratio_eq_freq ?_ (by rw [← h5]; ring)
    rw [h2]; apply ww_congr; intro r; tauto
  · refine ratio_eq_freq ?_ ?_
    · simp only [matrixOf]; apply ww_congr; intro r; tauto
    · rw [h2]
      simp only [matrixOf]
      rw [ww_disj _ _ (by intro r; tauto)]
      apply ww_congr; intro r; tauto
  · refine ratio_eq_freq ?_ h5
    rw [h1]; apply ww_congr; intro r; tauto

end

/-- Weights that are not negative. -/
def NonnegWeights (rows : List Row) : Prop := ∀ r ∈ rows, 0 ≤ r.weight

private theorem ww_nonneg (p : Row → Prop) [DecidablePred p] (rows : List Row) (h : NonnegWeights rows) :
    0 ≤ weightWhere p rows := by
  unfold weightWhere
  induction rows with
  | nil => simp
  | cons r rows ih =>
    have h1 := h r (by simp)
    have h2 := ih fun x hx => h x (by simp [hx])
    by_cases hp : p r <;> simp [List.filter_cons, hp] <;> linarith

/-- **C75** (range): a relative frequency is between 0 and 1. -/
theorem C75_range (A B : Row → Prop) [DecidablePred A] [DecidablePred B] (rows : List Row) (h : NonnegWeights rows) :
    freq A B rows = .nan ∨ ∃ q, freq A B rows = .fin q ∧ 0 ≤ q ∧ q ≤ 1 := by
  unfold freq
  by_cases h0 : 0 < weightWhere B rows
  · right
    refine ⟨_, if_pos h0, div_nonneg (ww_nonneg _ rows h) (le_of_lt h0), ?_⟩
    rw [div_le_one h0]
    have h1 := ww_split B A rows
    have h2 : weightWhere (fun r => A r ∧ B r) rows = weightWhere (fun r => B r ∧ A r) rows := ww_congr (by intro r; tauto) rows
    have h3 := ww_nonneg (fun r => B r ∧ ¬ A r) rows h
    linarith
  · exact .inl (if_neg h0)

/-- **C75** (complements): the frequencies of a property and of its opposite are undefined together and add up to 1. -/
theorem C75_complement (A B : Row → Prop) [DecidablePred A] [DecidablePred B] (rows : List Row) :
    (freq A B rows = .nan ∧ freq (fun r => ¬ A r) B rows = .nan) ∨
    ∃ p q, freq A B rows = .fin p ∧ freq (fun r => ¬ A r) B rows = .fin q ∧ p + q = 1 := by
  unfold freq
  by_cases h0 : 0 < weightWhere B rows
  · right
    refine ⟨_, _, if_pos h0, if_pos h0, ?_⟩
    have h1 := ww_split B A rows
    have h2 : weightWhere (fun r => A r ∧ B r) rows = weightWhere (fun r => B r ∧ A r) rows := ww_congr (by intro r; tauto) rows
    have h3 : weightWhere (fun r => ¬ A r ∧ B r) rows = weightWhere (fun r => B r ∧ ¬ A r) rows :=
      ww_congr (by intro r; tauto) rows
    rw [← add_div, h2, h3, h1, div_self (ne_of_gt h0)]
  · exact .inl ⟨if_neg h0, if_neg h0⟩

/-- **C75** (executions): for distinct thresholds and every bundling of the data the value of a metric is the list of its
values for the matrices of the rows, in the order of the thresholds, or the value itself if there is one threshold. -/
theorem C75_executions {α : Type} (g : Matrix → α) (c : Config) (hn : c.thresholds.Nodup)
    (data : List (Except Err Example)) (s : Sched _) (p : s.inputs.Perm data) :
    (((combiner c).run s).bind fun a => toMatrices (extract c a) c.thresholds).toOption.map
        (fun l => metricValue g (l.map Prod.fst)) =
      (allOk data).map fun xs =>
        let v := fun t => g (matrixOf c.fractional t (xs.map Example.rows).flatten)
        match c.thresholds with
        | [t] => .scalar (v t)
        | ts => .array (ts.map v) := by
  have h := congrArg (Option.map (metricValue g)) (C17_matrices c hn data s p)
  rw [Option.map_map, Option.map_map] at h
  refine h.trans ?_
  cases allOk data with
  | none => rfl
  | some xs =>
    simp only [Option.map_some, Function.comp]
    match c.thresholds with
    | [] => rfl
    | [t] => rfl
    | t :: t' :: ts => simp [metricValue]

/-- Non-vacuous: four rows of weights 2, 1, 3, 2. -/
example : let rows : List Row := [⟨.fin 1, .fin (3 / 4), 2⟩, ⟨.fin 1, .fin (1 / 4), 1⟩, ⟨.fin 0, .fin (3 / 5), 3⟩,
      ⟨.fin 0, .fin 0, 2⟩]
    precision (matrixOf true (.fin (1 / 2)) rows) = .fin (2 / 5) ∧ recall (matrixOf true (.fin (1 / 2)) rows) = .fin (2 / 3) ∧
    threatScore (matrixOf true (.fin (1 / 2)) rows) = .fin (1 / 3) ∧ precision (matrixOf true (.fin 1) rows) = .nan ∧
    NonnegWeights rows := by
  refine ⟨by decide +kernel, by decide +kernel, by decide +kernel, by decide +kernel, ?_⟩
  intro r hr
  simp only [List.mem_cons, List.not_mem_nil, or_false] at hr
  rcases hr with rfl | rfl | rfl | rfl <;> norm_num

/-! ### C76: combined measures -/

/-- A matrix of weights. -/
structure Nonneg (m : Matrix) : Prop where
  tp : 0 ≤ m.tp
  tn : 0 ≤ m.tn
  fp : 0 ≤ m.fp
  fn : 0 ≤ m.fn

/-- **C76** (F1): the harmonic mean of precision and recall. -/
theorem C76_f1 (m : Matrix) (hm : Nonneg m) (p r : ℚ) (hp : precision m = .fin p) (hr : recall m = .fin r) (h : 0 < p + r) :
    f1Score m = .fin (2 * p * r / (p + r)) := by
  obtain ⟨h1, _, h3, h4⟩ := hm
  unfold precision ratio at hp
  unfold recall ratio at hr
  split at hp <;> [skip; cases hp]
  rename_i hd
  split at hr <;> [skip; cases hr]
  rename_i hd'
  cases hp; cases hr
  have htp : 0 < m.tp := by
    rcases lt_or_eq_of_le h1 with h1 | h1
    · exact h1
    · rw [← h1] at h; simp at h
  unfold f1Score ratio
  rw [if_pos (by linarith)]
  congr 1
  field_simp
  ring

/-- **C76** (F1, range): between 0 and 1, undefined exactly without positive rows and positive predictions. -/
theorem C76_f1_range (m : Matrix) (hm : Nonneg m) :
    (f1Score m = .nan ∧ m.tp = 0 ∧ m.fp = 0 ∧ m.fn = 0) ∨ ∃ q, f1Score m = .fin q ∧ 0 ≤ q ∧ q ≤ 1 := by
  obtain ⟨h1, _, h3, h4⟩ := hm
  unfold f1Score ratio
  by_cases hd : 0 < 2 * m.tp + m.fp + m.fn
  · right
    refine ⟨_, if_pos hd, by positivity, ?_⟩
    rw [div_le_one hd]; linarith
  · left
    exact ⟨if_neg hd, by linarith, by linarith, by linarith⟩

/-- **C76** (balanced accuracy, informedness, markedness) in terms of the ratios. -/
theorem C76_means (m : Matrix) :
    (∀ a b, recall m = .fin a → specificity m = .fin b → balancedAccuracy m = .fin ((a + b) / 2) ∧
      informedness m = .fin (a + b - 1)) ∧
    (recall m = .nan ∨ specificity m = .nan → balancedAccuracy m = .nan ∧ informedness m = .nan) ∧
    (∀ a b, precision m = .fin a → npv m = .fin b → markedness m = .fin (a + b - 1)) ∧
    (precision m = .nan ∨ npv m = .nan → markedness m = .nan) := by
  unfold recall specificity precision npv ratio balancedAccuracy informedness markedness
  refine ⟨?_, ?_, ?_, ?_⟩
  · intro a b ha hb
    split at ha <;> [skip; cases ha]
    split at hb <;> [skip; cases hb]
    rename_i h1 h2
    cases ha; cases hb
    simp [h1, h2]
  · rintro (h | h) <;> split at h <;> first | cases h | skip
    all_goals rename_i h'; simp [h']
  · intro a b ha hb
    split at ha <;> [skip; cases ha]
    split at hb <;> [skip; cases hb]
    rename_i h1 h2
    cases ha; cases hb
    simp [h1, h2]
  · rintro (h | h) <;> split at h <;> first | cases h | skip
    all_goals rename_i h'; simp [h']

/-- **C76** (likelihood ratios): quotients of the rates; the odds ratio is their quotient. -/
theorem C76_likelihood (m : Matrix) (hm : Nonneg m) :
    (∀ a b, recall m = .fin a → fallOut m = .fin b → b ≠ 0 → positiveLikelihoodRatio m = .fin (a / b)) ∧
    (recall m = .nan ∨ fallOut m = .nan ∨ fallOut m = .fin 0 → positiveLikelihoodRatio m = .nan) ∧
    (∀ a b, missRate m = .fin a → specificity m = .fin b → b ≠ 0 → negativeLikelihoodRatio m = .fin (a / b)) ∧
    (missRate m = .nan ∨ specificity m = .nan ∨ specificity m = .fin 0 → negativeLikelihoodRatio m = .nan) ∧
    (∀ a b, positiveLikelihoodRatio m = .fin a → negativeLikelihoodRatio m = .fin b → b ≠ 0 →
      diagnosticOddsRatio m = .fin (a / b)) := by
  obtain ⟨h1, h2, h3, h4⟩ := hm
  unfold recall fallOut missRate specificity ratio positiveLikelihoodRatio negativeLikelihoodRatio diagnosticOddsRatio
  refine ⟨?_, ?_, ?_, ?_, ?_⟩
  · intro a b ha hb hb0
    split at ha <;> [skip; cases ha]
    split at hb <;> [skip; cases hb]
    rename_i h5 h6
    cases ha; cases hb
    have : 0 < m.fp := by
      rcases lt_or_eq_of_le h3 with h | h
      · exact h
      · rw [← h] at hb0; simp at hb0
    rw [if_pos ⟨h5, h6, this⟩]
  · rintro (h | h | h) <;> split at h <;> first | cases h | skip
    · rename_i h'; simp [h']
    · rename_i h'; simp [h']
    · rename_i h'
      simp only [Fl.fin.injEq, div_eq_zero_iff] at h
      rcases h with h | h
      · simp [h]
      · rw [h] at h'; exact absurd h' (lt_irrefl _)
  · intro a b ha hb hb0
    split at ha <;> [skip; cases ha]
    split at hb <;> [skip; cases hb]
    rename_i h5 h6
    cases ha; cases hb
    have : 0 < m.tn := by
      rcases lt_or_eq_of_le h2 with h | h
      · exact h
      · rw [← h] at hb0; simp at hb0
    rw [if_pos ⟨h5, h6, this⟩]
  · rintro (h | h | h) <;> split at h <;> first | cases h | skip
    · rename_i h'; simp [h']
    · rename_i h'; simp [h']
    · rename_i h'
      simp only [Fl.fin.injEq, div_eq_zero_iff] at h
      rcases h with h | h
      · simp [h]
      · rw [h] at h'; exact absurd h' (lt_irrefl _)
  · intro a b ha hb hb0
    split at ha <;> [skip; cases ha]
    split at hb <;> [skip; cases hb]
    rename_i h5 h6
    cases ha; cases hb
    obtain ⟨a1, a2, a3⟩ := h5
    obtain ⟨b1, b2, b3⟩ := h6
    have hfn : 0 < m.fn := by
      rcases lt_or_eq_of_le h4 with h | h
      · exact h
      · rw [← h] at hb0; simp at hb0
    rw [if_pos ⟨hfn, a3, b3⟩]
    congr 1
    field_simp
    ring

/-- **C76** (Matthews): never raises; undefined exactly when one of the four margins vanishes; its square is the product of
informedness and markedness; hence between -1 and 1, and 1 exactly without errors. -/
theorem C76_matthews (m : Matrix) (hm : Nonneg m) :
    (matthews m = .ok none ∧ (m.tp + m.fp = 0 ∨ m.tp + m.fn = 0 ∨ m.tn + m.fp = 0 ∨ m.tn + m.fn = 0)) ∨
    ∃ x : ℝ, ∃ i k : ℚ, matthews m = .ok (some x) ∧ informedness m = .fin i ∧ markedness m = .fin k ∧ x ^ 2 = i * k ∧
      -1 ≤ x ∧ x ≤ 1 ∧ (x = 1 ↔ m.fp = 0 ∧ m.fn = 0) := by
  obtain ⟨h1, h2, h3, h4⟩ := hm
  have hnn : 0 ≤ (m.tp + m.fp) * (m.tp + m.fn) * (m.tn + m.fp) * (m.tn + m.fn) := by positivity
  have hs : posSqrt (((m.tp + m.fp) * (m.tp + m.fn) * (m.tn + m.fp) * (m.tn + m.fn) : ℚ) : ℝ) =
      .ok (Real.sqrt (((m.tp + m.fp) * (m.tp + m.fn) * (m.tn + m.fp) * (m.tn + m.fn) : ℚ) : ℝ)) := by
    unfold posSqrt
    rw [if_neg (by push Not; exact_mod_cast hnn)]
  set D := (m.tp + m.fp) * (m.tp + m.fn) * (m.tn + m.fp) * (m.tn + m.fn) with hD
  have hm' : matthews m = if 0 < Real.sqrt (D : ℝ) then
      .ok (some (((m.tp * m.tn - m.fp * m.fn : ℚ) : ℝ) / Real.sqrt (D : ℝ))) else .ok none := by
    unfold matthews
    rw [hs]
    rfl
  rw [hm']
  by_cases h0 : D = 0
  · left
    refine ⟨by simp [h0], ?_⟩
    rw [hD] at h0
    simp only [mul_eq_zero] at h0
    tauto
  · right
    have hpos : 0 < D := lt_of_le_of_ne hnn (Ne.symm h0)
    have hposR : (0 : ℝ) < D := by exact_mod_cast hpos
    have hsq : 0 < Real.sqrt (D : ℝ) := Real.sqrt_pos.2 hposR
    have hne : m.tp + m.fp ≠ 0 ∧ m.tp + m.fn ≠ 0 ∧ m.tn + m.fp ≠ 0 ∧ m.tn + m.fn ≠ 0 := by
      refine ⟨?_, ?_, ?_, ?_⟩ <;> intro h <;> exact h0 (by rw [hD, h]; ring)
    obtain ⟨n1, n2, n3, n4⟩ := hne
    have p1 : 0 < m.tp + m.fp := lt_of_le_of_ne (by linarith) (Ne.symm n1)
    have p2 : 0 < m.tp + m.fn := lt_of_le_of_ne (by linarith) (Ne.symm n2)
    have p3 : 0 < m.tn + m.fp := lt_of_le_of_ne (by linarith) (Ne.symm n3)
    have p4 : 0 < m.tn + m.fn := lt_of_le_of_ne (by linarith) (Ne.symm n4)
    set N := m.tp * m.tn - m.fp * m.fn with hN
    have hDN : D = N ^ 2 + 4 * (m.tp * m.tn) * (m.fp * m.fn) +
        (m.tp * m.tn + m.fp * m.fn) * (m.tp * m.fp + m.fn * m.tn + m.tp * m.fn + m.fp * m.tn) +
        (m.tp * m.fn + m.fp * m.tn) * (m.tp * m.fp + m.fn * m.tn) := by rw [hD, hN]; ring
    have hle : N ^ 2 ≤ D := by
      have : 0 ≤ 4 * (m.tp * m.tn) * (m.fp * m.fn) +
        (m.tp * m.tn + m.fp * m.fn) * (m.tp * m.fp + m.fn * m.tn + m.tp * m.fn + m.fp * m.tn) +
        (m.tp * m.fn + m.fp * m.tn) * (m.tp * m.fp + m.fn * m.tn) := by positivity
      linarith
    have hleR : (N : ℝ) ^ 2 ≤ D := by exact_mod_cast hle
    have habs : |(N : ℝ)| ≤ Real.sqrt D := Real.abs_le_sqrt hleR
    refine ⟨(N : ℝ) / Real.sqrt D, m.tp / (m.tp + m.fn) + m.tn / (m.tn + m.fp) - 1,
      m.tp / (m.tp + m.fp) + m.tn / (m.tn + m.fn) - 1, if_pos hsq, if_pos ⟨p2, p3⟩, if_pos ⟨p1, p4⟩, ?_, ?_, ?_, ?_⟩
    · rw [div_pow, Real.sq_sqrt (le_of_lt hposR)]
      have : N ^ 2 / D = (m.tp / (m.tp + m.fn) + m.tn / (m.tn + m.fp) - 1) *
          (m.tp / (m.tp + m.fp) + m.tn / (m.tn + m.fn) - 1) := by
        rw [hN, hD]
        field_simp
        ring
      exact_mod_cast this
    · rw [le_div_iff₀ hsq]
      have := (abs_le.1 habs).1
      linarith
    · rw [div_le_one hsq]
      exact (abs_le.1 habs).2
    · rw [div_eq_one_iff_eq (ne_of_gt hsq)]
      constructor
      · intro he
        have hNpos : 0 < N := by
          have : (0 : ℝ) < N := by rw [he]; exact hsq
          exact_mod_cast this
        have heq : N ^ 2 = D := by
          have : (N : ℝ) ^ 2 = D := by rw [he]; exact Real.sq_sqrt (le_of_lt hposR)
          exact_mod_cast this
        have hbc : 0 ≤ m.fp * m.fn := by positivity
        have had : 0 < m.tp * m.tn := by rw [hN] at hNpos; linarith
        have ha : 0 < m.tp := by
          rcases lt_or_eq_of_le h1 with h | h
          · exact h
          · rw [← h] at had; simp at had
        have hd : 0 < m.tn := by
          rcases lt_or_eq_of_le h2 with h | h
          · exact h
          · rw [← h] at had; simp at had
        rw [heq] at hDN
        constructor
        · by_contra hb
          have hb' : 0 < m.fp := lt_of_le_of_ne h3 (Ne.symm hb)
          have : 0 < 4 * (m.tp * m.tn) * (m.fp * m.fn) +
            (m.tp * m.tn + m.fp * m.fn) * (m.tp * m.fp + m.fn * m.tn + m.tp * m.fn + m.fp * m.tn) +
            (m.tp * m.fn + m.fp * m.tn) * (m.tp * m.fp + m.fn * m.tn) := by positivity
          linarith
        · by_contra hb
          have hb' : 0 < m.fn := lt_of_le_of_ne h4 (Ne.symm hb)
          have : 0 < 4 * (m.tp * m.tn) * (m.fp * m.fn) +
            (m.tp * m.tn + m.fp * m.fn) * (m.tp * m.fp + m.fn * m.tn + m.tp * m.fn + m.fp * m.tn) +
            (m.tp * m.fn + m.fp * m.tn) * (m.tp * m.fp + m.fn * m.tn) := by positivity
          linarith
      · rintro ⟨hb, hc⟩
        have hN' : N = m.tp * m.tn := by rw [hN, hb, hc]; ring
        have hD' : D = N ^ 2 := by rw [hD, hN', hb, hc]; ring
        have hN0 : (0 : ℝ) ≤ N := by
          have : 0 ≤ N := by rw [hN']; positivity
          exact_mod_cast this
        rw [hD']
        push_cast
        exact (Real.sqrt_sq hN0).symm

/-- **C76** (Fowlkes–Mallows): never raises; the geometric mean of precision and recall. -/
theorem C76_fowlkes_mallows (m : Matrix) (hm : Nonneg m) :
    (∀ p r, precision m = .fin p → recall m = .fin r → fowlkesMallows m = .ok (some (Real.sqrt (p * r)))) ∧
    (precision m = .nan ∨ recall m = .nan → fowlkesMallows m = .ok none) := by
  obtain ⟨h1, h2, h3, h4⟩ := hm
  unfold precision recall ratio fowlkesMallows
  constructor
  · intro p r hp hr
    split at hp <;> [skip; cases hp]
    split at hr <;> [skip; cases hr]
    rename_i h5 h6
    cases hp; cases hr
    have hnn : (0 : ℚ) ≤ m.tp / (m.tp + m.fp) * (m.tp / (m.tp + m.fn)) := by positivity
    rw [if_pos ⟨h5, h6⟩]
    unfold posSqrt
    rw [if_neg (by push Not; exact_mod_cast hnn)]
    push_cast
    rfl
  · rintro (h | h) <;> split at h <;> first | cases h | skip
    all_goals rename_i h'; simp [h']

/-- **C76** (prevalence threshold), for classifiers whose true and false positive rates differ: between 0 and 1, with the value
√fpr / (√tpr + √fpr).  Missing from the full claim: the case of equal rates, `C76_prevalence_threshold_raises`. -/
theorem C76_prevalence_threshold_partial (m : Matrix) (hm : Nonneg m) (tpr fpr : ℚ) (h1 : recall m = .fin tpr)
    (h2 : fallOut m = .fin fpr) (hne : tpr ≠ fpr) :
    prevalenceThreshold m = .ok (some (Real.sqrt fpr / (Real.sqrt tpr + Real.sqrt fpr))) ∧
      0 ≤ Real.sqrt fpr / (Real.sqrt tpr + Real.sqrt fpr) ∧ Real.sqrt fpr / (Real.sqrt tpr + Real.sqrt fpr) ≤ 1 := by
  obtain ⟨n1, n2, n3, n4⟩ := hm
  unfold recall ratio at h1
  unfold fallOut ratio at h2
  split at h1 <;> [skip; cases h1]
  split at h2 <;> [skip; cases h2]
  rename_i p1 p2
  have e1 : tpr = m.tp / (m.tp + m.fn) := by cases h1; rfl
  have e2 : fpr = m.fp / (m.fp + m.tn) := by cases h2; rfl
  have e3 : m.tn / (m.tn + m.fp) = 1 - fpr := by
    rw [e2]
    have : m.tn + m.fp ≠ 0 := by linarith
    have : m.fp + m.tn ≠ 0 := by linarith
    field_simp
    ring
  have t0 : 0 ≤ tpr := by rw [e1]; positivity
  have f0 : 0 ≤ fpr := by rw [e2]; positivity
  have t0R : (0 : ℝ) ≤ tpr := by exact_mod_cast t0
  have f0R : (0 : ℝ) ≤ fpr := by exact_mod_cast f0
  have hneR : (tpr : ℝ) - fpr ≠ 0 := by
    intro h
    apply hne
    have : (tpr : ℝ) = fpr := by linarith
    exact_mod_cast this
  set a := Real.sqrt tpr with ha
  set b := Real.sqrt fpr with hb
  have ha0 : 0 ≤ a := Real.sqrt_nonneg _
  have hb0 : 0 ≤ b := Real.sqrt_nonneg _
  have ha2 : (tpr : ℝ) = a ^ 2 := (Real.sq_sqrt t0R).symm
  have hb2 : (fpr : ℝ) = b ^ 2 := (Real.sq_sqrt f0R).symm
  have hab : a + b ≠ 0 := by
    intro h
    have h3 : a = 0 := by linarith
    have h4 : b = 0 := by linarith
    apply hneR
    rw [ha2, hb2, h3, h4]; ring
  have hpos : 0 < a + b := lt_of_le_of_ne (by linarith) (Ne.symm hab)
  refine ⟨?_, by positivity, by rw [div_le_one hpos]; linarith⟩
  unfold prevalenceThreshold
  rw [if_pos ⟨p1, by linarith⟩, ← e1, e3]
  have h5 : posSqrt ((tpr : ℝ) * (1 - ((1 - fpr : ℚ) : ℝ))) = .ok (a * b) := by
    push_cast
    unfold posSqrt
    rw [show (1 - (1 - (fpr : ℝ))) = fpr by ring, if_neg (by push Not; positivity), Real.sqrt_mul t0R]
  simp only [h5]
  have h6 : (tpr : ℝ) + ((1 - fpr : ℚ) : ℝ) - 1 = a ^ 2 - b ^ 2 := by push_cast; rw [ha2, hb2]; ring
  have h7 : a ^ 2 - b ^ 2 ≠ 0 := by rw [← ha2, ← hb2]; exact hneR
  have h8 : a * b + ((1 - fpr : ℚ) : ℝ) - 1 = a * b - b ^ 2 := by push_cast; rw [hb2]; ring
  change (if (tpr : ℝ) + ((1 - fpr : ℚ) : ℝ) - 1 = 0 then Except.error Err.zeroDivisionError else
    Except.ok (some ((a * b + ((1 - fpr : ℚ) : ℝ) - 1) / ((tpr : ℝ) + ((1 - fpr : ℚ) : ℝ) - 1)))) = _
  rw [h6, if_neg h7, h8]
  congr 2
  rw [div_eq_div_iff h7 hab]
  ring

/-- **C76** is false for the prevalence threshold: whenever the true and the false positive rate are equal, for example if every
row or no row is predicted positive, the computation raises ZeroDivisionError instead of giving a value or NaN. -/
theorem C76_prevalence_threshold_raises (m : Matrix) (hm : Nonneg m) (q : ℚ) (h1 : recall m = .fin q)
    (h2 : fallOut m = .fin q) : prevalenceThreshold m = .error .zeroDivisionError := by
  obtain ⟨n1, n2, n3, n4⟩ := hm
  unfold recall ratio at h1
  unfold fallOut ratio at h2
  split at h1 <;> [skip; cases h1]
  split at h2 <;> [skip; cases h2]
  rename_i p1 p2
  have e1 : q = m.tp / (m.tp + m.fn) := by cases h1; rfl
  have e2 : q = m.fp / (m.fp + m.tn) := by cases h2; rfl
  have e3 : m.tn / (m.tn + m.fp) = 1 - q := by
    rw [e2]
    have : m.tn + m.fp ≠ 0 := by linarith
    have : m.fp + m.tn ≠ 0 := by linarith
    field_simp
    ring
  have q0 : 0 ≤ q := by rw [e1]; positivity
  have q0R : (0 : ℝ) ≤ q := by exact_mod_cast q0
  unfold prevalenceThreshold
  rw [if_pos ⟨p1, by linarith⟩, ← e1, e3]
  have h5 : posSqrt ((q : ℝ) * (1 - ((1 - q : ℚ) : ℝ))) = .ok (Real.sqrt ((q : ℝ) * (1 - ((1 - q : ℚ) : ℝ)))) := by
    unfold posSqrt
    rw [if_neg]
    push_cast
    push Not
    rw [show (1 - (1 - (q : ℝ))) = q by ring]
    positivity
  simp only [h5]
  change (if (q : ℝ) + ((1 - q : ℚ) : ℝ) - 1 = 0 then Except.error Err.zeroDivisionError else _) = _
  rw [if_pos (by push_cast; ring)]

/-- Non-vacuous: precision 2/3, recall 1/2; a matrix with errors of both kinds; everything predicted positive. -/
example : Nonneg ⟨2, 3, 1, 2⟩ ∧ precision ⟨2, 3, 1, 2⟩ = .fin (2 / 3) ∧ recall ⟨2, 3, 1, 2⟩ = .fin (1 / 2) ∧
    f1Score ⟨2, 3, 1, 2⟩ = .fin (4 / 7) ∧ fallOut ⟨2, 3, 1, 2⟩ = .fin (1 / 4) ∧ informedness ⟨2, 3, 1, 2⟩ = .fin (1 / 4) ∧
    positiveLikelihoodRatio ⟨2, 3, 1, 2⟩ = .fin 2 ∧ diagnosticOddsRatio ⟨2, 3, 1, 2⟩ = .fin 3 ∧
    Nonneg ⟨2, 0, 3, 0⟩ ∧ recall ⟨2, 0, 3, 0⟩ = .fin 1 ∧ fallOut ⟨2, 0, 3, 0⟩ = .fin 1 := by
  refine ⟨⟨?_, ?_, ?_, ?_⟩, by decide +kernel, by decide +kernel, by decide +kernel, by decide +kernel, by decide +kernel,
    by decide +kernel, by decide +kernel, ⟨?_, ?_, ?_, ?_⟩, by decide +kernel, by decide +kernel⟩ <;> norm_num

end Bcm
end TFMA
