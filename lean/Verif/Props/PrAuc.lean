import Mathlib.MeasureTheory.Integral.IntervalIntegral.FundThmCalculus
import Mathlib.Analysis.SpecialFunctions.Log.Deriv
import Verif.Model.PrAuc
import Verif.Props.Auc

/-!
# C87: the area under the precision recall curve
-/

namespace TFMA
namespace Bcm

open scoped Interval

/-! ### Specification -/

/-- True positives on the way from the matrix `b` to the matrix `a`. -/
def tpBetween (a b : Matrix) (u : ℝ) : ℝ := b.tp + u * (a.tp - b.tp)

/-- Weight predicted positive on the way from `b` to `a`. -/
def predictedBetween (a b : Matrix) (u : ℝ) : ℝ := (b.tp + b.fp) + u * ((a.tp + a.fp) - (b.tp + b.fp))

/-- The area under the curve of precision over recall that results from moving evenly from one matrix to the next. -/
noncomputable def curveArea (total : ℚ) (ms : List MRow) : ℝ :=
  ((ms.zip ms.tail).map fun s =>
    ((s.1.2.tp : ℝ) - s.2.2.tp) / total * ∫ u in (0 : ℝ)..1, tpBetween s.1.2 s.2.2 u / predictedBetween s.1.2 s.2.2 u).sum

/-- Matrices as they come from one set of examples with ascending thresholds: the total weight of positives is the same, and
at higher thresholds less is predicted positive. -/
structure PrCurve (total : ℚ) (ms : List MRow) : Prop where
  nonneg : ∀ m ∈ ms, 0 ≤ m.2.tp ∧ 0 ≤ m.2.fp ∧ 0 ≤ m.2.fn
  total : ∀ m ∈ ms, m.2.tp + m.2.fn = total
  descending : ms.Pairwise fun a b => b.2.tp ≤ a.2.tp ∧ b.2.fp ≤ a.2.fp

/-! ### One step of the curve -/

private theorem between_integral (tp p d e : ℝ) (hp : 0 < p) (he : 0 < e) :
    ∫ u in (0 : ℝ)..1, (tp + u * d) / (p + u * e) = d / e + (tp - d / e * p) / e * Real.log ((p + e) / p) := by
  have hpos : ∀ u ∈ Set.uIcc (0 : ℝ) 1, 0 < p + u * e := by
    intro u hu
    rw [Set.uIcc_of_le zero_le_one] at hu
    have := mul_nonneg hu.1 (le_of_lt he)
    linarith
  have hderiv : ∀ u ∈ Set.uIcc (0 : ℝ) 1, HasDerivAt (fun u => d / e * u + (tp - d / e * p) / e * Real.log (p + u * e))
      ((tp + u * d) / (p + u * e)) u := by
    intro u hu
    have h0 := hpos u hu
    have h1 : HasDerivAt (fun u : ℝ => p + u * e) e u := by
      simpa using ((hasDerivAt_id u).mul_const e).const_add p
    have h2 : HasDerivAt (fun u : ℝ => Real.log (p + u * e)) (e / (p + u * e)) u := h1.log (ne_of_gt h0)
    have h3 : HasDerivAt (fun u : ℝ => d / e * u) (d / e) u := by
      simpa using (hasDerivAt_id u).const_mul (d / e)
    have h4 := h3.add (h2.const_mul ((tp - d / e * p) / e))
    have hne := ne_of_gt h0
    have : (tp + u * d) / (p + u * e) = d / e + (tp - d / e * p) / e * (e / (p + u * e)) := by
      field_simp
      ring
    rw [this]
    exact h4
  have hcont : ContinuousOn (fun u : ℝ => (tp + u * d) / (p + u * e)) (Set.uIcc 0 1) := by
    apply ContinuousOn.div
    · exact (continuous_const.add (continuous_id.mul continuous_const)).continuousOn
    · exact (continuous_const.add (continuous_id.mul continuous_const)).continuousOn
    · exact fun u hu => ne_of_gt (hpos u hu)
  rw [intervalIntegral.integral_eq_sub_of_hasDerivAt hderiv hcont.intervalIntegrable]
  rw [Real.log_div (by linarith) (by linarith)]
  simp only [mul_one, one_mul, mul_zero, zero_mul, add_zero]
  ring

private theorem start_integral (d e : ℝ) (he : e ≠ 0) : ∫ u in (0 : ℝ)..1, (0 + u * d) / (0 + u * e) = d / e := by
  have : ∫ u in (0 : ℝ)..1, (0 + u * d) / (0 + u * e) = ∫ _ in (0 : ℝ)..1, d / e := by
    apply intervalIntegral.integral_congr_ae
    filter_upwards with u hu
    rw [Set.uIoc_of_le zero_le_one] at hu
    have : u ≠ 0 := ne_of_gt hu.1
    field_simp
    ring
  rw [this]
  simp

/-- The value of one increment, NaN counting as zero. -/
private theorem increment_value (a b : Matrix) (hb : 0 ≤ b.tp ∧ 0 ≤ b.fp) (T : ℚ) (hT : 0 < T)
    (hbT : b.tp + b.fn = T) (h1 : b.tp ≤ a.tp) (h2 : b.fp ≤ a.fp) :
    ∃ x : ℝ, (prIncrement a b = .fin x ∨ (prIncrement a b = .nan ∧ x = 0)) ∧
      x = ((a.tp : ℝ) - b.tp) / T * ∫ u in (0 : ℝ)..1, tpBetween a b u / predictedBetween a b u := by
  have c1 : (0 : ℝ) ≤ b.tp := by exact_mod_cast hb.1
  have c2 : (0 : ℝ) ≤ b.fp := by exact_mod_cast hb.2
  have c3 : (b.tp : ℝ) ≤ a.tp := by exact_mod_cast h1
  have c4 : (b.fp : ℝ) ≤ a.fp := by exact_mod_cast h2
  have c5 : (b.tp : ℝ) + b.fn = T := by exact_mod_cast hbT
  have c6 : (0 : ℝ) < T := by exact_mod_cast hT
  refine ⟨_, ?_, rfl⟩
  unfold prIncrement tpBetween predictedBetween
  simp only
  rw [c5, max_eq_left (le_of_lt c6)]
  set d : ℝ := (a.tp : ℝ) - b.tp with hd
  set p : ℝ := (b.tp : ℝ) + b.fp with hp
  set q : ℝ := (a.tp : ℝ) + a.fp with hq
  have hpq : p ≤ q := by rw [hp, hq]; linarith
  by_cases he : q - p = 0
  · right
    have hd0 : d = 0 := by linarith
    rw [he, hd0]
    simp [Rl.div, Rl.mul, Rl.sub, Rl.neg, Rl.add]
  · left
    have hepos : 0 < q - p := lt_of_le_of_ne (by linarith) (Ne.symm he)
    rw [max_eq_left (le_of_lt hepos)]
    simp only [Rl.div, he, if_false, Rl.mul, Rl.sub, Rl.neg, Rl.add, ne_of_gt c6, Rl.fin.injEq]
    by_cases hp0 : p = 0
    · have t0 : (b.tp : ℝ) = 0 := by linarith
      rw [hp0, t0]
      rw [start_integral d (q - 0) (by rw [hp0] at he; exact he)]
      simp
      ring
    · have hppos : 0 < p := lt_of_le_of_ne (by linarith) (Ne.symm hp0)
      rw [between_integral _ _ _ _ hppos hepos, if_pos ⟨by linarith, hppos⟩, max_eq_left (le_of_lt hppos)]
      have : p + (q - p) = q := by ring
      rw [this]
      field_simp
      ring

private theorem nansum_cons (x : Rl) (y r : ℝ) (l : List Rl) (hx : x = .fin y ∨ (x = .nan ∧ y = 0)) (hl : Rl.nansum l = .fin r) :
    Rl.nansum (x :: l) = .fin (y + r) := by
  rcases hx with rfl | ⟨rfl, rfl⟩
  · simp [Rl.nansum, hl, Rl.add]
  · simp [Rl.nansum, hl]

private theorem zip_tail {α : Type} (a b : α) (l : List α) : (a :: b :: l).zip (a :: b :: l).tail = (a, b) :: (b :: l).zip (b :: l).tail := rfl

/-- **C87**: the area under the precision recall curve by interpolation is the area under the curve that results from moving
evenly from each confusion matrix to the next one. -/
theorem C87_interpolation (T : ℚ) (hT : 0 < T) (ms : List MRow) (h : PrCurve T ms) : aucPrInterpolation ms = .fin (curveArea T ms) := by
  obtain ⟨h1, h2, h3⟩ := h
  unfold aucPrInterpolation curveArea
  induction ms with
  | nil => simp [Rl.nansum]
  | cons a l ih =>
    cases l with
    | nil => simp [Rl.nansum]
    | cons b l =>
      rw [List.pairwise_cons] at h3
      have hab := h3.1 b (by simp)
      have hb := h1 b (by simp)
      obtain ⟨x, hx, hxe⟩ := increment_value a.2 b.2 ⟨hb.1, hb.2.1⟩ T hT (h2 b (by simp)) hab.1 hab.2
      have hr := ih (fun m hm => h1 m (by simp [hm])) (fun m hm => h2 m (by simp [hm])) h3.2
      have := nansum_cons _ x _ _ hx hr
      rw [zip_tail, List.map_cons, List.sum_cons, ← hxe]
      exact this

/-! ### Range of one step -/

private theorem step_integrable (tp p d e : ℝ) (hp : 0 ≤ p) (he : 0 ≤ e) (h0 : p = 0 → tp = 0) :
    IntervalIntegrable (fun u : ℝ => (tp + u * d) / (p + u * e)) MeasureTheory.volume 0 1 := by
  by_cases hp0 : p = 0
  · have ht := h0 hp0
    subst hp0 ht
    have hc : IntervalIntegrable (fun _ : ℝ => d / e) MeasureTheory.volume 0 1 := intervalIntegrable_const
    apply hc.congr
    intro u hu
    rw [Set.uIoc_of_le zero_le_one] at hu
    have : u ≠ 0 := ne_of_gt hu.1
    simp only
    by_cases he0 : e = 0
    · simp [he0]
    · field_simp
      ring
  · have hpos : ∀ u ∈ Set.uIcc (0 : ℝ) 1, 0 < p + u * e := by
      intro u hu
      rw [Set.uIcc_of_le zero_le_one] at hu
      have := mul_nonneg hu.1 he
      have := lt_of_le_of_ne hp (Ne.symm hp0)
      linarith
    apply ContinuousOn.intervalIntegrable
    apply ContinuousOn.div
    · exact (continuous_const.add (continuous_id.mul continuous_const)).continuousOn
    · exact (continuous_const.add (continuous_id.mul continuous_const)).continuousOn
    · exact fun u hu => ne_of_gt (hpos u hu)

private theorem step_bounds (f : ℝ → ℝ) (hf : IntervalIntegrable f MeasureTheory.volume 0 1) (lo hi : ℝ)
    (h : ∀ u ∈ Set.Icc (0 : ℝ) 1, lo ≤ f u ∧ f u ≤ hi) : lo ≤ (∫ u in (0 : ℝ)..1, f u) ∧ (∫ u in (0 : ℝ)..1, f u) ≤ hi := by
  constructor
  · have := intervalIntegral.integral_mono_on zero_le_one intervalIntegrable_const hf (fun u hu => (h u hu).1)
    simpa using this
  · have := intervalIntegral.integral_mono_on zero_le_one hf intervalIntegrable_const (fun u hu => (h u hu).2)
    simpa using this

/-- Casts of one step of a curve. -/
private structure Step (a b : Matrix) : Prop where
  tp : (0 : ℝ) ≤ b.tp
  fp : (0 : ℝ) ≤ b.fp
  tps : (b.tp : ℝ) ≤ a.tp
  fps : (b.fp : ℝ) ≤ a.fp

private theorem Step.of {T : ℚ} {a b : MRow} {l : List MRow} (h : PrCurve T (a :: b :: l)) : Step a.2 b.2 := by
  have h1 := h.nonneg b (by simp)
  have h2 := (List.pairwise_cons.1 h.descending).1 b (by simp)
  exact ⟨by exact_mod_cast h1.1, by exact_mod_cast h1.2.1, by exact_mod_cast h2.1, by exact_mod_cast h2.2⟩

private theorem PrCurve.rest {T : ℚ} {a : MRow} {l : List MRow} (h : PrCurve T (a :: l)) : PrCurve T l :=
  ⟨fun m hm => h.nonneg m (by simp [hm]), fun m hm => h.total m (by simp [hm]), (List.pairwise_cons.1 h.descending).2⟩

private theorem Step.integrable {a b : Matrix} (h : Step a b) :
    IntervalIntegrable (fun u : ℝ => tpBetween a b u / predictedBetween a b u) MeasureTheory.volume 0 1 := by
  obtain ⟨h1, h2, h3, h4⟩ := h
  exact step_integrable _ _ _ _ (by linarith) (by linarith) (fun h => by linarith)

private theorem Step.unit {a b : Matrix} (h : Step a b) : 0 ≤ (∫ u in (0 : ℝ)..1, tpBetween a b u / predictedBetween a b u) ∧
    (∫ u in (0 : ℝ)..1, tpBetween a b u / predictedBetween a b u) ≤ 1 := by
  apply step_bounds _ h.integrable
  obtain ⟨h1, h2, h3, h4⟩ := h
  intro u hu
  unfold tpBetween predictedBetween
  have e1 := mul_nonneg hu.1 (sub_nonneg.2 h3)
  have e2 := mul_nonneg hu.1 (sub_nonneg.2 h4)
  have e3 : u * ((a.tp + a.fp : ℝ) - (b.tp + b.fp)) = u * (a.tp - b.tp) + u * (a.fp - b.fp) := by ring
  rw [e3]
  constructor
  · apply div_nonneg <;> linarith
  · apply div_le_one_of_le₀ <;> linarith

/-- Between two matrices with positive predictions the precision stays between theirs. -/
private theorem Step.between {a b : Matrix} (h : Step a b) (hp : (0 : ℝ) < b.tp + b.fp) :
    min ((a.tp : ℝ) / (a.tp + a.fp)) (b.tp / (b.tp + b.fp)) ≤ (∫ u in (0 : ℝ)..1, tpBetween a b u / predictedBetween a b u) ∧
    (∫ u in (0 : ℝ)..1, tpBetween a b u / predictedBetween a b u) ≤ max ((a.tp : ℝ) / (a.tp + a.fp)) (b.tp / (b.tp + b.fp)) := by
  apply step_bounds _ h.integrable
  obtain ⟨h1, h2, h3, h4⟩ := h
  intro u hu
  unfold tpBetween predictedBetween
  set x := (a.tp : ℝ) / (a.tp + a.fp) with hx
  set y := (b.tp : ℝ) / (b.tp + b.fp) with hy
  have hq : (0 : ℝ) < a.tp + a.fp := by linarith
  have ea : (a.tp : ℝ) = x * (a.tp + a.fp) := by rw [hx]; field_simp
  have eb : (b.tp : ℝ) = y * (b.tp + b.fp) := by rw [hy]; field_simp
  have e1 : (b.tp : ℝ) + u * (a.tp - b.tp) = (1 - u) * (y * (b.tp + b.fp)) + u * (x * (a.tp + a.fp)) := by
    rw [← ea, ← eb]; ring
  have e2 : (b.tp + b.fp : ℝ) + u * ((a.tp + a.fp) - (b.tp + b.fp)) = (1 - u) * (b.tp + b.fp) + u * (a.tp + a.fp) := by ring
  have f1 : 0 ≤ (1 - u) * ((b.tp : ℝ) + b.fp) := mul_nonneg (by linarith [hu.2]) (le_of_lt hp)
  have f2 : 0 ≤ u * ((a.tp : ℝ) + a.fp) := mul_nonneg hu.1 (le_of_lt hq)
  have hpos : 0 < (1 - u) * ((b.tp : ℝ) + b.fp) + u * (a.tp + a.fp) := by
    have : (b.tp + b.fp : ℝ) ≤ a.tp + a.fp := by linarith
    have := mul_nonneg hu.1 (sub_nonneg.2 this)
    nlinarith
  rw [e1, e2]
  constructor
  · rw [le_div_iff₀ hpos]
    have g1 := mul_le_mul_of_nonneg_right (min_le_left x y) f2
    have g2 := mul_le_mul_of_nonneg_right (min_le_right x y) f1
    nlinarith
  · rw [div_le_iff₀ hpos]
    have g1 := mul_le_mul_of_nonneg_right (le_max_left x y) f2
    have g2 := mul_le_mul_of_nonneg_right (le_max_right x y) f1
    nlinarith

private theorem curveArea_cons (T : ℚ) (a b : MRow) (l : List MRow) : curveArea T (a :: b :: l) =
    ((a.2.tp : ℝ) - b.2.tp) / T * (∫ u in (0 : ℝ)..1, tpBetween a.2 b.2 u / predictedBetween a.2 b.2 u) + curveArea T (b :: l) := by
  unfold curveArea
  rw [zip_tail, List.map_cons, List.sum_cons]

/-- **C87** (range): the area is between 0 and 1. -/
theorem C87_range (T : ℚ) (hT : 0 < T) (ms : List MRow) (h : PrCurve T ms) : 0 ≤ curveArea T ms ∧ curveArea T ms ≤ 1 := by
  have cT : (0 : ℝ) < T := by exact_mod_cast hT
  have key : ∀ (a : MRow) (l : List MRow), PrCurve T (a :: l) → 0 ≤ curveArea T (a :: l) ∧ curveArea T (a :: l) ≤ a.2.tp / T := by
    intro a l
    induction l generalizing a with
    | nil =>
      intro h
      have : (0 : ℝ) ≤ a.2.tp := by exact_mod_cast (h.nonneg a (by simp)).1
      simp only [curveArea, List.tail_cons, List.zip_nil_right, List.map_nil, List.sum_nil, le_refl, true_and]
      positivity
    | cons b l ih =>
      intro h
      obtain ⟨i1, i2⟩ := ih b h.rest
      have st := Step.of h
      obtain ⟨u1, u2⟩ := st.unit
      rw [curveArea_cons]
      have w : 0 ≤ ((a.2.tp : ℝ) - b.2.tp) / T := div_nonneg (by linarith [st.tps]) (le_of_lt cT)
      constructor
      · have := mul_nonneg w u1
        linarith
      · have := mul_le_mul_of_nonneg_left u2 w
        have e : (a.2.tp : ℝ) / T = ((a.2.tp : ℝ) - b.2.tp) / T * 1 + b.2.tp / T := by ring
        linarith
  cases ms with
  | nil => simp [curveArea]
  | cons a l =>
    obtain ⟨k1, k2⟩ := key a l h
    refine ⟨k1, le_trans k2 ?_⟩
    rw [div_le_one cT]
    have := h.total a (by simp)
    have h3 := (h.nonneg a (by simp)).2.2
    have : a.2.tp ≤ T := by linarith
    exact_mod_cast this

/-! ### Minoring and majoring -/

/-- The sum of the rectangles over the steps between thresholds at which something is predicted positive, with the smaller or
the larger of the two precisions as height. -/
def rectangles (pick : ℚ → ℚ → ℚ) (total : ℚ) (ms : List MRow) : ℚ :=
  ((ms.zip ms.tail).map fun s =>
    if s.2.2.tp + s.2.2.fp = 0 then 0
    else (s.1.2.tp - s.2.2.tp) / total * pick (s.1.2.tp / (s.1.2.tp + s.1.2.fp)) (s.2.2.tp / (s.2.2.tp + s.2.2.fp))).sum

private theorem nansum_terms (xs : List Fl) (ys : List ℚ) (h : List.Forall₂ (fun x y => x = .fin y ∨ (x = .nan ∧ y = 0)) xs ys) :
    nansum xs = .fin ys.sum := by
  have : ∀ s : ℚ, xs.foldl (fun s x => if x = .nan then s else Fl.add s x) (.fin s) = .fin (s + ys.sum) := by
    induction h with
    | nil => intro s; simp
    | cons hx _ ih =>
      intro s
      rw [List.foldl_cons]
      rcases hx with rfl | ⟨rfl, rfl⟩
      · rw [if_neg (by exact fun h => nomatch h)]
        change List.foldl _ (Fl.fin (s + _)) _ = _
        rw [ih, List.sum_cons, add_assoc]
      · rw [if_pos rfl, ih, List.sum_cons, zero_add]
  have h0 := this 0
  rw [zero_add] at h0
  exact h0

private theorem bounds_terms (m : Summation) (pick : ℚ → ℚ → ℚ) (hpick : ∀ x y : ℚ, height m (.fin x) (.fin y) = .fin (pick x y))
    (hnan : ∀ x : Fl, height m x .nan = .nan)
    (T : ℚ) (hT : 0 < T) (ms : List MRow) (h : PrCurve T ms) : aucPrBounds m ms = .fin (rectangles pick T ms) := by
  unfold aucPrBounds area rectangles
  apply nansum_terms
  unfold share
  induction ms with
  | nil => exact .nil
  | cons a l ih =>
    cases l with
    | nil => exact .nil
    | cons b l =>
      refine .cons ?_ (ih h.rest)
      have ta := h.total a (by simp)
      have tb := h.total b (by simp)
      have nb := h.nonneg b (by simp)
      have na := h.nonneg a (by simp)
      have hab := (List.pairwise_cons.1 h.descending).1 b (by simp)
      beta_reduce
      rw [ta, tb]
      by_cases hp : b.2.tp + b.2.fp = 0
      · right
        have hb0 : b.2.tp = 0 := by linarith
        rw [hp, hb0]
        simp only [Fl.div, if_true, hnan, Fl.mul]
        cases Fl.sub _ _ <;> simp
      · left
        have hq : a.2.tp + a.2.fp ≠ 0 := by
          intro hq
          apply hp
          linarith
        simp only [Fl.div, hp, hq, ne_of_gt hT, if_false, hpick, Fl.sub, Fl.neg, Fl.add, Fl.mul, Fl.fin.injEq]
        ring

private theorem min_height (x y : ℚ) : height .minoring (.fin x) (.fin y) = .fin (min x y) := by
  unfold height npMin
  simp only [reduceCtorEq, if_false, Fl.le, decide_eq_true_eq]
  split
  · rename_i h; rw [min_eq_left h]
  · rename_i h; rw [min_eq_right (le_of_lt (not_le.1 h))]

private theorem max_height (x y : ℚ) : height .majoring (.fin x) (.fin y) = .fin (max x y) := by
  unfold height npMax
  simp only [reduceCtorEq, if_false, Fl.le, decide_eq_true_eq]
  split
  · rename_i h; rw [max_eq_right h]
  · rename_i h; rw [max_eq_left (le_of_lt (not_le.1 h))]

/-- **C87**: the methods minoring and majoring sum rectangles with the smaller and the larger precision, but leave out the steps to
thresholds at which nothing is predicted positive. -/
theorem C87_rectangles (T : ℚ) (hT : 0 < T) (ms : List MRow) (h : PrCurve T ms) :
    aucPrBounds .minoring ms = .fin (rectangles min T ms) ∧ aucPrBounds .majoring ms = .fin (rectangles max T ms) := by
  refine ⟨bounds_terms .minoring min min_height ?_ T hT ms h, bounds_terms .majoring max max_height ?_ T hT ms h⟩
  · intro x; cases x <;> simp [height, npMin]
  · intro x; cases x <;> simp [height, npMax]

private theorem rectangles_cons (pick : ℚ → ℚ → ℚ) (T : ℚ) (a b : MRow) (l : List MRow) : rectangles pick T (a :: b :: l) =
    (if b.2.tp + b.2.fp = 0 then 0
      else (a.2.tp - b.2.tp) / T * pick (a.2.tp / (a.2.tp + a.2.fp)) (b.2.tp / (b.2.tp + b.2.fp))) + rectangles pick T (b :: l) := by
  unfold rectangles
  rw [zip_tail, List.map_cons, List.sum_cons]

/-- **C87**: minoring is a lower bound of the area. -/
theorem C87_lower (T : ℚ) (hT : 0 < T) (ms : List MRow) (h : PrCurve T ms) : (rectangles min T ms : ℝ) ≤ curveArea T ms := by
  have cT : (0 : ℝ) < T := by exact_mod_cast hT
  induction ms with
  | nil => simp [rectangles, curveArea]
  | cons a l ih =>
    cases l with
    | nil => simp [rectangles, curveArea]
    | cons b l =>
      have i := ih h.rest
      have st := Step.of h
      rw [rectangles_cons, curveArea_cons]
      have w : 0 ≤ ((a.2.tp : ℝ) - b.2.tp) / T := div_nonneg (by linarith [st.tps]) (le_of_lt cT)
      split
      · have := mul_nonneg w st.unit.1
        push_cast
        linarith
      · rename_i hp
        have hp' : (0 : ℝ) < b.2.tp + b.2.fp := by
          have : ((b.2.tp + b.2.fp : ℚ) : ℝ) ≠ 0 := by exact_mod_cast hp
          push_cast at this
          exact lt_of_le_of_ne (by linarith [st.tp, st.fp]) (Ne.symm this)
        have := mul_le_mul_of_nonneg_left (st.between hp').1 w
        push_cast
        linarith

/-- **C87**: majoring is an upper bound of the area if something is predicted positive at all thresholds.  Missing: it is no upper
bound otherwise, see `C87_majoring_zero`. -/
theorem C87_upper_partial (T : ℚ) (hT : 0 < T) (ms : List MRow) (h : PrCurve T ms) (hp : ∀ m ∈ ms, 0 < m.2.tp + m.2.fp) :
    curveArea T ms ≤ (rectangles max T ms : ℝ) := by
  have cT : (0 : ℝ) < T := by exact_mod_cast hT
  induction ms with
  | nil => simp [rectangles, curveArea]
  | cons a l ih =>
    cases l with
    | nil => simp [rectangles, curveArea]
    | cons b l =>
      have i := ih h.rest (fun m hm => hp m (by simp [hm]))
      have st := Step.of h
      rw [rectangles_cons, curveArea_cons]
      have w : 0 ≤ ((a.2.tp : ℝ) - b.2.tp) / T := div_nonneg (by linarith [st.tps]) (le_of_lt cT)
      have hpb := hp b (by simp)
      rw [if_neg (ne_of_gt hpb)]
      have hp' : (0 : ℝ) < b.2.tp + b.2.fp := by exact_mod_cast hpb
      have := mul_le_mul_of_nonneg_left (st.between hp').2 w
      push_cast
      linarith

/-- **C87** (negation): a threshold above all predictions adds nothing to the value of majoring or minoring, though the recall
drops to zero there. -/
theorem C87_end_lost (T : ℚ) (hT : 0 < T) (ms : List MRow) (z : MRow) (h : PrCurve T (ms ++ [z])) (hz : z.2.tp + z.2.fp = 0) :
    aucPrBounds .majoring (ms ++ [z]) = aucPrBounds .majoring ms ∧ aucPrBounds .minoring (ms ++ [z]) = aucPrBounds .minoring ms := by
  have hms : PrCurve T ms := by
    refine ⟨fun m hm => h.nonneg m (by simp [hm]), fun m hm => h.total m (by simp [hm]), ?_⟩
    exact (List.pairwise_append.1 h.descending).1
  have key : ∀ (pick : ℚ → ℚ → ℚ) (l : List MRow), rectangles pick T (l ++ [z]) = rectangles pick T l := by
    intro pick l
    induction l with
    | nil => simp [rectangles]
    | cons a l ih =>
      cases l with
      | nil =>
        change rectangles pick T (a :: z :: []) = _
        rw [rectangles_cons, if_pos hz]
        simp [rectangles]
      | cons b l =>
        change rectangles pick T (a :: b :: (l ++ [z])) = _
        rw [rectangles_cons, rectangles_cons]
        congr 1
  have h1 := C87_rectangles T hT _ h
  have h2 := C87_rectangles T hT _ hms
  exact ⟨by rw [h1.2, h2.2, key], by rw [h1.1, h2.1, key]⟩

/-! ### Matrices of examples -/

private theorem ww_mono (p q : Row → Prop) [DecidablePred p] [DecidablePred q] (rows : List Row) (h : NonnegWeights rows)
    (hpq : ∀ r, p r → q r) : weightWhere p rows ≤ weightWhere q rows := by
  unfold weightWhere
  induction rows with
  | nil => simp
  | cons r rows ih =>
    have hr := h r (by simp)
    have i := ih fun r' hr' => h r' (by simp [hr'])
    by_cases h1 : p r
    · have h2 := hpq r h1
      simp only [List.filter_cons, h1, h2, decide_true, if_true, List.map_cons, List.sum_cons] at i ⊢
      linarith
    · by_cases h2 : q r
      · simp only [List.filter_cons, h1, h2, decide_true, decide_false, if_true, Bool.false_eq_true, if_false, List.map_cons, List.sum_cons] at i ⊢
        linarith
      · simp only [List.filter_cons, h1, h2, decide_false, Bool.false_eq_true, if_false] at i ⊢
        exact i

private theorem label_true (t : Fl) (r : Row) : LabelPos true t r.label ↔ IsPos r := Iff.rfl

private theorem ww_total (t : Fl) (rows : List Row) :
    (matrixOf true t rows).tp + (matrixOf true t rows).fn = ((positives rows).map Row.weight).sum := by
  unfold matrixOf weightWhere positives
  simp only
  induction rows with
  | nil => simp
  | cons r rows ih =>
    have : LabelPos true t r.label ↔ IsPos r := label_true t r
    by_cases h1 : IsPos r <;> by_cases h2 : Fl.lt t r.pred = true <;> simp_all [List.filter_cons] <;> linarith

private theorem lt_chain {a b c : Fl} (h1 : Fl.lt a b = true) (h2 : Fl.lt b c = true) : Fl.lt a c = true := by
  unfold Fl.lt at h1 h2 ⊢
  cases a <;> cases b <;> cases c <;> simp [Fl.le] at h1 h2 ⊢
  all_goals first | (constructor <;> linarith [h1.1, h1.2, h2.1, h2.2]) | skip

/-- **C87**: the confusion matrices of examples at ascending thresholds form such a curve. -/
theorem C87_matrices (ts : List Fl) (hs : AscendingThresholds ts) (rows : List Row) (h : NonnegWeights rows) :
    PrCurve ((positives rows).map Row.weight).sum (matricesOf ts rows) := by
  have nn : ∀ (p : Row → Prop) [DecidablePred p], 0 ≤ weightWhere p rows := by
    intro p _
    have := ww_mono (fun _ => False) p rows h (fun _ h => h.elim)
    simpa [weightWhere] using this
  refine ⟨?_, ?_, ?_⟩
  · intro m hm
    obtain ⟨t, -, rfl⟩ := List.mem_map.1 hm
    exact ⟨nn _, nn _, nn _⟩
  · intro m hm
    obtain ⟨t, -, rfl⟩ := List.mem_map.1 hm
    exact ww_total t rows
  · unfold matricesOf
    rw [List.pairwise_map]
    refine hs.imp ?_
    intro t t' htt
    have : ∀ r : Row, Fl.lt t' r.pred = true → Fl.lt t r.pred = true := fun r hr => lt_chain htt hr
    exact ⟨ww_mono _ _ rows h fun r hr => ⟨hr.1, this r hr.2⟩, ww_mono _ _ rows h fun r hr => ⟨hr.1, this r hr.2⟩⟩

/-- Both of the above for examples. -/
theorem C87_examples (ts : List Fl) (hs : AscendingThresholds ts) (rows : List Row) (h : NonnegWeights rows)
    (hp : 0 < ((positives rows).map Row.weight).sum) :
    ∃ x : ℝ, ∃ lo : ℚ, aucPrInterpolation (matricesOf ts rows) = .fin x ∧ aucPrBounds .minoring (matricesOf ts rows) = .fin lo ∧
      0 ≤ x ∧ x ≤ 1 ∧ (lo : ℝ) ≤ x := by
  have hc := C87_matrices ts hs rows h
  exact ⟨_, _, C87_interpolation _ hp _ hc, (C87_rectangles _ hp _ hc).1, (C87_range _ hp _ hc).1, (C87_range _ hp _ hc).2,
    C87_lower _ hp _ hc⟩

/-! ### Perfect classifiers -/

/-- **C87**: if no step changes the recall while there are false positives, the area is the difference of the recalls at the ends. -/
theorem C87_pure (T : ℚ) (hT : 0 < T) (a : MRow) (l : List MRow) (h : PrCurve T (a :: l))
    (hpure : ∀ s ∈ (a :: l).zip l, s.1.2.tp = s.2.2.tp ∨ s.1.2.fp = 0) :
    aucPrInterpolation (a :: l) = .fin (((a.2.tp : ℝ) - ((a :: l).getLast (by simp)).2.tp) / T) := by
  rw [C87_interpolation T hT _ h]
  congr 1
  induction l generalizing a with
  | nil => simp [curveArea]
  | cons b l ih =>
    rw [curveArea_cons, ih b h.rest fun s hs => hpure s (by simp only [List.zip_cons_cons, List.mem_cons]; right; exact hs)]
    have hlast : (a :: b :: l).getLast (by simp) = (b :: l).getLast (by simp) := List.getLast_cons (by simp)
    rw [hlast]
    have st := Step.of h
    rcases hpure (a, b) (by simp) with e | e
    · rw [show a.2.tp = b.2.tp from e]
      simp
    · have fa : (a.2.fp : ℝ) = 0 := by exact_mod_cast e
      have fb : (b.2.fp : ℝ) = 0 := le_antisymm (by linarith [st.fps]) st.fp
      by_cases hd : (a.2.tp : ℝ) = b.2.tp
      · rw [hd]
        simp
      · have hi : (∫ u in (0 : ℝ)..1, tpBetween a.2 b.2 u / predictedBetween a.2 b.2 u) = 1 := by
          have : (∫ u in (0 : ℝ)..1, tpBetween a.2 b.2 u / predictedBetween a.2 b.2 u) = ∫ _ in (0 : ℝ)..1, (1 : ℝ) := by
            apply intervalIntegral.integral_congr_ae
            filter_upwards with u hu
            rw [Set.uIoc_of_le zero_le_one] at hu
            unfold tpBetween predictedBetween
            rw [fa, fb, add_zero, add_zero]
            apply div_self
            have := mul_pos hu.1 (sub_pos.2 (lt_of_le_of_ne st.tps (Ne.symm hd)))
            linarith [st.tp]
          rw [this]
          simp
        rw [hi]
        ring

/-- **C87** (negation): for a perfect classifier with a threshold above and one below all predictions the area by interpolation is 1,
but the area by majoring, an upper bound elsewhere, is 0. -/
theorem C87_majoring_zero :
    aucPrInterpolation (matricesOf [.fin (-1), .fin (1 / 2), .fin 2] [⟨.fin 1, .fin (9 / 10), 1⟩, ⟨.fin 0, .fin (1 / 10), 1⟩]) = .fin 1 ∧
    aucPrBounds .majoring (matricesOf [.fin (-1), .fin (1 / 2), .fin 2] [⟨.fin 1, .fin (9 / 10), 1⟩, ⟨.fin 0, .fin (1 / 10), 1⟩]) =
      .fin 0 := by
  constructor
  · have hm : matricesOf [.fin (-1), .fin (1 / 2), .fin 2] [⟨.fin 1, .fin (9 / 10), 1⟩, ⟨.fin 0, .fin (1 / 10), 1⟩] =
        [(.fin (-1), ⟨1, 0, 1, 0⟩), (.fin (1 / 2), ⟨1, 1, 0, 0⟩), (.fin 2, ⟨0, 1, 0, 1⟩)] := by decide +kernel
    have hc : PrCurve 1 (matricesOf [.fin (-1), .fin (1 / 2), .fin 2] [⟨.fin 1, .fin (9 / 10), 1⟩, ⟨.fin 0, .fin (1 / 10), 1⟩]) := by
      have := C87_matrices [.fin (-1), .fin (1 / 2), .fin 2] (by unfold AscendingThresholds; decide +kernel)
        [⟨.fin 1, .fin (9 / 10), 1⟩, ⟨.fin 0, .fin (1 / 10), 1⟩] (by unfold NonnegWeights; decide +kernel)
      have e : ((positives [⟨.fin 1, .fin (9 / 10), 1⟩, ⟨.fin 0, .fin (1 / 10), 1⟩]).map Row.weight).sum = 1 := by decide +kernel
      rw [e] at this
      exact this
    rw [hm] at hc ⊢
    rw [C87_pure 1 one_pos _ _ hc (by decide +kernel)]
    simp
  · decide +kernel

/-- **C87**: without positive examples all methods return 0. -/
theorem C87_no_positives (ms : List MRow) (h : ∀ m ∈ ms, m.2.tp = 0 ∧ m.2.fn = 0) :
    aucPrInterpolation ms = .fin 0 ∧ ∀ m, aucPrBounds m ms = .fin 0 := by
  constructor
  · unfold aucPrInterpolation
    induction ms with
    | nil => rfl
    | cons a l ih =>
      cases l with
      | nil => rfl
      | cons b l =>
        have ha := h a (by simp)
        have hb := h b (by simp)
        have i := ih fun m hm => h m (by simp [hm])
        have : prIncrement a.2 b.2 = .nan := by
          unfold prIncrement
          simp only [ha.1, hb.1, hb.2, Rat.cast_zero, sub_self, zero_add, max_self, add_zero]
          by_cases he : max ((a.2.fp : ℝ) - b.2.fp) 0 = 0
          · simp [he, Rl.div, Rl.mul]
          · simp [he, Rl.div, Rl.mul, Rl.sub, Rl.neg, Rl.add]
        change Rl.nansum (prIncrement a.2 b.2 :: _) = _
        rw [this]
        exact i
  · intro m
    unfold aucPrBounds area
    have : nansum (List.zipWith Fl.mul (List.zipWith Fl.sub (share Matrix.tp Matrix.fn ms).dropLast (share Matrix.tp Matrix.fn ms).tail)
        (List.zipWith (height m) (share Matrix.tp Matrix.fp ms).dropLast (share Matrix.tp Matrix.fp ms).tail)) =
        .fin ((ms.zip ms.tail).map fun _ => (0 : ℚ)).sum := by
      apply nansum_terms
      unfold share
      induction ms with
      | nil => exact .nil
      | cons a l ih =>
        cases l with
        | nil => exact .nil
        | cons b l =>
          refine .cons (.inr ⟨?_, rfl⟩) (ih fun m hm => h m (by simp [hm]))
          have ha := h a (by simp)
          have hb := h b (by simp)
          simp [ha.1, ha.2, Fl.div, Fl.sub, Fl.add, Fl.mul]
    rw [this]
    simp

/-- A curve whose precision falls and rises; the methods differ. -/
example : aucPrBounds .minoring [(.fin 0, ⟨2, 0, 2, 0⟩), (.fin (1 / 4), ⟨1, 0, 2, 1⟩), (.fin (1 / 2), ⟨1, 2, 0, 1⟩)] = .fin (1 / 6) ∧
    aucPrBounds .majoring [(.fin 0, ⟨2, 0, 2, 0⟩), (.fin (1 / 4), ⟨1, 0, 2, 1⟩), (.fin (1 / 2), ⟨1, 2, 0, 1⟩)] = .fin (1 / 4) ∧
    PrCurve 2 [(.fin 0, ⟨2, 0, 2, 0⟩), (.fin (1 / 4), ⟨1, 0, 2, 1⟩), (.fin (1 / 2), ⟨1, 2, 0, 1⟩)] := by
  refine ⟨by decide +kernel, by decide +kernel, by decide +kernel, by decide +kernel, by decide +kernel⟩

end Bcm
end TFMA
