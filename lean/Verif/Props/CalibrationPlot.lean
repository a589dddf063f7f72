import Verif.Props.Plots

/-!
# C105: calibration plots
-/

namespace TFMA
namespace Plots

open Beam
open Histogram (HExample Bucket InBucket)

/-! ### Specification -/

/-- Lower and upper end of the `j`-th bucket of a plot with `n` buckets over the range. -/
def lowerEnd (n : ℕ) (left right : ℚ) (j : ℕ) : Fl := if j = 0 then .ninf else .fin (left + (j - 1) * ((right - left) / n))
def upperEnd (n : ℕ) (left right : ℚ) (j : ℕ) : Fl := if j = n + 1 then .pinf else .fin (left + j * ((right - left) / n))

/-- The value is in the `j`-th bucket: at least its lower end and below its upper end (the last bucket has no upper end). -/
def inPlotBucket (n : ℕ) (left right : ℚ) (j : ℕ) (p : Fl) : Bool :=
  Fl.le (lowerEnd n left right j) p && (decide (j = n + 1) || Fl.lt p (upperEnd n left right j))

/-- The bucket of the plot for a list of examples. -/
def plotBucketOf (n : ℕ) (left right : ℚ) (j : ℕ) (es : List HExample) : PlotBucket where
  lower := lowerEnd n left right j
  upper := upperEnd n left right j
  labels := (es.map fun e => e.label * e.weight).sum
  predictions := (es.map fun e => Fl.mul e.pred (.fin e.weight)).foldr Fl.add (.fin 0)
  examples := (es.map fun e => e.weight).sum

/-- A prediction rounded down to one ten thousandth of the range. -/
def roundDown (left right : ℚ) : Fl → Fl
  | .fin q =>
    if q < left then .ninf else if right ≤ q then .pinf
    else .fin (left + ⌊(q - left) / ((right - left) / 10000)⌋ * ((right - left) / 10000))
  | x => x

/-! ### Helpers -/

private def flMonoid : AddCommMonoid Fl :=
  letI : Zero Fl := ⟨.fin 0⟩
  letI : Add Fl := ⟨Fl.add⟩
  { add_assoc := Fl.add_assoc
    zero_add := Fl.zero_add
    add_zero := fun a => by show Fl.add a (.fin 0) = a; rw [Fl.add_comm, Fl.zero_add]
    add_comm := Fl.add_comm
    nsmul := nsmulRec }

private theorem group_sum {α M : Type} [AddCommMonoid M] (N : ℕ) (idx : α → ℕ → Prop) [∀ a, DecidablePred (idx a)]
    (l : List α) (f : α → M) (h : ∀ a ∈ l, ∃ i, i < N ∧ ∀ k, idx a k ↔ k = i) :
    (((List.range N).filter fun i => l.any fun a => decide (idx a i)).map fun i =>
      ((l.filter fun a => decide (idx a i)).map f).sum).sum = (l.map f).sum := by
  have e : ∀ r : List ℕ, ((r.filter fun i => l.any fun a => decide (idx a i)).map fun i =>
      ((l.filter fun a => decide (idx a i)).map f).sum).sum =
      (r.map fun i => ((l.filter fun a => decide (idx a i)).map f).sum).sum := by
    intro r
    induction r with
    | nil => rfl
    | cons i r ih =>
      by_cases hi : l.any (fun a => decide (idx a i)) = true
      · rw [List.filter_cons_of_pos (by exact hi), List.map_cons, List.sum_cons, ih, List.map_cons, List.sum_cons]
      · rw [List.filter_cons_of_neg (by exact hi), ih, List.map_cons, List.sum_cons]
        have : l.filter (fun a => decide (idx a i)) = [] := by
          rw [List.filter_eq_nil_iff]
          intro a ha hd
          exact hi (List.any_eq_true.2 ⟨a, ha, hd⟩)
        rw [this]; simp
  rw [e]
  clear e
  induction l with
  | nil => simp
  | cons a l ih =>
    obtain ⟨i, hi, hk⟩ := h a (by simp)
    have hone : ∀ r : List ℕ, r.Nodup → (r.map fun k => (((a :: l).filter fun a => decide (idx a k)).map f).sum).sum =
        (if i ∈ r then f a else 0) + (r.map fun k => ((l.filter fun a => decide (idx a k)).map f).sum).sum := by
      intro r hr
      induction r with
      | nil => simp
      | cons k r ihr =>
        rw [List.nodup_cons] at hr
        rw [List.map_cons, List.sum_cons, ihr hr.2, List.map_cons, List.sum_cons]
        by_cases hki : k = i
        · subst hki
          have hd : idx a k := (hk k).2 rfl
          simp [hd, hr.1, add_assoc]
        · have hd : ¬ idx a k := fun h => hki ((hk k).1 h)
          have hik : ¬ i = k := fun h => hki h.symm
          simp only [List.filter_cons, hd, decide_false, Bool.false_eq_true, if_false, List.mem_cons, hik, false_or]
          rw [← add_assoc, ← add_assoc, add_comm (if i ∈ r then f a else 0)]
    rw [hone _ List.nodup_range, if_pos (List.mem_range.2 hi), ih fun b hb => h b (by simp [hb]), List.map_cons, List.sum_cons]

private theorem sum_histogram (cfg : Histogram.Config) (hc : cfg.Valid) (j : ℕ) (es : List HExample)
    (hn : ∀ e ∈ es, Histogram.bucketValue cfg e ≠ .nan) :
    Histogram.sumBuckets j (Histogram.histogramOf cfg es) = Histogram.bucketOf j es := by
  have hidx : ∀ e ∈ es, ∃ i, i < cfg.num + 2 ∧ ∀ k, InBucket cfg k (Histogram.bucketValue cfg e) ↔ k = i := by
    intro e he
    obtain ⟨i, hi, hu⟩ := Histogram.C18_bucket_unique cfg hc _ (hn e he)
    refine ⟨i, ?_, fun k => ⟨fun h => hu k h, fun h => h ▸ hi⟩⟩
    cases hv : Histogram.bucketValue cfg e with
    | nan => exact absurd hv (hn e he)
    | ninf => rw [hv] at hi; simp only [InBucket] at hi; omega
    | pinf => rw [hv] at hi; simp only [InBucket] at hi; omega
    | fin q =>
      rw [hv] at hi
      simp only [InBucket] at hi
      rcases hi with ⟨h, _⟩ | ⟨_, h, _⟩ | ⟨h, _⟩ <;> omega
  unfold Histogram.sumBuckets Histogram.histogramOf Histogram.bucketOf
  simp only [List.map_map, Function.comp_def, Histogram.Bucket.mk.injEq, true_and]
  refine ⟨?_, ?_, ?_⟩
  · exact group_sum _ _ es _ hidx
  · exact @group_sum HExample Fl flMonoid _ _ _ es _ hidx
  · exact group_sum _ _ es _ hidx

private theorem start_roundDown (left right : ℚ) (hlr : left < right) (i : ℕ) (v : Fl)
    (h : InBucket ⟨10000, left, right, true⟩ i v) : Histogram.bucketStart 10000 left right i = roundDown left right v := by
  have hw : (0 : ℚ) < (right - left) / 10000 := by
    have : 0 < right - left := by linarith
    positivity
  cases v with
  | nan => exact h.elim
  | ninf => simp only [InBucket] at h; subst h; rfl
  | pinf => simp only [InBucket] at h; subst h; simp [Histogram.bucketStart, roundDown]
  | fin q =>
    simp only [InBucket] at h
    rcases h with ⟨rfl, h⟩ | ⟨h1, h2, h3, h4⟩ | ⟨rfl, h⟩
    · simp [Histogram.bucketStart, roundDown, h]
    · have h0 : i ≠ 0 := by omega
      have hN : ¬ 10000 + 1 ≤ i := by omega
      have h1' : (1 : ℚ) ≤ i := by exact_mod_cast h1
      have h2' : (i : ℚ) ≤ 10000 := by exact_mod_cast h2
      push_cast at h3 h4
      have e1 : (0 : ℚ) ≤ ((i : ℚ) - 1) * ((right - left) / 10000) := mul_nonneg (by linarith) hw.le
      have e2 : (i : ℚ) * ((right - left) / 10000) ≤ 10000 * ((right - left) / 10000) :=
        mul_le_mul_of_nonneg_right h2' hw.le
      have hq : ¬ q < left := by push Not; linarith
      have hq1 : ¬ right ≤ q := by push Not; linarith
      have hfl : ⌊(q - left) / ((right - left) / 10000)⌋ = (i : ℤ) - 1 := by
        rw [Int.floor_eq_iff]
        push_cast
        constructor
        · rw [le_div_iff₀ hw]; linarith
        · rw [div_lt_iff₀ hw]; linarith
      simp only [Histogram.bucketStart, h0, hN, if_false, roundDown, hq, hq1, hfl]
      push_cast
      congr 1
      ring
    · have hq : ¬ q < left := by push Not; linarith
      simp [Histogram.bucketStart, roundDown, hq, h]

private theorem toBuckets_get (lo : Fl) (rest : List Fl) (bs : List Bucket) (i : ℕ) :
    (toBuckets lo rest bs)[i]? = bs[i]?.map fun b =>
      ⟨if i = 0 then lo else (rest[i - 1]?).getD .pinf, (rest[i]?).getD .pinf, b.labels, b.predictions, b.examples⟩ := by
  induction bs generalizing lo rest i with
  | nil => simp [toBuckets]
  | cons b bs ih =>
    cases i with
    | zero => cases rest <;> simp [toBuckets]
    | succ i =>
      simp only [toBuckets, List.getElem?_cons_succ, ih]
      congr 1
      funext b
      cases rest with
      | nil => cases i <;> simp
      | cons t rest => cases i <;> simp

private theorem ts_get (n : ℕ) (left right : ℚ) (j : ℕ) :
    (Fl.ninf :: (List.range (n + 1)).map fun (i : ℕ) => Fl.fin (left + i * (right - left) / n))[j]? =
      if j ≤ n + 1 then some (lowerEnd n left right j) else none := by
  cases j with
  | zero => simp [lowerEnd]
  | succ j =>
    rw [List.getElem?_cons_succ, List.getElem?_map]
    by_cases h : j + 1 ≤ n + 1
    · rw [List.getElem?_range (by omega), if_pos h]
      simp [lowerEnd, mul_div_assoc]
    · rw [if_neg h, List.getElem?_eq_none (by simp; omega)]
      rfl

private theorem lower_succ (n : ℕ) (left right : ℚ) (j : ℕ) (h : j ≤ n) : lowerEnd n left right (j + 1) = upperEnd n left right j := by
  have : ¬ j = n + 1 := by omega
  simp [lowerEnd, upperEnd, this]

private theorem slot_eq (n : ℕ) (left right : ℚ) (j : ℕ) (hj : j < n + 2) (v : Fl) (hv : v ≠ .nan) :
    Histogram.inSlot (Fl.ninf :: (List.range (n + 1)).map fun (i : ℕ) => Fl.fin (left + i * (right - left) / n)) j v =
      inPlotBucket n left right j v := by
  unfold Histogram.inSlot inPlotBucket
  rw [ts_get, ts_get, if_pos (by omega)]
  have hlow : (j == 0 || Fl.le (lowerEnd n left right j) v) = Fl.le (lowerEnd n left right j) v := by
    by_cases h : j = 0
    · subst h
      cases v <;> simp_all [lowerEnd, Fl.le]
    · simp [h]
  congr 1
  by_cases h : j = n + 1
  · rw [if_neg (by omega)]; simp [h]
  · rw [if_pos (by omega), lower_succ n left right j (by omega)]
    simp only [h, decide_false, Bool.false_or]
    unfold Fl.lt upperEnd
    rw [if_neg h]
    cases v with
    | nan => exact absurd rfl hv
    | ninf => simp [Fl.le]
    | pinf => simp [Fl.le]
    | fin q =>
      by_cases hq : left + j * ((right - left) / n) ≤ q
      · simp [Fl.le, hq]
      · simp [Fl.le, hq, le_of_lt (not_le.1 hq)]

private theorem ts_sorted (n : ℕ) (hn : 0 < n) (left right : ℚ) (hlr : left < right) :
    (Fl.ninf :: (List.range (n + 1)).map fun (i : ℕ) => Fl.fin (left + i * (right - left) / n)).Pairwise
      fun a b => Fl.le a b = true := by
  have hn' : (0 : ℚ) < n := by exact_mod_cast hn
  rw [List.pairwise_cons]
  constructor
  · intro a ha
    obtain ⟨i, _, rfl⟩ := List.mem_map.1 ha
    rfl
  · rw [List.pairwise_map]
    refine List.pairwise_lt_range.imp ?_
    intro a b hab
    have hab' : (a : ℚ) ≤ b := by exact_mod_cast hab.le
    simp only [Fl.le, decide_eq_true_eq, add_le_add_iff_left]
    rw [div_le_div_iff_of_pos_right hn']
    exact mul_le_mul_of_nonneg_right hab' (by linarith)

private theorem allFlat_oks {T : Type} (data : List (List T)) : allFlat (data.map .ok) = some data.flatten := by
  induction data with
  | nil => rfl
  | cons x xs ih => simp [allFlat, ih]

private theorem roundDown_nan (left right : ℚ) (p : Fl) (hp : p ≠ .nan) : roundDown left right p ≠ .nan := by
  cases p with
  | nan => exact absurd rfl hp
  | ninf => exact fun h => nomatch h
  | pinf => exact fun h => nomatch h
  | fin q => simp only [roundDown]; split_ifs <;> exact fun h => nomatch h

/-! ### Theorems -/

/-- C105: for any number of buckets, a proper range, predictions none of which is NaN and every bundling, the plot consists of
`n + 2` adjacent buckets from -inf to +inf, and the j-th holds the totals of the examples whose prediction, rounded down to one
ten thousandth of the range, is in it. -/
theorem C105_plot_rounded (n : ℕ) (hn : 0 < n) (left right : ℚ) (hlr : left < right) (data : List (List HExample))
    (hnan : ∀ e ∈ data.flatten, e.pred ≠ .nan) (s : Sched (Except Err (List HExample)))
    (hs : s.inputs.Perm (data.map .ok)) :
    calibrationPlot n left right s = .ok ((List.range (n + 2)).map fun j => plotBucketOf n left right j
      (data.flatten.filter fun e => inPlotBucket n left right j (roundDown left right e.pred))) := by
  have hval : (⟨10000, left, right, true⟩ : Histogram.Config).Valid := ⟨by norm_num, hlr⟩
  have hist := Histogram.C18_histogram ⟨10000, left, right, true⟩ hval (data.map .ok) s hs
  rw [allFlat_oks, Option.bind_some, if_neg (by rintro ⟨t, ht, h⟩; exact hnan t ht h)] at hist
  cases hr : (Histogram.combiner ⟨10000, left, right, true⟩).run s with
  | error e => rw [hr] at hist; simp [Except.toOption] at hist
  | ok a =>
    rw [hr] at hist
    simp only [Except.toOption, Option.map_some, Option.some.injEq] at hist
    simp only [calibrationPlot, sourceBuckets, hr, calibrationThresholds, if_neg (Nat.pos_iff_ne_zero.1 hn), bind, Except.bind,
      pure, Except.pure, hist]
    refine congrArg Except.ok ?_
    rw [Histogram.C19_rebin 10000 left right hlr _ (by simp) (ts_sorted n hn left right hlr) _
      (Bcm.histogram_sorted _ _)]
    apply List.ext_getElem?
    intro i
    rw [toBuckets_get, List.getElem?_map, List.getElem?_map]
    have hlen : (Fl.ninf :: (List.range (n + 1)).map fun (i : ℕ) => Fl.fin (left + i * (right - left) / n)).length = n + 2 := by
      simp
    rw [hlen]
    by_cases hi : i < n + 2
    · rw [List.getElem?_range hi]
      simp only [Option.map_some, Option.some.injEq]
      have hsum : Histogram.sumBuckets i ((Histogram.histogramOf ⟨10000, left, right, true⟩ data.flatten).filter fun b =>
          Histogram.inSlot (Fl.ninf :: (List.range (n + 1)).map fun (i : ℕ) => Fl.fin (left + i * (right - left) / n)) i
            (Histogram.bucketStart 10000 left right b.id)) =
          Histogram.bucketOf i (data.flatten.filter fun e => inPlotBucket n left right i (roundDown left right e.pred)) := by
        rw [Bcm.histogram_filter ⟨10000, left, right, true⟩ (fun e => rfl) (Histogram.bucketStart 10000 left right)
          (roundDown left right) (fun i v h => start_roundDown left right hlr i v h) data.flatten
          (fun v => Histogram.inSlot (Fl.ninf :: (List.range (n + 1)).map fun (i : ℕ) =>
            Fl.fin (left + i * (right - left) / n)) i v)]
        rw [sum_histogram _ hval _ _ (fun e he => hnan e (List.mem_of_mem_filter he))]
        congr 1
        apply List.filter_congr
        intro e he
        exact slot_eq n left right i hi _ (roundDown_nan left right _ (hnan e he))
      rw [hsum]
      have htail : ∀ k, ((Fl.ninf :: (List.range (n + 1)).map fun (i : ℕ) => Fl.fin (left + i * (right - left) / n)).drop 1)[k]? =
          if k ≤ n then some (lowerEnd n left right (k + 1)) else none := by
        intro k
        rw [List.getElem?_drop, Nat.add_comm 1 k, ts_get]
        simp
      rw [htail, htail]
      unfold plotBucketOf Histogram.bucketOf
      simp only [PlotBucket.mk.injEq, and_true]
      constructor
      · by_cases h0 : i = 0
        · subst h0; simp [lowerEnd]
        · rw [if_neg h0, if_pos (by omega), Option.getD_some]
          congr 1; omega
      · by_cases h0 : i ≤ n
        · rw [if_pos h0, Option.getD_some, lower_succ n left right i h0]
        · obtain rfl : i = n + 1 := by omega
          simp [upperEnd]
    · have hnone : (List.range (n + 2))[i]? = none := List.getElem?_eq_none (by simp; omega)
      rw [hnone]
      rfl

private theorem le_roundDown (left right : ℚ) (hlr : left < right) (m : ℕ) (hm : m ≤ 10000) (p : Fl) :
    Fl.le (.fin (left + m * ((right - left) / 10000))) (roundDown left right p) =
      Fl.le (.fin (left + m * ((right - left) / 10000))) p := by
  have hw : (0 : ℚ) < (right - left) / 10000 := by
    have : 0 < right - left := by linarith
    positivity
  have hm' : (m : ℚ) ≤ 10000 := by exact_mod_cast hm
  have hm0 : (0 : ℚ) ≤ m * ((right - left) / 10000) := by positivity
  have hm1 : (m : ℚ) * ((right - left) / 10000) ≤ 10000 * ((right - left) / 10000) := mul_le_mul_of_nonneg_right hm' hw.le
  cases p with
  | nan => rfl
  | ninf => rfl
  | pinf => rfl
  | fin q =>
    simp only [roundDown]
    by_cases h1 : q < left
    · rw [if_pos h1]
      have : ¬ left + m * ((right - left) / 10000) ≤ q := by linarith
      simp only [Fl.le, this, decide_false]
    · rw [if_neg h1]
      by_cases h2 : right ≤ q
      · rw [if_pos h2]
        have : left + m * ((right - left) / 10000) ≤ q := by linarith
        simp only [Fl.le, this, decide_true]
      · rw [if_neg h2]
        simp only [Fl.le, decide_eq_decide, add_le_add_iff_left]
        rw [mul_le_mul_iff_of_pos_right hw]
        constructor
        · intro h
          have h' : ((m : ℤ) : ℚ) ≤ ⌊(q - left) / ((right - left) / 10000)⌋ := by push_cast; exact h
          have h3 := Int.floor_le ((q - left) / ((right - left) / 10000))
          have h4 : (m : ℚ) ≤ (q - left) / ((right - left) / 10000) := le_trans h h3
          rw [le_div_iff₀ hw] at h4
          linarith
        · intro h
          have h4 : ((m : ℤ) : ℚ) ≤ (q - left) / ((right - left) / 10000) := by
            rw [le_div_iff₀ hw]; push_cast; linarith
          have := Int.le_floor.2 h4
          exact_mod_cast this

/-- C105: when the number of buckets divides 10000 (the default is 1000) every bucket of the plot holds exactly the totals of
the examples whose prediction is in it. -/
theorem C105_plot (n : ℕ) (hn : 0 < n) (hd : n ∣ 10000) (left right : ℚ) (hlr : left < right) (data : List (List HExample))
    (hnan : ∀ e ∈ data.flatten, e.pred ≠ .nan) (s : Sched (Except Err (List HExample)))
    (hs : s.inputs.Perm (data.map .ok)) :
    calibrationPlot n left right s = .ok ((List.range (n + 2)).map fun j => plotBucketOf n left right j
      (data.flatten.filter fun e => inPlotBucket n left right j e.pred)) := by
  rw [C105_plot_rounded n hn left right hlr data hnan s hs]
  congr 1
  apply List.map_congr_left
  intro j hj
  have hj' : j < n + 2 := List.mem_range.1 hj
  congr 1
  apply List.filter_congr
  intro e he
  have hp := hnan e he
  generalize e.pred = p at hp
  have hn' : (0 : ℚ) < n := by exact_mod_cast hn
  obtain ⟨m, hm⟩ := hd
  have hmq : (10000 : ℚ) = n * m := by exact_mod_cast hm
  have hm0 : (m : ℚ) ≠ 0 := by
    rintro h
    rw [h] at hmq; norm_num at hmq
  have hthr : ∀ k : ℕ, (left + k * ((right - left) / n) : ℚ) = left + (k * m : ℕ) * ((right - left) / 10000) := by
    intro k
    rw [hmq]; push_cast; field_simp
  have hle : ∀ k : ℕ, k ≤ n → Fl.le (.fin (left + k * ((right - left) / n))) (roundDown left right p) =
      Fl.le (.fin (left + k * ((right - left) / n))) p := by
    intro k hk
    rw [hthr]
    exact le_roundDown left right hlr _ (by rw [hm]; exact Nat.mul_le_mul_right m hk) p
  have hlow : ∀ v : Fl, v ≠ .nan → Fl.lt v (upperEnd n left right j) = (decide (j = n + 1) && Fl.lt v .pinf ||
      (!decide (j = n + 1)) && !Fl.le (.fin (left + j * ((right - left) / n))) v) := by
    intro v hv
    unfold upperEnd
    by_cases h : j = n + 1
    · simp [h]
    · rw [if_neg h]
      simp only [h, decide_false, Bool.false_and, Bool.not_false, Bool.true_and, Bool.false_or]
      unfold Fl.lt
      cases v with
      | nan => exact absurd rfl hv
      | ninf => simp [Fl.le]
      | pinf => simp [Fl.le]
      | fin q =>
        by_cases hq : left + j * ((right - left) / n) ≤ q
        · simp [Fl.le, hq]
        · simp [Fl.le, hq, le_of_lt (not_le.1 hq)]
  unfold inPlotBucket
  congr 1
  · unfold lowerEnd
    by_cases h : j = 0
    · rw [if_pos h]
      have := roundDown_nan left right p hp
      cases hr : roundDown left right p <;> cases p <;> simp_all [Fl.le]
    · rw [if_neg h]
      have e1 : ((j : ℚ) - 1) = ((j - 1 : ℕ) : ℚ) := by rw [Nat.cast_sub (by omega)]; simp
      rw [e1]
      exact hle (j - 1) (by omega)
  · rw [hlow _ (roundDown_nan left right p hp), hlow _ hp]
    by_cases h : j = n + 1
    · simp [h]
    · simp only [h, decide_false, Bool.false_and, Bool.false_or]
      rw [hle j (by omega)]

/-- Non-vacuous: a prediction exactly at an inner boundary and one at the upper end. -/
example : 1000 ∣ 10000 ∧ inPlotBucket 4 0 1 2 (.fin (1 / 4)) = true ∧ inPlotBucket 4 0 1 1 (.fin (1 / 4)) = false ∧
    inPlotBucket 4 0 1 5 (.fin 1) = true ∧ lowerEnd 4 0 1 5 = .fin 1 ∧ upperEnd 4 0 1 5 = .pinf := by
  refine ⟨?_, ?_, ?_, ?_, ?_, ?_⟩ <;> decide +kernel

/-- With three buckets a prediction of 0.33335 is added to the bucket below 1/3, to which it does not belong. -/
theorem C105_three_buckets :
    inPlotBucket 3 0 1 1 (roundDown 0 1 (.fin (33335 / 100000))) = true ∧
    inPlotBucket 3 0 1 1 (.fin (33335 / 100000)) = false ∧ inPlotBucket 3 0 1 2 (.fin (33335 / 100000)) = true := by
  refine ⟨?_, ?_, ?_⟩ <;> decide +kernel

/-- Every prediction other than NaN is in exactly one bucket of the plot. -/
theorem C105_partition (n : ℕ) (hn : 0 < n) (left right : ℚ) (hlr : left < right) (p : Fl) (hp : p ≠ .nan) :
    ∃! j, j < n + 2 ∧ inPlotBucket n left right j p = true := by
  obtain ⟨j, ⟨h1, h2⟩, h3⟩ := Histogram.C19_slot_unique _ (by simp) (ts_sorted n hn left right hlr) p
  simp only [List.length_cons, List.length_map, List.length_range] at h1 h3
  refine ⟨j, ⟨h1, by rw [← slot_eq n left right j (by omega) p hp]; exact h2⟩, ?_⟩
  rintro k ⟨hk, hkb⟩
  exact h3 k ⟨hk, by rw [slot_eq n left right k hk p hp]; exact hkb⟩

/-! ### The range -/

/-- C105: an explicit bound is used; otherwise the bound of the label's domain in the schema if the schema has one for the label
(the integer domain first), otherwise 0 and 1. -/
theorem C105_bounds (left right : Option ℚ) (schema : Option (List Feature)) (labelKey : Option String) :
    let b := plotBounds left right schema labelKey
    let dom : Option (Option ℚ × Option ℚ) := do
      let k ← labelKey
      let fs ← schema
      let f ← fs.find? fun f => f.name == k
      f.intDomain.or f.floatDomain
    b.1 = ((left.or (dom.bind Prod.fst)).getD 0) ∧ b.2 = ((right.or (dom.bind Prod.snd)).getD 1) := by
  intro b dom
  cases left <;> cases right <;> cases schema <;> cases labelKey <;>
    simp only [b, dom, plotBounds, findLabelDomain, Option.isNone_none, Option.isNone_some, Bool.or_true, Bool.true_or,
      Bool.or_self, if_true, Option.getD_some, Option.getD_none, bind, Option.bind, Option.or, Bool.false_eq_true, if_false,
      and_self]
  all_goals
    rename_i s k
    cases s.find? (fun f => f.name == k) with
    | none => simp
    | some f =>
      rcases f with ⟨_, i, fl⟩
      cases i with
      | some d => rcases d with ⟨a, b⟩; cases a <;> cases b <;> simp
      | none =>
        cases fl with
        | none => simp
        | some d => rcases d with ⟨a, b⟩; cases a <;> cases b <;> simp

example : plotBounds none (some 5) (some [⟨"label", none, some (some 2, none)⟩]) (some "label") = (2, 5) := by decide +kernel

end Plots
end TFMA
