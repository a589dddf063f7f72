import Verif.Props.Histogram

/-!
# C19: rebinning a calibration histogram
-/

namespace TFMA
namespace Histogram

/-! ### Specification -/

/-- Value `v` lies in the interval of threshold `j`: at or above `thresholds[j]` (the first interval is open below)
and below `thresholds[j + 1]` (the last interval is open above). -/
def inSlot (ts : List Fl) (j : ℕ) (v : Fl) : Bool :=
  (j == 0 || (match ts[j]? with | some t => Fl.le t v | none => false)) &&
    (match ts[j + 1]? with | some t => !Fl.le t v | none => true)

/-- Sum of buckets, under a new id. -/
def sumBuckets (i : ℕ) (bs : List Bucket) : Bucket :=
  ⟨i, (bs.map Bucket.labels).sum, (bs.map Bucket.predictions).foldr Fl.add (.fin 0), (bs.map Bucket.examples).sum⟩

/-! ### Helpers -/

private def addB (tot b : Bucket) : Bucket :=
  { tot with labels := tot.labels + b.labels, predictions := Fl.add tot.predictions b.predictions,
             examples := tot.examples + b.examples }

private def empty (i : ℕ) : Bucket := ⟨i, 0, .fin 0, 0⟩

private theorem foldl_addB (tot : Bucket) (bs : List Bucket) :
    bs.foldl addB tot = addB tot (sumBuckets 0 bs) := by
  induction bs generalizing tot with
  | nil =>
    simp only [List.foldl_nil, addB, sumBuckets, List.map_nil, List.sum_nil, List.foldr_nil, add_zero]
    rw [Fl.add_comm, Fl.zero_add]
  | cons b bs ih =>
    rw [List.foldl_cons, ih]
    simp [addB, sumBuckets, add_assoc, Fl.add_assoc]

private theorem foldl_empty (i : ℕ) (bs : List Bucket) : bs.foldl addB (empty i) = sumBuckets i bs := by
  rw [foldl_addB]
  simp [addB, empty, sumBuckets, Fl.zero_add]

theorem le_trans' {a b c : Fl} (h1 : Fl.le a b = true) (h2 : Fl.le b c = true) : Fl.le a c = true := by
  cases a <;> cases b <;> cases c <;> simp [Fl.le] at h1 h2 ⊢
  exact le_trans h1 h2

private theorem start_mono (num : ℕ) (left right : ℚ) (h : left < right) {i j : ℕ} (hij : i < j) :
    Fl.le (bucketStart num left right i) (bucketStart num left right j) = true := by
  unfold bucketStart
  have hj : j ≠ 0 := by omega
  simp only [hj, if_false]
  by_cases hi : i = 0
  · simp only [hi, if_true]
    by_cases hjn : num + 1 ≤ j
    · simp [hjn, Fl.le]
    · simp [hjn, Fl.le]
  · simp only [hi, if_false]
    by_cases hjn : num + 1 ≤ j
    · simp only [hjn, if_true]
      by_cases hin : num + 1 ≤ i
      · simp [hin, Fl.le]
      · simp [hin, Fl.le]
    · have hin : ¬ num + 1 ≤ i := by omega
      simp only [hjn, hin, if_false, Fl.le, decide_eq_true_eq]
      have hn : (0 : ℚ) < num := by
        have : 0 < num := by omega
        exact_mod_cast this
      have hij' : (i : ℚ) ≤ j := by exact_mod_cast hij.le
      have : ((i : ℚ) - 1) / num ≤ ((j : ℚ) - 1) / num := by
        apply div_le_div_of_nonneg_right _ hn.le
        linarith
      nlinarith

section
variable (num : ℕ) (left right : ℚ)

private def dist (tot : Bucket) : List Fl → List Bucket → List Bucket
  | [], bs => [bs.foldl addB tot]
  | t :: rest, bs =>
    (bs.filter fun b => !Fl.le t (bucketStart num left right b.id)).foldl addB tot ::
      dist (empty (tot.id + 1)) rest (bs.filter fun b => Fl.le t (bucketStart num left right b.id))

private theorem id_foldl (tot : Bucket) (bs : List Bucket) : (bs.foldl addB tot).id = tot.id := by
  rw [foldl_addB]; rfl

private theorem dist_cons_not {tot b : Bucket} {t : Fl} {rest : List Fl} {bs : List Bucket}
    (h : Fl.le t (bucketStart num left right b.id) = false) :
    dist num left right tot (t :: rest) (b :: bs) = dist num left right (addB tot b) (t :: rest) bs := by
  simp only [dist, List.filter_cons, h, Bool.not_false, if_true, List.foldl_cons, Bool.false_eq_true, if_false]
  rfl

private theorem dist_skip {tot b : Bucket} {t : Fl} {rest : List Fl} {bs : List Bucket}
    (h : Fl.le t (bucketStart num left right b.id) = true)
    (hs : ∀ b' ∈ bs, Fl.le (bucketStart num left right b.id) (bucketStart num left right b'.id) = true) :
    dist num left right tot (t :: rest) (b :: bs) =
      tot :: dist num left right (empty (tot.id + 1)) rest (b :: bs) := by
  have h1 : (b :: bs).filter (fun b => Fl.le t (bucketStart num left right b.id)) = b :: bs := by
    rw [List.filter_eq_self]
    intro b' hb'
    rcases List.mem_cons.1 hb' with rfl | hb'
    · exact h
    · exact le_trans' h (hs b' hb')
  have h2 : (b :: bs).filter (fun b => !Fl.le t (bucketStart num left right b.id)) = [] := by
    rw [List.filter_eq_nil_iff]
    intro b' hb'
    have : b' ∈ (b :: bs).filter (fun b => Fl.le t (bucketStart num left right b.id)) := by rw [h1]; exact hb'
    rw [List.mem_filter] at this
    simp [this.2]
  simp only [dist, h1, h2, List.foldl_nil]

private theorem loop_eq_dist (tot : Bucket) (rest : List Fl) (bs : List Bucket)
    (hs : bs.Pairwise fun b b' => Fl.le (bucketStart num left right b.id) (bucketStart num left right b'.id) = true) :
    rebinLoop num left right tot rest bs = dist num left right tot rest bs := by
  induction bs generalizing tot rest with
  | nil =>
    simp only [rebinLoop]
    induction rest generalizing tot with
    | nil => rfl
    | cons t rest ih =>
      simp only [dist, List.filter_nil, List.foldl_nil, List.zipIdx_cons, List.map_cons]
      rw [← ih]
      rfl
  | cons b bs ih =>
    rw [List.pairwise_cons] at hs
    have inner : ∀ (rest : List Fl) (off : ℕ),
        (skip (bucketStart num left right b.id) off rest).1 ++ rebinLoop num left right
          (addB (empty (skip (bucketStart num left right b.id) off rest).2.1) b)
          (skip (bucketStart num left right b.id) off rest).2.2 bs =
        dist num left right (empty off) rest (b :: bs) := by
      intro rest
      induction rest with
      | nil => intro off; simp only [skip, List.nil_append, ih _ _ hs.2]; rfl
      | cons t rest ihr =>
        intro off
        by_cases h : Fl.le t (bucketStart num left right b.id) = true
        · rw [dist_skip num left right h hs.1]
          simp only [skip, h, if_true, List.cons_append]
          rw [ihr]; rfl
        · have h' : Fl.le t (bucketStart num left right b.id) = false := by simpa using h
          simp only [skip, h', Bool.false_eq_true, if_false, List.nil_append, ih _ _ hs.2]
          rw [dist_cons_not num left right h']
    cases rest with
    | nil =>
      simp only [rebinLoop]
      show rebinLoop num left right (addB tot b) [] bs = _
      rw [ih _ _ hs.2]; rfl
    | cons t rest =>
      simp only [rebinLoop]
      by_cases h : Fl.le t (bucketStart num left right b.id) = true
      · rw [if_pos h, dist_skip num left right h hs.1, ← inner rest (tot.id + 1)]
        rfl
      · have h' : Fl.le t (bucketStart num left right b.id) = false := by simpa using h
        rw [if_neg h, dist_cons_not num left right h']
        exact ih _ _ hs.2

private def slot (rest : List Fl) (j : ℕ) (v : Fl) : Bool :=
  (match j with
    | 0 => true
    | k + 1 => (match rest[k]? with | some t => Fl.le t v | none => false)) &&
  (match rest[j]? with | some t => !Fl.le t v | none => true)

private theorem dist_eq (tot : Bucket) (rest : List Fl) (bs : List Bucket)
    (hr : rest.Pairwise fun a b => Fl.le a b = true) :
    dist num left right tot rest bs = (List.range (rest.length + 1)).map fun j =>
      (bs.filter fun b => slot rest j (bucketStart num left right b.id)).foldl addB
        (if j = 0 then tot else empty (tot.id + j)) := by
  induction rest generalizing tot bs with
  | nil =>
    simp only [dist, List.length_nil, Nat.zero_add, List.range_one, List.map_cons, List.map_nil, if_true]
    have : bs.filter (fun b => slot [] 0 (bucketStart num left right b.id)) = bs := by
      rw [List.filter_eq_self]; intro b _; rfl
    rw [this]
  | cons t rest ih =>
    rw [List.pairwise_cons] at hr
    simp only [dist, List.length_cons]
    rw [List.range_succ_eq_map, List.map_cons, ih _ _ hr.2, List.map_map]
    congr 1
    apply List.map_congr_left
    intro j hj
    have hj' : j < rest.length + 1 := List.mem_range.1 hj
    simp only [Function.comp_apply, Nat.succ_eq_add_one, Nat.add_eq_zero_iff, one_ne_zero, and_false, if_false]
    have hid : (if j = 0 then empty (tot.id + 1) else empty ((empty (tot.id + 1)).id + j)) = empty (tot.id + (j + 1)) := by
      by_cases h : j = 0
      · simp [h]
      · rw [if_neg h]; simp only [empty]; congr 1; omega
    rw [hid, List.filter_filter]
    congr 1
    apply List.filter_congr
    intro b _
    generalize bucketStart num left right b.id = v
    cases j with
    | zero =>
      simp only [slot, List.getElem?_cons_zero, List.getElem?_cons_succ, Bool.true_and]
      rw [Bool.and_comm]
      
    | succ k =>
      have hk : k < rest.length := by omega
      simp only [slot, List.getElem?_cons_succ, List.getElem?_eq_getElem hk]
      by_cases h : Fl.le rest[k] v = true
      · have : Fl.le t v = true := le_trans' (hr.1 _ (List.getElem_mem hk)) h
        simp [h, this]
      · simp [h]

private theorem dist_total (tot : Bucket) (rest : List Fl) (bs : List Bucket) (f : Bucket → ℚ)
    (hf : ∀ a b, f (addB a b) = f a + f b) (h0 : ∀ i, f (empty i) = 0) :
    ((dist num left right tot rest bs).map f).sum = f tot + (bs.map f).sum := by
  have hfold : ∀ (bs : List Bucket) (a : Bucket), f (bs.foldl addB a) = f a + (bs.map f).sum := by
    intro bs
    induction bs with
    | nil => simp
    | cons b bs ih => intro a; rw [List.foldl_cons, ih, hf, List.map_cons, List.sum_cons, add_assoc]
  induction rest generalizing tot bs with
  | nil => simp [dist, hfold]
  | cons t rest ih =>
    simp only [dist, List.map_cons, List.sum_cons, hfold, ih, h0, zero_add, add_assoc]
    congr 1
    clear ih
    induction bs with
    | nil => simp
    | cons b bs ih =>
      cases h : Fl.le t (bucketStart num left right b.id)
      · simp only [List.filter_cons, h, Bool.not_false, if_true, List.map_cons, List.sum_cons, Bool.false_eq_true, if_false]
        rw [add_assoc, ih]
      · simp only [List.filter_cons, h, Bool.not_true, if_true, List.map_cons, List.sum_cons, Bool.false_eq_true, if_false]
        rw [← ih]; ring

end

/-! ### Theorems -/

/-- C19: for ascending thresholds and a histogram sorted by bucket, rebinning returns one bucket per threshold, numbered
from 0, and the j-th bucket is the sum of the source buckets that start in its interval. -/
theorem C19_rebin (num : ℕ) (left right : ℚ) (hlr : left < right) (ts : List Fl) (hts : ts ≠ [])
    (hsort : ts.Pairwise fun a b => Fl.le a b = true) (h : List Bucket) (hh : h.Pairwise fun a b => a.id < b.id) :
    rebin ts num left right h = (List.range ts.length).map fun j =>
      sumBuckets j (h.filter fun b => inSlot ts j (bucketStart num left right b.id)) := by
  obtain ⟨t0, rest, rfl⟩ := List.exists_cons_of_ne_nil hts
  rw [List.pairwise_cons] at hsort
  unfold rebin
  rw [List.drop_one, List.tail_cons, loop_eq_dist _ _ _ _ _ _ (hh.imp fun hab => start_mono num left right hlr hab),
    dist_eq _ _ _ _ _ _ hsort.2, List.length_cons]
  apply List.map_congr_left
  intro j _
  have e : (if j = 0 then (⟨0, 0, .fin 0, 0⟩ : Bucket) else empty ((⟨0, 0, .fin 0, 0⟩ : Bucket).id + j)) = empty j := by
    by_cases hj : j = 0
    · simp [hj, empty]
    · simp [hj, empty]
  rw [e, foldl_empty]
  congr 1
  apply List.filter_congr
  intro b _
  cases j with
  | zero => simp [slot, inSlot]
  | succ k => simp [slot, inSlot]

/-- Non-vacuous: four source buckets rebinned onto three thresholds. -/
example : rebin [.fin 0, .fin (1 / 2), .fin 1] 4 0 1
    [⟨0, 1, .fin 0, 1⟩, ⟨2, 1, .fin 1, 2⟩, ⟨3, 1, .fin 1, 4⟩, ⟨5, 0, .fin 9, 8⟩] =
    [⟨0, 2, .fin 1, 3⟩, ⟨1, 1, .fin 1, 4⟩, ⟨2, 0, .fin 9, 8⟩] := by decide +kernel

/-- C19: the value that decides where a source bucket goes is the lower end of the bucket: no value of the bucket is below it, and
unless it is infinite it belongs to the bucket. -/
theorem C19_start (c : Config) (hc : c.Valid) (i : ℕ) (hi : i ≤ c.num + 1) :
    (∀ p, InBucket c i p → i ≤ c.num → Fl.le (bucketStart c.num c.left c.right i) p = true) ∧
    (1 ≤ i → i ≤ c.num → InBucket c i (bucketStart c.num c.left c.right i)) ∧
    (i = 0 → bucketStart c.num c.left c.right i = .ninf) ∧ (i = c.num + 1 → bucketStart c.num c.left c.right i = .pinf) := by
  obtain ⟨hn, hr⟩ := hc
  have hn' : (0 : ℚ) < c.num := by exact_mod_cast hn
  have hform : ((i : ℚ) - 1) / c.num * (c.right - c.left) + c.left = c.left + ((i : ℚ) - 1) * ((c.right - c.left) / c.num) := by
    ring
  refine ⟨?_, ?_, ?_, ?_⟩
  · intro p hp hin
    unfold bucketStart
    by_cases h0 : i = 0
    · rw [if_pos h0]
      cases p <;> simp_all [Fl.le, InBucket]
    · rw [if_neg h0, if_neg (by omega)]
      cases p with
      | nan => exact hp.elim
      | ninf => exact absurd hp h0
      | pinf => simp [Fl.le]
      | fin q =>
        rcases hp with ⟨h, _⟩ | ⟨_, _, h, _⟩ | ⟨h, _⟩
        · exact absurd h h0
        · simp only [Fl.le, decide_eq_true_eq]
          rw [hform]; exact h
        · omega
  · intro h1 h2
    unfold bucketStart
    rw [if_neg (by omega), if_neg (by omega)]
    refine Or.inr (Or.inl ⟨h1, h2, hform.ge, ?_⟩)
    rw [hform]
    have : 0 < (c.right - c.left) / c.num := div_pos (by linarith) hn'
    nlinarith
  · intro h; simp [bucketStart, h]
  · intro h; simp [bucketStart, h]

/-- The third of four buckets between 1 and 3. -/
example : bucketStart 4 1 3 3 = .fin 2 ∧ InBucket ⟨4, 1, 3, true⟩ 3 (.fin 2) := by decide +kernel

/-- C19: rebinning returns as many buckets as thresholds, for every threshold list. -/
theorem C19_length (num : ℕ) (left right : ℚ) (hlr : left < right) (ts : List Fl) (hts : ts ≠ [])
    (h : List Bucket) (hh : h.Pairwise fun a b => a.id < b.id) :
    (rebin ts num left right h).length = ts.length := by
  obtain ⟨t0, rest, rfl⟩ := List.exists_cons_of_ne_nil hts
  unfold rebin
  rw [List.drop_one, List.tail_cons, loop_eq_dist _ _ _ _ _ _ (hh.imp fun hab => start_mono num left right hlr hab),
    List.length_cons]
  have : ∀ (rest : List Fl) (tot : Bucket) (h : List Bucket),
      (dist num left right tot rest h).length = rest.length + 1 := by
    intro rest
    induction rest with
    | nil => intro tot h; rfl
    | cons t rest ih => intro tot h; simp [dist, ih]
  exact this _ _ _

/-- C19: no weight is lost or duplicated, for every threshold list. -/
theorem C19_conserves (num : ℕ) (left right : ℚ) (hlr : left < right) (ts : List Fl) (h : List Bucket)
    (hh : h.Pairwise fun a b => a.id < b.id) :
    ((rebin ts num left right h).map Bucket.examples).sum = (h.map Bucket.examples).sum ∧
      ((rebin ts num left right h).map Bucket.labels).sum = (h.map Bucket.labels).sum := by
  unfold rebin
  rw [loop_eq_dist _ _ _ _ _ _ (hh.imp fun hab => start_mono num left right hlr hab)]
  refine ⟨?_, ?_⟩
  · rw [dist_total _ _ _ _ _ _ Bucket.examples (fun _ _ => rfl) (fun _ => rfl), zero_add]
  · rw [dist_total _ _ _ _ _ _ Bucket.labels (fun _ _ => rfl) (fun _ => rfl), zero_add]

/-- C19: every value lies in the interval of exactly one threshold. -/
theorem C19_slot_unique (ts : List Fl) (hts : ts ≠ []) (hsort : ts.Pairwise fun a b => Fl.le a b = true) (v : Fl) :
    ∃! j, j < ts.length ∧ inSlot ts j v = true := by
  obtain ⟨t0, rest, rfl⟩ := List.exists_cons_of_ne_nil hts
  clear hts
  induction rest generalizing t0 with
  | nil => refine ⟨0, by simp [inSlot], ?_⟩; rintro j ⟨hj, _⟩; simpa using hj
  | cons t1 rest ih =>
    have hs' := hsort
    rw [List.pairwise_cons] at hs'
    by_cases h1 : Fl.le t1 v = true
    · obtain ⟨j, ⟨hj1, hj2⟩, hju⟩ := ih t1 hs'.2
      refine ⟨j + 1, ⟨by simpa using hj1, ?_⟩, ?_⟩
      · simp only [inSlot] at hj2 ⊢
        cases j with
        | zero => simpa [h1] using hj2
        | succ k => simpa using hj2
      · rintro i ⟨hi1, hi2⟩
        cases i with
        | zero => simp [inSlot, h1] at hi2
        | succ i =>
          congr 1
          apply hju
          refine ⟨by simpa using hi1, ?_⟩
          simp only [inSlot] at hi2 ⊢
          cases i with
          | zero => simpa [h1] using hi2
          | succ k => simpa using hi2
    · refine ⟨0, by simp [inSlot, h1], ?_⟩
      rintro i ⟨hi1, hi2⟩
      cases i with
      | zero => rfl
      | succ i =>
        exfalso
        simp only [inSlot] at hi2
        have hi' : i < (t1 :: rest).length := by simpa using hi1
        rw [List.getElem?_cons_succ, List.getElem?_eq_getElem hi'] at hi2
        simp only [Bool.and_eq_true, Bool.or_eq_true, beq_iff_eq, Nat.add_eq_zero_iff, one_ne_zero, and_false,
          false_or] at hi2
        cases i with
        | zero => exact h1 hi2.1
        | succ k =>
          have hk : k < rest.length := by simpa using hi'
          have : Fl.le t1 rest[k] = true := (List.pairwise_cons.1 hs'.2).1 _ (List.getElem_mem hk)
          exact h1 (le_trans' this (by simpa using hi2.1))

/-- Non-vacuous. -/
example : inSlot [.fin 0, .fin (1 / 2), .fin 1] 1 (.fin (3 / 4)) = true := by decide +kernel

end Histogram
end TFMA
