import Verif.Model.Histogram
import Verif.Props.Combiners
import Verif.Lemmas.DictCombine
import Mathlib.Tactic.Linarith
import Mathlib.Tactic.FieldSimp
import Mathlib.Tactic.Positivity
import Mathlib.Algebra.Order.Floor.Ring

/-!
# C18, C19: calibration histograms
-/

namespace TFMA
namespace Histogram

open Beam Combiners

/-! ### Specification -/

/-- The interval of bucket `i`: below the range, one of `num` equal half open intervals, or at or above the upper
end. NaN is in no bucket. -/
def InBucket (c : Config) (i : ℕ) : Fl → Prop
  | .nan => False
  | .ninf => i = 0
  | .pinf => i = c.num + 1
  | .fin q =>
    (i = 0 ∧ q < c.left) ∨
    (1 ≤ i ∧ i ≤ c.num ∧ c.left + ((i : ℚ) - 1) * ((c.right - c.left) / c.num) ≤ q ∧
      q < c.left + (i : ℚ) * ((c.right - c.left) / c.num)) ∨
    (i = c.num + 1 ∧ c.right ≤ q)

instance (c : Config) (i : ℕ) (p : Fl) : Decidable (InBucket c i p) := by
  cases p <;> unfold InBucket <;> infer_instance

/-- Well formed constructor arguments. -/
structure Config.Valid (c : Config) : Prop where
  num_pos : 0 < c.num
  range : c.left < c.right

/-- The value that decides the bucket of an example. -/
def bucketValue (c : Config) (t : HExample) : Fl := if c.byPrediction then t.pred else .fin t.label

/-- Totals over a list of examples, as a bucket with the given id. -/
def bucketOf (i : ℕ) (ts : List HExample) : Bucket :=
  ⟨i, (ts.map fun t => t.label * t.weight).sum, (ts.map fun t => Fl.mul t.pred (.fin t.weight)).foldr Fl.add (.fin 0),
    (ts.map fun t => t.weight).sum⟩

/-- The histogram of a list of examples: for every non-empty bucket in ascending order the totals of its
examples. -/
def histogramOf (c : Config) (ts : List HExample) : List Bucket :=
  ((List.range (c.num + 2)).filter fun i => ts.any fun t => decide (InBucket c i (bucketValue c t))).map fun i =>
    bucketOf i (ts.filter fun t => decide (InBucket c i (bucketValue c t)))

/-! ### Bucket index -/

/-- C18: the bucket of a value is the one whose interval contains it; only NaN has none. -/
theorem C18_bucket_index (c : Config) (hc : c.Valid) (p : Fl) (i : ℕ) :
    bucketIndex c p = .ok i ↔ InBucket c i p := by
  obtain ⟨hn, hr⟩ := hc
  have hd : 0 < c.right - c.left := by linarith
  have hn' : (0 : ℚ) < c.num := by exact_mod_cast hn
  unfold bucketIndex
  rw [if_neg (ne_of_gt hd)]
  cases p with
  | nan => simp [Fl.sub, Fl.add, Fl.div, Fl.mul, InBucket]
  | ninf =>
    have h1 : ¬ (c.right - c.left < 0) := not_lt.2 hd.le
    simp [Fl.sub, Fl.add, Fl.neg, Fl.div, Fl.mul, h1, hn.ne', hn', InBucket, eq_comm]
  | pinf =>
    have h1 : ¬ (c.right - c.left < 0) := not_lt.2 hd.le
    simp [Fl.sub, Fl.add, Fl.neg, Fl.div, Fl.mul, h1, hn.ne', hn', InBucket, eq_comm]
  | fin q =>
    have e : Fl.add (Fl.mul (Fl.div (Fl.sub (.fin q) (.fin c.left)) (.fin (c.right - c.left))) (.fin c.num)) (.fin 1)
        = .fin ((q - c.left) / (c.right - c.left) * c.num + 1) := by
      simp only [Fl.sub, Fl.add, Fl.neg, Fl.div, Fl.mul, ne_of_gt hd, if_false]
      rw [sub_eq_add_neg q]
    rw [e]
    simp only [InBucket]
    generalize hx : (q - c.left) / (c.right - c.left) * c.num + 1 = x
    have hq : q = c.left + (x - 1) * ((c.right - c.left) / c.num) := by
      rw [← hx]; field_simp; ring
    have hw : 0 < (c.right - c.left) / c.num := div_pos hd hn'
    generalize hwd : (c.right - c.left) / c.num = w at hq hw
    have hright : c.right = c.left + c.num * w := by rw [← hwd]; field_simp; ring
    have k1 : q < c.left ↔ x < 1 := by
      rw [hq]; constructor <;> intro h <;> nlinarith
    have k2 : c.right ≤ q ↔ (c.num : ℚ) + 1 ≤ x := by
      rw [hq, hright]; constructor <;> intro h <;> nlinarith
    have k3 : ∀ i : ℕ, c.left + ((i : ℚ) - 1) * w ≤ q ↔ (i : ℚ) ≤ x := by
      intro i; rw [hq]; constructor <;> intro h <;> nlinarith
    have k4 : ∀ i : ℕ, q < c.left + (i : ℚ) * w ↔ x < (i : ℚ) + 1 := by
      intro i; rw [hq]; constructor <;> intro h <;> nlinarith
    rw [k1, k2, k3, k4]
    by_cases h0 : x < 0
    · rw [if_pos h0, Except.ok.injEq]
      constructor
      · rintro rfl; left; exact ⟨rfl, by linarith⟩
      · rintro (⟨h, _⟩ | ⟨h1, _, h2, _⟩ | ⟨_, h⟩)
        · exact h.symm
        · have : (1 : ℚ) ≤ i := by exact_mod_cast h1
          linarith
        · linarith
    · rw [if_neg h0]
      push Not at h0
      by_cases h1 : (c.num : ℚ) + 1 ≤ x
      · rw [if_pos h1, Except.ok.injEq]
        constructor
        · rintro rfl; right; right; exact ⟨rfl, h1⟩
        · rintro (⟨_, h⟩ | ⟨_, h, _, h2⟩ | ⟨h, _⟩)
          · linarith
          · have : (i : ℚ) ≤ c.num := by exact_mod_cast h
            linarith
          · exact h.symm
      · rw [if_neg h1, Except.ok.injEq]
        push Not at h1
        have hf0 : 0 ≤ ⌊x⌋ := Int.floor_nonneg.2 h0
        have hcast : ((⌊x⌋.toNat : ℕ) : ℚ) = ((⌊x⌋ : ℤ) : ℚ) := by
          have : ((⌊x⌋.toNat : ℤ)) = ⌊x⌋ := Int.toNat_of_nonneg hf0
          exact_mod_cast this
        have hle : ((⌊x⌋ : ℤ) : ℚ) ≤ x := Int.floor_le x
        have hlt : x < ((⌊x⌋ : ℤ) : ℚ) + 1 := Int.lt_floor_add_one x
        constructor
        · rintro rfl
          by_cases hz : ⌊x⌋.toNat = 0
          · left
            refine ⟨hz, ?_⟩
            rw [hz] at hcast
            rw [← hcast] at hlt
            simpa using hlt
          · right; left
            refine ⟨Nat.one_le_iff_ne_zero.2 hz, ?_, by rw [hcast]; exact hle, by rw [hcast]; exact hlt⟩
            have : ((⌊x⌋.toNat : ℕ) : ℚ) < c.num + 1 := by rw [hcast]; linarith
            have : ⌊x⌋.toNat < c.num + 1 := by exact_mod_cast this
            omega
        · have key : ∀ j : ℕ, (j : ℚ) ≤ x → x < (j : ℚ) + 1 → ⌊x⌋.toNat = j := by
            intro j hj1 hj2
            have : ⌊x⌋ = (j : ℤ) := by
              rw [Int.floor_eq_iff]
              exact ⟨by exact_mod_cast hj1, by exact_mod_cast hj2⟩
            rw [this]; simp
          rintro (⟨rfl, h⟩ | ⟨_, _, h2, h3⟩ | ⟨_, h⟩)
          · exact key 0 (by simpa using h0) (by simpa using h)
          · exact key i h2 h3
          · linarith

/-- Non-vacuous: 0.35 lies in the fourth of ten intervals. -/
example : InBucket ⟨10, 0, 1, true⟩ 4 (.fin (35 / 100)) := by
  simp [InBucket]; norm_num

/-- C18: every value that is not NaN has exactly one bucket. -/
theorem C18_bucket_unique (c : Config) (hc : c.Valid) (p : Fl) (hp : p ≠ .nan) :
    ∃! i, InBucket c i p := by
  have h : ∃ i, bucketIndex c p = .ok i := by
    obtain ⟨hn, hr⟩ := hc
    have hd : 0 < c.right - c.left := by linarith
    have hn' : (0 : ℚ) < c.num := by exact_mod_cast hn
    have h1 : ¬ (c.right - c.left < 0) := not_lt.2 hd.le
    unfold bucketIndex
    rw [if_neg (ne_of_gt hd)]
    cases p with
    | nan => exact absurd rfl hp
    | ninf => exact ⟨0, by simp [Fl.sub, Fl.add, Fl.neg, Fl.div, Fl.mul, h1, hn.ne', hn']⟩
    | pinf => exact ⟨c.num + 1, by simp [Fl.sub, Fl.add, Fl.neg, Fl.div, Fl.mul, h1, hn.ne', hn']⟩
    | fin q =>
      simp only [Fl.sub, Fl.add, Fl.neg, Fl.div, Fl.mul, ne_of_gt hd, if_false]
      split
      · exact ⟨_, rfl⟩
      · split <;> exact ⟨_, rfl⟩
  obtain ⟨i, hi⟩ := h
  refine ⟨i, (C18_bucket_index c hc p i).1 hi, ?_⟩
  intro j hj
  have := (C18_bucket_index c hc p j).2 hj
  rw [hi] at this
  exact (Except.ok.inj this).symm

/-! ### Accumulation -/

private def bv (b : Bucket) : ℚ × Fl × ℚ := (b.labels, b.predictions, b.examples)

private def vop (a b : ℚ × Fl × ℚ) : ℚ × Fl × ℚ := (a.1 + b.1, Fl.add a.2.1 b.2.1, a.2.2 + b.2.2)

private def view (a : Acc) : ℕ → Option (ℚ × Fl × ℚ) := fun k => (Dict.get? a k).map bv

private def Inv (a : Acc) : Prop := Dict.WF a ∧ ∀ k b, Dict.get? a k = some b → b.id = k

private def contrib (t : HExample) : ℚ × Fl × ℚ := (t.label * t.weight, Fl.mul t.pred (.fin t.weight), t.weight)

private theorem vop_assoc (a b d : ℚ × Fl × ℚ) : vop (vop a b) d = vop a (vop b d) := by
  simp [vop, add_assoc, Fl.add_assoc]

private theorem vop_comm (a b : ℚ × Fl × ℚ) : vop a b = vop b a := by
  simp only [vop]; rw [add_comm a.1, add_comm a.2.2, Fl.add_comm]

private theorem vop_right (a : ℚ × Fl × ℚ) : vop a (0, .fin 0, 0) = a := by
  rw [vop_comm]; simp [vop, Fl.zero_add]

private theorem Inv_set {a : Acc} (h : Inv a) (i : ℕ) (b : Bucket) (hb : b.id = i) : Inv (Dict.set a i b) := by
  refine ⟨Dict.WF_set h.1 _ _, ?_⟩
  intro k b' hk
  rw [Dict.get?_set] at hk
  by_cases hik : i = k
  · rw [if_pos hik, Option.some.injEq] at hk; rw [← hk, hb, hik]
  · rw [if_neg hik] at hk; exact h.2 k b' hk

private theorem view_set (a : Acc) (i : ℕ) (b : Bucket) (m : ℚ × Fl × ℚ)
    (h : some (bv b) = optOp vop (view a i) (some m)) :
    view (Dict.set a i b) = pw vop (view a) (single i m) := by
  funext k
  simp only [view, pw, single]
  rw [Dict.get?_set]
  by_cases hik : i = k
  · subst hik; simp only [if_true, Option.map_some]; exact h
  · simp [hik]

private def idx (c : Config) (t : HExample) : Option ℕ := (bucketIndex c (bucketValue c t)).toOption

private theorem step_view (c : Config) (a : Acc) (t : HExample) (_ : Inv a) :
    (step c a t).toOption.map view = ((idx c t).map fun i => single i (contrib t)).map (pw vop (view a)) := by
  unfold step idx bucketValue
  cases hb : bucketIndex c (if c.byPrediction then t.pred else .fin t.label) with
  | error e => rfl
  | ok i =>
    simp only [bind, Except.bind, Except.toOption, Option.map_some]
    cases hg : Dict.get? a i with
    | none =>
      simp only [pure, Except.pure, Option.map_some, Option.some.injEq]
      apply view_set
      simp [view, hg, bv, contrib]
    | some b =>
      simp only [pure, Except.pure, Option.map_some, Option.some.injEq]
      apply view_set
      simp [view, hg, bv, contrib, optOp, vop]

private theorem step_inv (c : Config) (a : Acc) (t : HExample) (b : Acc) (ha : Inv a) (h : step c a t = .ok b) :
    Inv b := by
  unfold step at h
  cases hb : bucketIndex c (if c.byPrediction then t.pred else .fin t.label) with
  | error e => rw [hb] at h; cases h
  | ok i =>
    rw [hb] at h
    simp only [bind, Except.bind] at h
    cases hg : Dict.get? a i with
    | none =>
      rw [hg] at h
      simp only [pure, Except.pure, Except.ok.injEq] at h
      subst h
      exact Inv_set ha _ _ rfl
    | some b =>
      rw [hg] at h
      simp only [pure, Except.pure, Except.ok.injEq] at h
      subst h
      exact Inv_set ha _ _ (ha.2 i b hg)

private theorem mergeBucket_ok (r : Acc) (k : ℕ) (b : Bucket) (hr : Inv r) (hb : b.id = k) :
    ∃ d, mergeBucket r (k, b) = .ok d ∧ Inv d ∧ view d = pw vop (view r) (single k (bv b)) := by
  unfold mergeBucket
  cases hg : Dict.get? r k with
  | none =>
    simp only [Bucket.merge, hb, ne_eq, not_true_eq_false, if_false, bind, Except.bind, pure, Except.pure]
    refine ⟨_, rfl, Inv_set hr _ _ rfl, view_set _ _ _ _ ?_⟩
    simp [view, hg, bv, Fl.zero_add]
  | some b' =>
    have hid := hr.2 k b' hg
    simp only [Bucket.merge, hb, hid, ne_eq, not_true_eq_false, if_false, bind, Except.bind, pure, Except.pure]
    refine ⟨_, rfl, Inv_set hr _ _ rfl, view_set _ _ _ _ ?_⟩
    simp [view, hg, bv, optOp, vop]

private theorem view_cons (k : ℕ) (b : Bucket) (acc : Acc) (h : k ∉ Dict.keys acc) :
    view ((k, b) :: acc) = pw vop (single k (bv b)) (view acc) := by
  funext k'
  simp only [view, pw, single, Dict.get?_cons]
  by_cases hk : k = k'
  · subst hk
    rw [(Dict.get?_eq_none_iff acc k).2 h]
    simp
  · simp [hk]

private theorem merge_ok (r acc : Acc) (hr : Inv r) (ha : Inv acc) :
    ∃ d, loop mergeBucket r acc = .ok d ∧ Inv d ∧ view d = pw vop (view r) (view acc) := by
  induction acc generalizing r with
  | nil =>
    refine ⟨r, rfl, hr, ?_⟩
    funext k; simp [pw, view]
  | cons p acc ih =>
    obtain ⟨k, b⟩ := p
    have hk : k ∉ Dict.keys acc ∧ Dict.WF acc := by simpa [Dict.WF, Dict.keys] using ha.1
    have hid : b.id = k := ha.2 k b (by simp [Dict.get?_cons])
    have ha' : Inv acc := ⟨hk.2, fun k' b' h => ha.2 k' b' (by
      rw [Dict.get?_cons, if_neg]
      · exact h
      · rintro rfl
        rw [(Dict.get?_eq_none_iff acc k).2 hk.1] at h; cases h)⟩
    obtain ⟨d, h1, h2, h3⟩ := mergeBucket_ok r k b hr hid
    obtain ⟨d', g1, g2, g3⟩ := ih d h2 ha'
    refine ⟨d', ?_, g2, ?_⟩
    · simp only [loop, h1, bind, Except.bind]; exact g1
    · rw [g3, h3, view_cons k b acc hk.1, pw_assoc vop_assoc]

private theorem hist_run (c : Config) (data : List (Except Err (List HExample))) (s : Sched _)
    (p : s.inputs.Perm data) :
    ((combiner c).run s).toOption.map view = (allFlat data).bind
        (total (pw vop) (fun _ => none) fun t => (idx c t).map fun i => single i (contrib t)) ∧
      ∀ b, (combiner c).run s = .ok b → Inv b :=
  flat_run_inv (pw_assoc vop_assoc) (pw_comm vop_comm) pw_left (fun _ _ => rfl) (fun _ => rfl)
    (by funext k; rfl) ⟨Dict.WF_nil, fun k b h => by simp [combiner] at h⟩ (step_view c) (step_inv c) merge_ok p

private theorem extract_eq {a : Acc} (ha : Inv a) (l : List Bucket) (hl : l.Pairwise fun x y => x.id < y.id)
    (h : ∀ b, b ∈ l ↔ Dict.get? a b.id = some b) : extract a = l := by
  unfold extract
  have hp : (a.map Prod.snd).Perm l := by
    have hn1 : (a.map Prod.snd).Nodup := by
      have : ((a.map Prod.snd).map Bucket.id).Nodup := by
        rw [List.map_map]
        have e : a.map (Bucket.id ∘ Prod.snd) = Dict.keys a := by
          apply List.map_congr_left
          rintro ⟨k, b⟩ hkb
          exact ha.2 k b (Dict.get?_of_mem ha.1 hkb)
        rw [e]; exact ha.1
      exact List.Nodup.of_map _ this
    have hn2 : l.Nodup := hl.imp (fun {x y} hxy => by rintro rfl; exact lt_irrefl _ hxy)
    rw [List.perm_ext_iff_of_nodup hn1 hn2]
    intro b
    rw [h, List.mem_map]
    constructor
    · rintro ⟨⟨k, b'⟩, hkb, rfl⟩
      have := Dict.get?_of_mem ha.1 hkb
      have hid := ha.2 k b' this
      simp only [hid]; exact this
    · intro hg
      exact ⟨(b.id, b), Dict.mem_of_get? hg, rfl⟩
  have hp2 := (List.mergeSort_perm (a.map Prod.snd) (fun x y => decide (x.id ≤ y.id))).trans hp
  refine List.Perm.eq_of_pairwise (le := fun x y => x.id ≤ y.id) ?_ ?_ (hl.imp fun h => Nat.le_of_lt h) hp2
  · intro x y hx hy h1 h2
    have hx' := (h x).1 (hp2.subset hx)
    have hy' := (h y).1 hy
    have : x.id = y.id := Nat.le_antisymm h1 h2
    rw [this, hy'] at hx'
    exact (Option.some.inj hx').symm
  · refine (List.pairwise_mergeSort ?_ ?_ _).imp (fun {x y} hxy => of_decide_eq_true hxy)
    · intro x y z hxy hyz
      exact decide_eq_true (Nat.le_trans (of_decide_eq_true hxy) (of_decide_eq_true hyz))
    · intro x y
      rcases Nat.le_total x.id y.id with hxy | hxy <;> simp [hxy]

private theorem bucketOf_fold (ts : List HExample) (i : ℕ) :
    (ts.map contrib).foldr vop (0, .fin 0, 0) = bv (bucketOf i ts) := by
  induction ts with
  | nil => rfl
  | cons t ts ih =>
    rw [List.map_cons, List.foldr_cons, ih]
    simp [vop, bv, bucketOf, contrib]

/-- C18: over every bundling of the data the histogram consists of exactly the non-empty buckets in ascending order, each
with the totals of the examples in its interval; NaN is the only value that is rejected. -/
theorem C18_histogram (c : Config) (hc : c.Valid) (data : List (Except Err (List HExample))) (s : Sched _)
    (p : s.inputs.Perm data) :
    ((combiner c).run s).toOption.map extract =
      (allFlat data).bind fun ts =>
        if ∃ t ∈ ts, bucketValue c t = .nan then none else some (histogramOf c ts) := by
  obtain ⟨h1, h2⟩ := hist_run c data s p
  have hidx : ∀ t i, idx c t = some i ↔ InBucket c i (bucketValue c t) := by
    intro t i
    rw [← C18_bucket_index c hc]
    unfold idx
    cases bucketIndex c (bucketValue c t) <;> simp [Except.toOption]
  have hnan : ∀ t, bucketValue c t = .nan → idx c t = none := by
    intro t ht
    cases hi : idx c t with
    | none => rfl
    | some i =>
      have := (hidx t i).1 hi
      rw [ht] at this; exact this.elim
  cases hf : allFlat data with
  | none =>
    rw [hf, Option.bind_none] at h1
    cases hr : (combiner c).run s with
    | error e => rfl
    | ok a => rw [hr] at h1; cases h1
  | some ts =>
    rw [hf, Option.bind_some] at h1
    simp only [Option.bind_some]
    by_cases hn : ∃ t ∈ ts, bucketValue c t = .nan
    · rw [if_pos hn]
      obtain ⟨t, ht, htn⟩ := hn
      rw [total_single_none ts ⟨t, ht, hnan t htn⟩] at h1
      cases hr : (combiner c).run s with
      | error e => rfl
      | ok a => rw [hr] at h1; cases h1
    · rw [if_neg hn]
      push Not at hn
      rw [total_single ts] at h1
      swap
      · intro t ht
        obtain ⟨i, hi, _⟩ := C18_bucket_unique c hc _ (hn t ht)
        exact ⟨i, (hidx t i).2 hi⟩
      cases hr : (combiner c).run s with
      | error e => rw [hr] at h1; cases h1
      | ok a =>
        rw [hr] at h1
        simp only [Except.toOption, Option.map_some, Option.some.injEq] at h1
        simp only [Except.toOption, Option.map_some, Option.some.injEq]
        have ha := h2 a hr
        apply extract_eq ha
        · unfold histogramOf
          rw [List.pairwise_map]
          exact (List.pairwise_lt_range.filter _).imp fun h => h
        · intro b
          have hget : (Dict.get? a b.id).map bv = optFold vop
              ((ts.filter fun t => decide (InBucket c b.id (bucketValue c t))).map contrib) := by
            have := congrFun h1 b.id
            simp only [view] at this
            rw [this]
            congr 2
            apply List.filter_congr
            intro t _
            rw [decide_eq_decide]
            exact hidx t b.id
          rw [optFold_eq vop_right] at hget
          unfold histogramOf
          simp only [List.mem_map, List.mem_filter, List.mem_range, List.any_eq_true, decide_eq_true_eq]
          constructor
          · rintro ⟨i, ⟨_, t, ht, hti⟩, rfl⟩
            have hid : (bucketOf i (ts.filter fun t => decide (InBucket c i (bucketValue c t)))).id = i := rfl
            rw [hid] at hget ⊢
            rw [if_neg, bucketOf_fold _ i] at hget
            · cases hg : Dict.get? a i with
              | none => rw [hg] at hget; cases hget
              | some b' =>
                rw [hg] at hget
                have hb' := ha.2 i b' hg
                simp only [Option.map_some, Option.some.injEq, bv, Prod.mk.injEq] at hget
                obtain ⟨e1, e2, e3⟩ := hget
                rw [Option.some.injEq]
                cases b'
                simp only at e1 e2 e3 hb'
                subst e1 e2 e3 hb'
                rfl
            · intro he
              rw [List.map_eq_nil_iff, List.filter_eq_nil_iff] at he
              exact he t ht (by simpa using hti)
          · intro hg
            rw [hg] at hget
            by_cases he : (ts.filter fun t => decide (InBucket c b.id (bucketValue c t))).map contrib = []
            · rw [if_pos he] at hget; cases hget
            · rw [if_neg he, bucketOf_fold _ b.id] at hget
              rw [List.map_eq_nil_iff, List.filter_eq_nil_iff] at he
              push Not at he
              obtain ⟨t, ht, hti⟩ := he
              have hti' : InBucket c b.id (bucketValue c t) := by simpa using hti
              refine ⟨b.id, ⟨?_, t, ht, hti'⟩, ?_⟩
              · generalize bucketValue c t = q at hti'
                cases q with
                | nan => exact hti'.elim
                | ninf => simp only [InBucket] at hti'; omega
                | pinf => simp only [InBucket] at hti'; omega
                | fin q => rcases hti' with h | h | h <;> omega
              · simp only [Option.map_some, Option.some.injEq, bv, Prod.mk.injEq] at hget
                obtain ⟨e1, e2, e3⟩ := hget
                cases b
                simp only [bucketOf] at e1 e2 e3 ⊢
                rw [e1, e2, e3]

/-- C15 for calibration histograms: the result does not depend on the bundling. -/
theorem C15_calibration_histogram (c : Config) (hc : c.Valid) (data : List (Except Err (List HExample))) (s : Sched _)
    (p : s.inputs.Perm data) :
    ((combiner c).run s).toOption.map extract = ((combiner c).run (.bundle data)).toOption.map extract := by
  rw [C18_histogram c hc data s p, C18_histogram c hc data (.bundle data) (List.Perm.refl _)]

/-- Non-vacuous: three predictions in two of four buckets, accumulated in two bundles. -/
example : ((combiner ⟨4, 0, 1, true⟩).run (.merge (.cons (.bundle [.ok [⟨1, .fin (3 / 10), 2⟩]])
    (.one (.bundle [.ok [⟨0, .ninf, 1⟩], .ok [⟨1, .fin (1 / 4), 1⟩]]))))).toOption.map extract =
      some [⟨0, 0, .ninf, 1⟩, ⟨2, 3, .fin (17 / 20), 3⟩] := by
  rw [C18_histogram _ ⟨by decide, by norm_num⟩ _ _ (List.Perm.refl _)]
  decide +kernel

/-- C18: no weight is lost, the totals over all buckets are the totals over all examples. -/
theorem C18_totals (c : Config) (hc : c.Valid) (ts : List HExample) (hn : ∀ t ∈ ts, bucketValue c t ≠ .nan) :
    ((histogramOf c ts).map Bucket.examples).sum = (ts.map fun t => t.weight).sum ∧
      ((histogramOf c ts).map Bucket.labels).sum = (ts.map fun t => t.label * t.weight).sum := by
  have key : ∀ (f : HExample → ℚ),
      (((List.range (c.num + 2)).filter fun i => ts.any fun t => decide (InBucket c i (bucketValue c t))).map fun i =>
        ((ts.filter fun t => decide (InBucket c i (bucketValue c t))).map f).sum).sum = (ts.map f).sum := by
    intro f
    have e1 : ∀ l : List ℕ,
        ((l.filter fun i => ts.any fun t => decide (InBucket c i (bucketValue c t))).map fun i =>
          ((ts.filter fun t => decide (InBucket c i (bucketValue c t))).map f).sum).sum =
        (l.map fun i => ((ts.filter fun t => decide (InBucket c i (bucketValue c t))).map f).sum).sum := by
      intro l
      induction l with
      | nil => rfl
      | cons i l ih =>
        rw [List.filter_cons]
        by_cases h : (ts.any fun t => decide (InBucket c i (bucketValue c t))) = true
        · rw [if_pos h, List.map_cons, List.sum_cons, ih, List.map_cons, List.sum_cons]
        · rw [if_neg h, ih, List.map_cons, List.sum_cons]
          have : ts.filter (fun t => decide (InBucket c i (bucketValue c t))) = [] := by
            rw [List.filter_eq_nil_iff]
            intro t ht hti
            exact h (List.any_eq_true.2 ⟨t, ht, hti⟩)
          rw [this]; simp
    rw [e1]
    clear e1
    induction ts with
    | nil => simp
    | cons t ts ih =>
      rw [List.map_cons, List.sum_cons, ← ih (fun t ht => hn t (by simp [ht]))]
      obtain ⟨i, hi, hu⟩ := C18_bucket_unique c hc _ (hn t (by simp))
      have hi' : i < c.num + 2 := by
        generalize bucketValue c t = q at hi
        cases q with
        | nan => exact hi.elim
        | ninf => simp only [InBucket] at hi; omega
        | pinf => simp only [InBucket] at hi; omega
        | fin q => rcases hi with h | h | h <;> omega
      have hstep : ∀ l : List ℕ, l.Nodup →
          (l.map fun i => (((t :: ts).filter fun t => decide (InBucket c i (bucketValue c t))).map f).sum).sum =
          (if i ∈ l then f t else 0) +
            (l.map fun i => ((ts.filter fun t => decide (InBucket c i (bucketValue c t))).map f).sum).sum := by
        intro l hl
        induction l with
        | nil => simp
        | cons j l ihl =>
          rw [List.nodup_cons] at hl
          rw [List.map_cons, List.sum_cons, ihl hl.2, List.map_cons, List.sum_cons, List.filter_cons]
          by_cases hj : InBucket c j (bucketValue c t)
          · have : j = i := hu j hj
            subst this
            simp [hj, hl.1]; ring
          · have : ¬ j = i := by rintro rfl; exact hj hi
            have h2 : (i ∈ j :: l) ↔ i ∈ l := by simp [Ne.symm this]
            simp only [hj, decide_false, Bool.false_eq_true, if_false, h2]
            ring
      rw [hstep _ List.nodup_range, if_pos (List.mem_range.2 hi')]
  refine ⟨?_, ?_⟩
  · rw [← key fun t => t.weight]; unfold histogramOf; rw [List.map_map]; rfl
  · rw [← key fun t => t.label * t.weight]; unfold histogramOf; rw [List.map_map]; rfl

end Histogram
end TFMA
