import Verif.Model.Sample
import Verif.Lemmas.CombineTotal
import Mathlib.Logic.Equiv.Fintype
import Mathlib.Data.Fintype.Perm
import Mathlib.Data.List.Nodup
import Mathlib.Data.List.OfFn

/-!
# C113: a fixed size sample
-/

namespace TFMA
namespace Sample

open Beam

variable {V : Type}

/-! ### Specification -/

/-- How many elements have a larger tag. -/
def larger (xs : List (ℚ × V)) (t : ℚ) : ℕ := xs.countP fun y => decide (t < y.1)

/-- `l` is the list of the `n` elements of `xs` with the largest tags, largest first. -/
structure IsTop (n : ℕ) (xs l : List (ℚ × V)) : Prop where
  mem : ∀ x, x ∈ l ↔ x ∈ xs ∧ larger xs x.1 < n
  desc : l.Pairwise fun a b => b.1 < a.1

/-! ### Helpers -/

private abbrev Desc (l : List (ℚ × V)) : Prop := l.Pairwise fun a b => b.1 < a.1

private def isort : List (ℚ × V) → List (ℚ × V)
  | [] => []
  | x :: l => place x (isort l)

private theorem place_perm (x : ℚ × V) (l : List (ℚ × V)) : (place x l).Perm (x :: l) := by
  induction l with
  | nil => exact List.Perm.refl _
  | cons y l ih =>
    simp only [place]
    split_ifs
    · exact List.Perm.refl _
    · exact (ih.cons y).trans (List.Perm.swap x y l)

private theorem place_length (x : ℚ × V) (l : List (ℚ × V)) : (place x l).length = l.length + 1 := by
  simpa using (place_perm x l).length_eq

private theorem place_desc (x : ℚ × V) (l : List (ℚ × V)) (h : Desc l) (hx : ∀ y ∈ l, y.1 ≠ x.1) : Desc (place x l) := by
  induction l with
  | nil => simp [place]
  | cons y l ih =>
    simp only [place]
    replace h := List.pairwise_cons.1 h
    split_ifs with hy
    · refine List.pairwise_cons.2 ?_
      refine ⟨fun z hz => ?_, List.pairwise_cons.2 h⟩
      rcases List.mem_cons.1 hz with rfl | hz
      · exact hy
      · exact lt_trans (h.1 z hz) hy
    · refine List.pairwise_cons.2 ?_
      refine ⟨fun z hz => ?_, ih h.2 fun z hz => hx z (List.mem_cons_of_mem _ hz)⟩
      rcases List.mem_cons.1 ((place_perm x l).mem_iff.1 hz) with rfl | hz
      · exact lt_of_le_of_ne (not_lt.1 hy) (fun h => hx y (by simp) h.symm)
      · exact h.1 z hz

private theorem push_eq (n : ℕ) (l : List (ℚ × V)) (x : ℚ × V) (h : l.length ≤ n) : push n l x = (place x l).take n := by
  unfold push
  split_ifs with hl
  · rw [List.take_of_length_le (by rw [place_length]; omega)]
  · rw [List.dropLast_eq_take, place_length]
    congr 1
    omega

private theorem take_place (n : ℕ) (x : ℚ × V) (l : List (ℚ × V)) : (place x (l.take n)).take n = (place x l).take n := by
  induction l generalizing n with
  | nil => simp
  | cons y l ih =>
    cases n with
    | zero => simp
    | succ n =>
      rw [List.take_succ_cons]
      simp only [place]
      split_ifs
      · rw [List.take_succ_cons, List.take_succ_cons]
        cases n with
        | zero => simp
        | succ n => simp [List.take_take]
      · rw [List.take_succ_cons, List.take_succ_cons, ih]

private theorem push_take (n : ℕ) (l : List (ℚ × V)) (x : ℚ × V) : push n (l.take n) x = (place x l).take n := by
  rw [push_eq n _ x (by simp), take_place]

private theorem fold_take (n : ℕ) (ys l : List (ℚ × V)) :
    ys.foldl (push n) (l.take n) = (ys.foldl (fun l x => place x l) l).take n := by
  induction ys generalizing l with
  | nil => rfl
  | cons y ys ih => rw [List.foldl_cons, List.foldl_cons, push_take, ih]

private theorem place_beyond (n : ℕ) (x : ℚ × V) (l : List (ℚ × V)) (hd : Desc l)
    (h : n ≤ l.countP fun y => decide (x.1 < y.1)) : (place x l).take n = l.take n := by
  induction l generalizing n with
  | nil =>
    have : n = 0 := by simpa using h
    subst this; simp
  | cons y l ih =>
    cases n with
    | zero => simp
    | succ n =>
      replace hd := List.pairwise_cons.1 hd
      simp only [place]
      have hxy : x.1 < y.1 := by
        by_contra hc
        have hz : (y :: l).countP (fun y => decide (x.1 < y.1)) = 0 := by
          rw [List.countP_eq_zero]
          intro z hz
          rw [decide_eq_true_eq, not_lt]
          rcases List.mem_cons.1 hz with rfl | hz
          · exact not_lt.1 hc
          · exact le_of_lt (lt_of_lt_of_le (hd.1 z hz) (not_lt.1 hc))
        omega
      rw [if_neg (not_lt.2 (le_of_lt hxy)), List.take_succ_cons, List.take_succ_cons, ih n hd.2]
      rw [List.countP_cons, if_pos (by simpa using hxy)] at h
      omega

private theorem fold_perm (ys l : List (ℚ × V)) : (ys.foldl (fun l x => place x l) l).Perm (ys ++ l) := by
  induction ys generalizing l with
  | nil => exact List.Perm.refl _
  | cons y ys ih =>
    rw [List.foldl_cons]
    refine (ih _).trans ?_
    refine ((place_perm y l).append_left ys).trans ?_
    exact List.perm_middle

private def Distinct (l : List (ℚ × V)) : Prop := (l.map Prod.fst).Nodup

private theorem distinct_perm {l m : List (ℚ × V)} (p : l.Perm m) (h : Distinct l) : Distinct m := (p.map _).nodup_iff.1 h

private theorem desc_distinct {l : List (ℚ × V)} (h : Desc l) : Distinct l := by
  unfold Distinct
  rw [List.nodup_iff_pairwise_ne, List.pairwise_map]
  exact h.imp fun hab => ne_of_gt hab

private theorem fold_desc (ys l : List (ℚ × V)) (hl : Desc l) (hq : Distinct (ys ++ l)) :
    Desc (ys.foldl (fun l x => place x l) l) := by
  induction ys generalizing l with
  | nil => exact hl
  | cons y ys ih =>
    rw [List.foldl_cons]
    have hq' : Distinct (ys ++ y :: l) := distinct_perm List.perm_middle.symm hq
    refine ih _ (place_desc y l hl fun z hz he => ?_) (distinct_perm ((place_perm y l).symm.append_left ys) hq')
    have : (y :: (ys ++ l)).map Prod.fst = y.1 :: (ys ++ l).map Prod.fst := rfl
    rw [Distinct, List.cons_append, this, List.nodup_cons] at hq
    exact hq.1 (he ▸ List.mem_map_of_mem (List.mem_append_right _ hz))

private theorem desc_eq {l m : List (ℚ × V)} (p : l.Perm m) (hl : Desc l) (hm : Desc m) : l = m :=
  List.Perm.eq_of_pairwise (fun _ _ _ _ h1 h2 => absurd (lt_trans h1 h2) (lt_irrefl _)) hl hm p

/-- Sorted lists: their beginnings are the top elements. -/
private theorem top_of_desc (n : ℕ) (l : List (ℚ × V)) (hd : Desc l) : IsTop n l (l.take n) := by
  refine ⟨fun x => ?_, hd.sublist (List.take_sublist _ _)⟩
  induction l generalizing n with
  | nil => simp
  | cons y l ih =>
    replace hd := List.pairwise_cons.1 hd
    cases n with
    | zero => simp
    | succ n =>
      rw [List.take_succ_cons, List.mem_cons, List.mem_cons, ih n hd.2]
      unfold larger
      rw [List.countP_cons]
      constructor
      · rintro (rfl | ⟨h1, h2⟩)
        · refine ⟨Or.inl rfl, ?_⟩
          rw [if_neg (by simp), List.countP_eq_zero.2]
          · omega
          · intro z hz; simpa using le_of_lt (hd.1 z hz)
        · refine ⟨Or.inr h1, ?_⟩
          split_ifs <;> omega
      · rintro ⟨rfl | h1, h2⟩
        · exact Or.inl rfl
        · rw [if_pos (by simpa using hd.1 x h1)] at h2
          exact Or.inr ⟨h1, by omega⟩

private theorem top_perm {n : ℕ} {xs ys l : List (ℚ × V)} (p : xs.Perm ys) (h : IsTop n xs l) : IsTop n ys l := by
  refine ⟨fun x => ?_, h.desc⟩
  rw [h.mem x, p.mem_iff, larger, larger, p.countP_eq]

private theorem top_unique {n : ℕ} {xs l m : List (ℚ × V)} (h1 : IsTop n xs l) (h2 : IsTop n xs m) : l = m := by
  refine desc_eq ?_ h1.desc h2.desc
  rw [List.perm_ext_iff_of_nodup (List.Nodup.of_map _ (desc_distinct h1.desc)) (List.Nodup.of_map _ (desc_distinct h2.desc))]
  intro x
  rw [h1.mem, h2.mem]

private theorem exists_sorted (xs : List (ℚ × V)) (hq : Distinct xs) : ∃ l, Desc l ∧ l.Perm xs :=
  ⟨xs.foldl (fun l x => place x l) [], fold_desc xs [] List.Pairwise.nil (by simpa using hq), by simpa using fold_perm xs []⟩

private def Inv (n : ℕ) (xs h : List (ℚ × V)) : Prop := ∃ l, Desc l ∧ l.Perm xs ∧ h = l.take n

private theorem add_inv (n : ℕ) (xs h : List (ℚ × V)) (x : ℚ × V) (hi : Inv n xs h) (hq : Distinct (xs ++ [x])) :
    Inv n (xs ++ [x]) (push n h x) := by
  obtain ⟨l, h1, h2, rfl⟩ := hi
  have hp : (place x l).Perm (xs ++ [x]) :=
    (place_perm x l).trans ((h2.cons x).trans (List.perm_append_singleton x xs).symm)
  refine ⟨place x l, place_desc x l h1 fun y hy he => ?_, hp, push_take n l x⟩
  have hd := distinct_perm (hp.symm.trans (place_perm x l)) hq
  rw [Distinct, List.map_cons, List.nodup_cons] at hd
  exact hd.1 (he ▸ List.mem_map_of_mem hy)

private theorem merge_inv (n : ℕ) (xs ys a b : List (ℚ × V)) (ha : Inv n xs a) (hb : Inv n ys b) (hq : Distinct (xs ++ ys)) :
    Inv n (xs ++ ys) (mergeHeaps n a b) := by
  obtain ⟨l, h1, h2, rfl⟩ := ha
  obtain ⟨m, h3, h4, rfl⟩ := hb
  unfold mergeHeaps
  have hpq : (m ++ l).Perm (xs ++ ys) := (List.perm_append_comm).trans (h2.append h4)
  have hd : Distinct (m ++ l) := distinct_perm hpq.symm hq
  refine ⟨m.foldl (fun l x => place x l) l, fold_desc m l h1 hd, (fold_perm m l).trans hpq, ?_⟩
  rw [fold_take]
  -- the elements of `m` after the first `n` change nothing
  have key : ∀ (r k L : List (ℚ × V)), Desc (k ++ r) → (n ≤ k.length ∨ r = []) → Desc L → (∀ z ∈ k, z ∈ L) →
      Distinct (r ++ L) → (r.foldl (fun l x => place x l) L).take n = L.take n := by
    intro r
    induction r with
    | nil => intro k L _ _ _ _ _; rfl
    | cons y r ih =>
      intro k L hd hk hL hsub hdist
      have hk' : n ≤ k.length := by
        rcases hk with h | h
        · exact h
        · cases h
      rw [List.foldl_cons]
      have hyL : ∀ z ∈ L, z.1 ≠ y.1 := by
        intro z hz he
        rw [Distinct, List.cons_append, List.map_cons, List.nodup_cons] at hdist
        exact hdist.1 (he ▸ List.mem_map_of_mem (List.mem_append_right _ hz))
      have hbig : ∀ z ∈ k, y.1 < z.1 := fun z hz => (List.pairwise_append.1 hd).2.2 z hz y (by simp)
      have hcount : n ≤ L.countP fun z => decide (y.1 < z.1) := by
        have hnd : k.Nodup := List.Nodup.of_map _ (desc_distinct (List.pairwise_append.1 hd).1)
        have : k.length ≤ (L.filter fun z => decide (y.1 < z.1)).length :=
          (hnd.subperm fun z hz => List.mem_filter.2 ⟨hsub z hz, by simpa using hbig z hz⟩).length_le
        rw [List.countP_eq_length_filter]
        omega
      rw [ih (k ++ [y]) (place y L) (by simpa using hd) (Or.inl (by simp; omega)) (place_desc y L hL hyL)
        ?_ ?_, place_beyond n y L hL hcount]
      · intro z hz
        rcases List.mem_append.1 hz with hz | hz
        · exact (place_perm y L).mem_iff.2 (List.mem_cons_of_mem _ (hsub z hz))
        · rw [List.mem_singleton] at hz
          exact (place_perm y L).mem_iff.2 (by rw [hz]; simp)
      · exact distinct_perm ((List.perm_middle.symm).trans ((place_perm y L).symm.append_left r)) hdist
  have hsplit : m.foldl (fun l x => place x l) l =
      (m.drop n).foldl (fun l x => place x l) ((m.take n).foldl (fun l x => place x l) l) := by
    rw [← List.foldl_append, List.take_append_drop]
  have hd' : Distinct (m.drop n ++ (m.take n ++ l)) := by
    refine distinct_perm ?_ hd
    rw [← List.append_assoc]
    refine List.Perm.append_right l ?_
    conv_lhs => rw [← List.take_append_drop n m]
    exact List.perm_append_comm
  rw [hsplit, key (m.drop n) (m.take n) _ (by rw [List.take_append_drop]; exact h3) ?_ ?_ ?_ ?_]
  · by_cases hm : n ≤ m.length
    · left; simp [hm]
    · right; rw [List.drop_eq_nil_iff]; omega
  · refine fold_desc _ _ h1 ?_
    rw [Distinct, List.map_append, List.nodup_append] at hd'
    exact hd'.2.1
  · intro z hz
    exact (fold_perm _ _).mem_iff.2 (List.mem_append_left _ hz)
  · exact distinct_perm ((fold_perm (m.take n) l).symm.append_left _) hd'

/-! ### Theorems -/

/-- Every execution keeps the elements with the `n` largest tags and gives their values, largest tag first. -/
theorem C113_sample (n : ℕ) (data : List (ℚ × V)) (hq : (data.map Prod.fst).Nodup) (s : Sched (ℚ × V)) (hp : s.inputs.Perm data) :
    ∃ h, (combiner n).run s = .ok h ∧ IsTop n data h := by
  obtain ⟨h, h1, l, h2, h3, h4⟩ := run_total (c := combiner n) (P := Inv n) (Q := Distinct) (plus := fun a b => .ok (mergeHeaps n a b))
    (fun xs ys h => by
      rw [Distinct, List.map_append, List.nodup_append] at h
      exact ⟨h.1, h.2.1⟩)
    ⟨[], List.Pairwise.nil, List.Perm.refl _, by simp [combiner]⟩
    (fun xs a x ha hx => ⟨_, rfl, add_inv n xs a x ha hx⟩)
    (fun l => by
      have : ∀ (as : List (List (ℚ × V))) (a : List (ℚ × V)),
          loop (fun a b => Except.ok (mergeHeaps n a b)) a as = .ok (as.foldl (mergeHeaps n) a) := by
        intro as
        induction as with
        | nil => intro a; rfl
        | cons b as ih => intro a; exact ih _
      cases l with
      | nil => rfl
      | cons a as => exact (this as a).symm)
    (fun xs ys a b ha hb hq => ⟨_, rfl, merge_inv n xs ys a b ha hb hq⟩) s (distinct_perm hp.symm hq)
  refine ⟨h, h1, ?_⟩
  rw [h4]
  exact top_perm (h3.trans hp) (top_of_desc n l h2)

/-- Hence the sample is the same for all executions over the same tagged elements. -/
theorem C113_any_schedule (n : ℕ) (s s' : Sched (ℚ × V)) (hq : (s.inputs.map Prod.fst).Nodup) (hp : s'.inputs.Perm s.inputs) :
    (combiner n).run s = (combiner n).run s' := by
  obtain ⟨h, h1, h2⟩ := C113_sample n s.inputs hq s (List.Perm.refl _)
  obtain ⟨h', h3, h4⟩ := C113_sample n s.inputs hq s' hp
  rw [h1, h3, top_unique h2 h4]

example : (combiner 2).run (.merge (.cons (.bundle [((1 : ℚ), "a"), (5, "b"), (3, "c")]) (.one (.extend (.bundle [(4, "d")]) [(2, "e")])))) =
    .ok [(5, "b"), (4, "d")] := by decide +kernel

/-- The sample has `size` values, or all of them if there are fewer. -/
theorem C113_size (n : ℕ) (data : List (ℚ × V)) (hq : (data.map Prod.fst).Nodup) (s : Sched (ℚ × V)) (hp : s.inputs.Perm data) :
    ((combiner n).run s).toOption.map (fun h => (extract h).length) = some (min n data.length) := by
  obtain ⟨h, h1, h2⟩ := C113_sample n data hq s hp
  obtain ⟨l, h3, h4⟩ := exists_sorted data hq
  rw [h1]
  simp only [Except.toOption, Option.map_some, extract, List.length_map]
  rw [top_unique h2 (top_perm h4 (top_of_desc n l h3)), List.length_take, h4.length_eq]

/-- Every value is sampled at most as often as it occurs; if there are no more values than the size, all are sampled. -/
theorem C113_values [DecidableEq V] (n : ℕ) (data : List (ℚ × V)) (hq : (data.map Prod.fst).Nodup) (s : Sched (ℚ × V))
    (hp : s.inputs.Perm data) : ∃ h, (combiner n).run s = .ok h ∧ (∀ v, (extract h).count v ≤ (data.map Prod.snd).count v) ∧
      (data.length ≤ n → (extract h).Perm (data.map Prod.snd)) := by
  obtain ⟨h, h1, h2⟩ := C113_sample n data hq s hp
  obtain ⟨l, h3, h4⟩ := exists_sorted data hq
  have he := top_unique h2 (top_perm h4 (top_of_desc n l h3))
  refine ⟨h, h1, fun v => ?_, fun hn => ?_⟩
  · rw [he, extract, ← (h4.map Prod.snd).count_eq]
    exact ((List.take_sublist n l).map Prod.snd).count_le v
  · rw [he, extract, List.take_of_length_le (by rw [h4.length_eq]; exact hn)]
    exact h4.map _

/-- The elements sampled when element `i` gets the tag `t (σ i)`. -/
def sampled {N : ℕ} (n : ℕ) (t : Fin N → ℚ) (σ : Equiv.Perm (Fin N)) : Finset (Fin N) :=
  match (combiner n).run (.bundle (List.ofFn fun i => (t (σ i), i))) with
  | .ok h => (extract h).toFinset
  | .error _ => ∅

private theorem mem_sampled {N : ℕ} (n : ℕ) (t : Fin N → ℚ) (ht : Function.Injective t) (σ : Equiv.Perm (Fin N)) (i : Fin N) :
    i ∈ sampled n t σ ↔ (Finset.univ.filter fun j => t (σ i) < t (σ j)).card < n := by
  have hq : ((List.ofFn fun i => (t (σ i), i)).map Prod.fst).Nodup := by
    rw [List.map_ofFn, List.nodup_ofFn]
    exact ht.comp σ.injective
  obtain ⟨h, h1, h2⟩ := C113_sample n _ hq (.bundle (List.ofFn fun i => (t (σ i), i))) (List.Perm.refl _)
  unfold sampled
  rw [h1]
  simp only [extract, List.mem_toFinset, List.mem_map]
  have hl : larger (List.ofFn fun i => (t (σ i), i)) (t (σ i)) = (Finset.univ.filter fun j => t (σ i) < t (σ j)).card := by
    unfold larger
    rw [List.ofFn_eq_map, List.countP_map, List.countP_eq_length_filter, Finset.card_def, Finset.filter_val]
    have : (Finset.univ : Finset (Fin N)).val = (List.finRange N : Multiset (Fin N)) := rfl
    rw [this, Multiset.filter_coe, Multiset.coe_card]
    congr 1
  rw [← hl]
  constructor
  · rintro ⟨⟨a, j⟩, hx, rfl⟩
    have := (h2.mem _).1 hx
    obtain ⟨k, hk⟩ := List.mem_ofFn.1 this.1
    simp only [Prod.mk.injEq] at hk
    obtain ⟨rfl, rfl⟩ := hk
    exact this.2
  · intro h
    exact ⟨(t (σ i), i), (h2.mem _).2 ⟨List.mem_ofFn.2 ⟨i, rfl⟩, h⟩, rfl⟩

/-- The sample is uniform: over all ways to distribute the tags, any two sets of elements of the same size are equally often the
sample. -/
theorem C113_uniform {N : ℕ} (n : ℕ) (t : Fin N → ℚ) (ht : Function.Injective t) (A B : Finset (Fin N)) (hc : A.card = B.card) :
    (Finset.univ.filter fun σ => sampled n t σ = A).card = (Finset.univ.filter fun σ => sampled n t σ = B).card := by
  classical
  obtain ⟨e⟩ : Nonempty ({x // x ∈ A} ≃ {x // x ∈ B}) := by
    refine ⟨Fintype.equivOfCardEq ?_⟩
    simpa using hc
  let π : Equiv.Perm (Fin N) := e.extendSubtype
  have hπ : ∀ i, π i ∈ B ↔ i ∈ A := by
    intro i
    constructor
    · intro h
      by_contra hi
      exact Equiv.extendSubtype_not_mem e i hi h
    · intro h; exact Equiv.extendSubtype_mem e i h
  have hs : ∀ σ i, i ∈ sampled n t (σ.trans (Equiv.refl _)) ↔ π i ∈ sampled n t (π.symm.trans σ) := by
    intro σ i
    rw [mem_sampled n t ht, mem_sampled n t ht]
    have : (Finset.univ.filter fun j => t ((π.symm.trans σ) (π i)) < t ((π.symm.trans σ) j)).card =
        (Finset.univ.filter fun j => t (σ i) < t (σ j)).card := by
      refine Finset.card_bij (fun j _ => π.symm j) ?_ ?_ ?_
      · intro j hj
        simpa using hj
      · intro a _ b _ h; exact π.symm.injective h
      · intro j hj
        exact ⟨π j, by simpa using hj, by simp⟩
    rw [this]
    rfl
  refine Finset.card_bij (fun σ _ => π.symm.trans σ) ?_ ?_ ?_
  · intro σ hσ
    simp only [Finset.mem_filter, Finset.mem_univ, true_and] at hσ ⊢
    ext i
    have := hs σ (π.symm i)
    simp only [Equiv.apply_symm_apply, Equiv.trans_refl] at this
    rw [← this, hσ, ← hπ, Equiv.apply_symm_apply]
  · intro σ _ τ _ h
    ext i
    have := congrArg (fun f : Equiv.Perm (Fin N) => f (π i)) h
    simpa using congrArg Fin.val this
  · intro τ hτ
    simp only [Finset.mem_filter, Finset.mem_univ, true_and] at hτ
    refine ⟨π.trans τ, ?_, ?_⟩
    · simp only [Finset.mem_filter, Finset.mem_univ, true_and]
      ext i
      have := hs (π.trans τ) i
      have e2 : π.symm.trans (π.trans τ) = τ := by ext j; simp
      simp only [Equiv.trans_refl] at this
      rw [this, e2, hτ, hπ]
    · ext j; simp

example : sampled 1 (fun i : Fin 2 => (i : ℚ)) (Equiv.refl _) = {1} := by decide +kernel

end Sample
end TFMA
