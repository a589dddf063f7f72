import Verif.Model.Boxes
import Mathlib.Tactic.Linarith
import Mathlib.Tactic.Positivity
import Mathlib.Tactic.Ring
import Mathlib.Tactic.FieldSimp

/-!
# C47, C48: overlaps and matching of boxes
-/

namespace TFMA
namespace Boxes

/-! ## Intersection over union -/

/-- A box whose sides are not negative. -/
def Box.Proper (b : Box) : Prop := b.left ≤ b.right ∧ b.top ≤ b.bottom

/-- The point lies inside the box, not on its border. -/
def Box.Inside (b : Box) (x y : ℚ) : Prop := b.left < x ∧ x < b.right ∧ b.top < y ∧ y < b.bottom

private theorem area_nonneg {b : Box} (h : b.Proper) : 0 ≤ b.area :=
  mul_nonneg (sub_nonneg.2 h.1) (sub_nonneg.2 h.2)

private theorem inter_nonneg (a b : Box) : 0 ≤ intersection a b := mul_nonneg (le_max_right _ _) (le_max_right _ _)

private theorem inter_symm (a b : Box) : intersection a b = intersection b a := by
  unfold intersection
  rw [min_comm a.right, max_comm a.left, min_comm a.bottom, max_comm a.top]

private theorem inter_le {a b : Box} (ha : a.Proper) : intersection a b ≤ a.area := by
  unfold intersection Box.area
  have h1 : max (min a.right b.right - max a.left b.left) 0 ≤ a.right - a.left :=
    max_le (by linarith [min_le_left a.right b.right, le_max_left a.left b.left]) (sub_nonneg.2 ha.1)
  have h2 : max (min a.bottom b.bottom - max a.top b.top) 0 ≤ a.bottom - a.top :=
    max_le (by linarith [min_le_left a.bottom b.bottom, le_max_left a.top b.top]) (sub_nonneg.2 ha.2)
  exact mul_le_mul h1 h2 (le_max_right _ _) (sub_nonneg.2 ha.1)

/-- C48: the overlap is at least 0. -/
theorem C48_nonneg {a b : Box} (ha : a.Proper) (hb : b.Proper) : 0 ≤ iou a b := by
  unfold iou
  simp only
  split_ifs
  · exact div_nonneg (inter_nonneg a b) (by linarith [inter_le (b := b) ha, area_nonneg hb])
  · exact le_refl 0

/-- C48: the overlap is at most 1. -/
theorem C48_le_one {a b : Box} (ha : a.Proper) (hb : b.Proper) : iou a b ≤ 1 := by
  unfold iou
  simp only
  split_ifs with h
  · have h1 := inter_le (b := b) ha
    have h2 : intersection a b ≤ b.area := inter_symm a b ▸ inter_le (b := a) hb
    have h3 := inter_nonneg a b
    have hpos : 0 < a.area + b.area - intersection a b :=
      lt_of_le_of_ne (by linarith [area_nonneg hb]) (Ne.symm h)
    rw [div_le_one hpos]
    linarith
  · exact zero_le_one

/-- C48: the overlap is symmetric. -/
theorem C48_symmetric (a b : Box) : iou a b = iou b a := by
  unfold iou
  rw [inter_symm a b, add_comm a.area]

private theorem inter_pos_iff (a b : Box) : 0 < intersection a b ↔
    max a.left b.left < min a.right b.right ∧ max a.top b.top < min a.bottom b.bottom := by
  unfold intersection
  constructor
  · intro h
    constructor
    · by_contra hc
      rw [max_eq_right (by linarith [not_lt.1 hc]), zero_mul] at h
      exact lt_irrefl _ h
    · by_contra hc
      rw [max_eq_right (a := min a.bottom b.bottom - max a.top b.top) (by linarith [not_lt.1 hc]), mul_zero] at h
      exact lt_irrefl _ h
  · rintro ⟨h1, h2⟩
    exact mul_pos (lt_max_of_lt_left (by linarith)) (lt_max_of_lt_left (by linarith))

private theorem inter_pos_iff_point (a b : Box) : 0 < intersection a b ↔ ∃ x y, a.Inside x y ∧ b.Inside x y := by
  rw [inter_pos_iff]
  constructor
  · rintro ⟨h1, h2⟩
    obtain ⟨x, hx1, hx2⟩ := exists_between h1
    obtain ⟨y, hy1, hy2⟩ := exists_between h2
    refine ⟨x, y, ⟨?_, ?_, ?_, ?_⟩, ?_, ?_, ?_, ?_⟩
    · exact lt_of_le_of_lt (le_max_left _ _) hx1
    · exact lt_of_lt_of_le hx2 (min_le_left _ _)
    · exact lt_of_le_of_lt (le_max_left _ _) hy1
    · exact lt_of_lt_of_le hy2 (min_le_left _ _)
    · exact lt_of_le_of_lt (le_max_right _ _) hx1
    · exact lt_of_lt_of_le hx2 (min_le_right _ _)
    · exact lt_of_le_of_lt (le_max_right _ _) hy1
    · exact lt_of_lt_of_le hy2 (min_le_right _ _)
  · rintro ⟨x, y, ⟨h1, h2, h3, h4⟩, h5, h6, h7, h8⟩
    exact ⟨lt_trans (max_lt h1 h5) (lt_min h2 h6), lt_trans (max_lt h3 h7) (lt_min h4 h8)⟩

/-- C48: the overlap is 0 exactly for boxes without a common inner point. -/
theorem C48_zero_iff {a b : Box} (ha : a.Proper) (hb : b.Proper) :
    iou a b = 0 ↔ ¬ ∃ x y, a.Inside x y ∧ b.Inside x y := by
  rw [← inter_pos_iff_point]
  have h0 := inter_nonneg a b
  have h1 := inter_le (b := b) ha
  have h2 : intersection a b ≤ b.area := inter_symm a b ▸ inter_le (b := a) hb
  unfold iou
  simp only
  constructor
  · intro h hpos
    have hu : a.area + b.area - intersection a b ≠ 0 := by
      have : 0 < a.area + b.area - intersection a b := by linarith
      exact ne_of_gt this
    rw [if_pos hu, div_eq_zero_iff] at h
    rcases h with h | h
    · exact absurd h (ne_of_gt hpos)
    · exact hu h
  · intro h
    have : intersection a b = 0 := le_antisymm (not_lt.1 h) h0
    rw [this]
    simp

/-- C48: the overlap is 1 exactly for equal boxes, if one of them has a positive area. -/
theorem C48_one_iff {a b : Box} (ha : a.Proper) (hb : b.Proper) (hpos : 0 < a.area) : iou a b = 1 ↔ a = b := by
  have h0 := inter_nonneg a b
  have h1 := inter_le (b := b) ha
  have h2 : intersection a b ≤ b.area := inter_symm a b ▸ inter_le (b := a) hb
  have hu : 0 < a.area + b.area - intersection a b := by linarith
  unfold iou
  simp only
  rw [if_pos (ne_of_gt hu), div_eq_one_iff_eq (ne_of_gt hu)]
  constructor
  · intro h
    have e1 : intersection a b = a.area := by linarith
    have e2 : intersection a b = b.area := by linarith
    have hp : 0 < intersection a b := by linarith
    obtain ⟨p1, p2⟩ := (inter_pos_iff a b).1 hp
    have sides : ∀ (w h W H : ℚ), 0 < w → 0 < h → w ≤ W → h ≤ H → w * h = W * H → w = W ∧ h = H := by
      intro w h W H hw hh hwW hhH he
      have hW : 0 < W := lt_of_lt_of_le hw hwW
      constructor
      · by_contra hne
        have : w < W := lt_of_le_of_ne hwW hne
        have h1 : w * h < W * h := mul_lt_mul_of_pos_right this hh
        have h2 : W * h ≤ W * H := mul_le_mul_of_nonneg_left hhH (le_of_lt hW)
        linarith
      · by_contra hne
        have : h < H := lt_of_le_of_ne hhH hne
        have h1 : w * h ≤ W * h := mul_le_mul_of_nonneg_right hwW (le_of_lt hh)
        have h2 : W * h < W * H := mul_lt_mul_of_pos_left this hW
        linarith
    have ei : intersection a b = (min a.right b.right - max a.left b.left) * (min a.bottom b.bottom - max a.top b.top) := by
      unfold intersection
      rw [max_eq_left (le_of_lt (sub_pos.2 p1)), max_eq_left (le_of_lt (sub_pos.2 p2))]
    have a1 := min_le_left a.right b.right
    have a2 := le_max_left a.left b.left
    have a3 := min_le_left a.bottom b.bottom
    have a4 := le_max_left a.top b.top
    have b1 := min_le_right a.right b.right
    have b2 := le_max_right a.left b.left
    have b3 := min_le_right a.bottom b.bottom
    have b4 := le_max_right a.top b.top
    obtain ⟨s1, s2⟩ := sides _ _ (a.right - a.left) (a.bottom - a.top) (sub_pos.2 p1) (sub_pos.2 p2) (by linarith) (by linarith)
      (by rw [← ei]; exact e1)
    obtain ⟨t1, t2⟩ := sides _ _ (b.right - b.left) (b.bottom - b.top) (sub_pos.2 p1) (sub_pos.2 p2) (by linarith) (by linarith)
      (by rw [← ei]; exact e2)
    cases a; cases b
    simp only [Box.mk.injEq] at *
    refine ⟨?_, ?_, ?_, ?_⟩ <;> linarith
  · rintro rfl
    have : intersection a a = a.area := by
      unfold intersection Box.area
      rw [min_self, max_self, min_self, max_self, max_eq_left (sub_nonneg.2 ha.1), max_eq_left (sub_nonneg.2 ha.2)]
    rw [this]; ring

/-- C48: the table has the overlaps of all pairs; it is an error if and only if a box has its borders in the wrong order. -/
theorem C48_table (boxes1 boxes2 : List Box) :
    ((∀ b ∈ boxes1 ++ boxes2, b.Proper) → ious boxes1 boxes2 = .ok (boxes1.map fun a => boxes2.map fun b => iou a b)) ∧
    (¬ (∀ b ∈ boxes1 ++ boxes2, b.Proper) → ious boxes1 boxes2 = .error .valueError) := by
  have key : ∀ l : List Box, ((∀ b ∈ l, b.Proper) → areas l = .ok (l.map Box.area)) ∧
      (¬ (∀ b ∈ l, b.Proper) → areas l = .error .valueError) := by
    intro l
    unfold areas Box.Proper
    by_cases h1 : l.any (fun b => decide (b.right - b.left < 0)) = true
    · rw [if_pos h1]
      obtain ⟨b, hb, hlt⟩ := List.any_eq_true.1 h1
      refine ⟨fun h => ?_, fun _ => rfl⟩
      have := (h b hb).1
      simp only [decide_eq_true_eq] at hlt
      linarith
    · rw [if_neg h1]
      by_cases h2 : l.any (fun b => decide (b.bottom - b.top < 0)) = true
      · rw [if_pos h2]
        obtain ⟨b, hb, hlt⟩ := List.any_eq_true.1 h2
        refine ⟨fun h => ?_, fun _ => rfl⟩
        have := (h b hb).2
        simp only [decide_eq_true_eq] at hlt
        linarith
      · rw [if_neg h2]
        refine ⟨fun _ => rfl, fun h => absurd (fun b hb => ⟨?_, ?_⟩) h⟩
        · by_contra hc
          exact h1 (List.any_eq_true.2 ⟨b, hb, by simp only [decide_eq_true_eq]; linarith [not_le.1 hc]⟩)
        · by_contra hc
          exact h2 (List.any_eq_true.2 ⟨b, hb, by simp only [decide_eq_true_eq]; linarith [not_le.1 hc]⟩)
  unfold ious
  constructor
  · intro h
    rw [(key boxes1).1 fun b hb => h b (by simp [hb]), (key boxes2).1 fun b hb => h b (by simp [hb])]
  · intro h
    by_cases h1 : ∀ b ∈ boxes1, b.Proper
    · rw [(key boxes1).1 h1]
      have h2 : ¬ ∀ b ∈ boxes2, b.Proper := fun h2 => h fun b hb => (List.mem_append.1 hb).elim (h1 b) (h2 b)
      rw [(key boxes2).2 h2]
    · rw [(key boxes1).2 h1]

/-- Two boxes overlapping by a seventh. -/
example : iou ⟨0, 0, 2, 2⟩ ⟨1, 1, 3, 3⟩ = 1 / 7 ∧ (⟨0, 0, 2, 2⟩ : Box).Proper ∧ 0 < (⟨0, 0, 2, 2⟩ : Box).area := by
  refine ⟨by decide +kernel, ⟨by decide, by decide⟩, by decide +kernel⟩

/-! ## Matching -/

/-- The overlap of prediction `i` with ground truth `j`. -/
def entry (rows : List (List ℚ)) (i j : ℕ) : ℚ := ((rows[i]?.bind fun r => r[j]?)).getD 0

/-- Ground truth `j` has not been taken by a prediction before `i`. -/
def Free (preds : List (Option ℕ)) (i j : ℕ) : Prop := ∀ i' < i, preds[i']? ≠ some (some j)

/-- `j` is the best choice among those that satisfy `P`: at least the threshold, no other one is better and no later one is as
good. -/
def BestFree (τ : ℚ) (x : ℕ → ℚ) (P : ℕ → Prop) (j : ℕ) : Prop :=
  P j ∧ τ ≤ x j ∧ ∀ j', P j' → x j' ≤ x j ∧ (j < j' → x j' < x j)

private theorem pick_spec : ∀ (row : List (ℚ × Option ℕ)) (k : ℕ) (τ : ℚ) (found : Option ℕ),
    (∃ (j : ℕ) (x : ℚ), row[j]? = some (x, none) ∧ τ ≤ x ∧ pick k row τ found = some (k + j) ∧
      ∀ (j' : ℕ) (x' : ℚ), row[j']? = some (x', none) → x' ≤ x ∧ (j < j' → x' < x)) ∨
    (pick k row τ found = found ∧ ∀ (j : ℕ) (x : ℚ), row[j]? = some (x, none) → x < τ)
  | [], k, τ, found => .inr ⟨rfl, by simp⟩
  | (y, some i) :: row, k, τ, found => by
    have hp : pick k ((y, some i) :: row) τ found = pick (k + 1) row τ found := rfl
    rw [hp]
    rcases pick_spec row (k + 1) τ found with ⟨j, x, h1, h2, h3, h4⟩ | ⟨h1, h2⟩
    · refine .inl ⟨j + 1, x, by simpa using h1, h2, by rw [h3]; congr 1; omega, ?_⟩
      intro j' x' hj'
      cases j' with
      | zero => simp at hj'
      | succ j' =>
        have := h4 j' x' (by simpa using hj')
        exact ⟨this.1, fun h => this.2 (by omega)⟩
    · refine .inr ⟨h1, ?_⟩
      intro j x hj
      cases j with
      | zero => simp at hj
      | succ j => exact h2 j x (by simpa using hj)
  | (y, none) :: row, k, τ, found => by
    have hp : pick k ((y, none) :: row) τ found =
      if y < τ then pick (k + 1) row τ found else pick (k + 1) row y (some k) := rfl
    rw [hp]
    by_cases hy : y < τ
    · rw [if_pos hy]
      rcases pick_spec row (k + 1) τ found with ⟨j, x, h1, h2, h3, h4⟩ | ⟨h1, h2⟩
      · refine .inl ⟨j + 1, x, by simpa using h1, h2, by rw [h3]; congr 1; omega, ?_⟩
        intro j' x' hj'
        cases j' with
        | zero =>
          simp only [List.getElem?_cons_zero, Option.some.injEq, Prod.mk.injEq, and_true] at hj'
          subst hj'
          exact ⟨by linarith, fun h => by omega⟩
        | succ j' =>
          have := h4 j' x' (by simpa using hj')
          exact ⟨this.1, fun h => this.2 (by omega)⟩
      · refine .inr ⟨h1, ?_⟩
        intro j x hj
        cases j with
        | zero =>
          simp only [List.getElem?_cons_zero, Option.some.injEq, Prod.mk.injEq, and_true] at hj
          subst hj; exact hy
        | succ j => exact h2 j x (by simpa using hj)
    · rw [if_neg hy]
      have hy' : τ ≤ y := not_lt.1 hy
      rcases pick_spec row (k + 1) y (some k) with ⟨j, x, h1, h2, h3, h4⟩ | ⟨h1, h2⟩
      · refine .inl ⟨j + 1, x, by simpa using h1, le_trans hy' h2, by rw [h3]; congr 1; omega, ?_⟩
        intro j' x' hj'
        cases j' with
        | zero =>
          simp only [List.getElem?_cons_zero, Option.some.injEq, Prod.mk.injEq, and_true] at hj'
          subst hj'
          exact ⟨h2, fun h => by omega⟩
        | succ j' =>
          have := h4 j' x' (by simpa using hj')
          exact ⟨this.1, fun h => this.2 (by omega)⟩
      · refine .inl ⟨0, y, by simp, hy', by simpa using h1, ?_⟩
        intro j' x' hj'
        cases j' with
        | zero =>
          simp only [List.getElem?_cons_zero, Option.some.injEq, Prod.mk.injEq, and_true] at hj'
          subst hj'
          exact ⟨le_refl _, fun h => by omega⟩
        | succ j' =>
          have := h2 j' x' (by simpa using hj')
          exact ⟨le_of_lt this, fun _ => this⟩

private theorem zip_get {row : List ℚ} {gts : List (Option ℕ)} (_hlen : row.length = gts.length) (j : ℕ) (x : ℚ) :
    (row.zip gts)[j]? = some (x, none) ↔ row[j]? = some x ∧ gts[j]? = some none := by
  rw [List.getElem?_zip_eq_some]

private theorem matchLoop_lengths (τ : ℚ) : ∀ (rows : List (List ℚ)) (i : ℕ) (gts : List (Option ℕ)),
    (matchLoop τ i rows gts).1.length = gts.length ∧ (matchLoop τ i rows gts).2.length = rows.length
  | [], i, gts => ⟨rfl, rfl⟩
  | row :: rows, i, gts => by
    obtain ⟨h1, h2⟩ := matchLoop_lengths τ rows (i + 1) (assign gts i (pick 0 (row.zip gts) (cap τ) none))
    refine ⟨?_, by simp [matchLoop, h2]⟩
    simp only [matchLoop]
    rw [h1]
    unfold assign
    split <;> simp

/-- What the loop does: `gts0` is the state at prediction `i`. -/
private theorem matchLoop_spec (τ : ℚ) (n : ℕ) : ∀ (rows : List (List ℚ)) (i : ℕ) (gts : List (Option ℕ)),
    gts.length = n → (∀ r ∈ rows, r.length = n) → (∀ (j i' : ℕ), gts[j]? = some (some i') → i' < i) →
    let r := matchLoop τ i rows gts
    -- the two arrays agree
    (∀ (j i' : ℕ), r.1[j]? = some (some i') ↔ (gts[j]? = some (some i') ∨ ∃ k : ℕ, i' = i + k ∧ r.2[k]? = some (some j))) ∧
    -- what is found is the best free ground truth
    (∀ (k j : ℕ), r.2[k]? = some (some j) → j < n ∧
      BestFree (cap τ) (entry rows k) (fun j : ℕ => j < n ∧ gts[j]? = some none ∧ Free r.2 k j) j) ∧
    (∀ k : ℕ, r.2[k]? = some none → ∀ j : ℕ, j < n → gts[j]? = some none → Free r.2 k j → entry rows k j < cap τ)
  | [], i, gts, hg, hr, hi => by
    simp [matchLoop]
  | row :: rows, i, gts, hg, hr, hi => by
    have hrow : row.length = gts.length := by rw [hg]; exact hr row (by simp)
    obtain ⟨found, hfound⟩ : ∃ f, f = pick 0 (row.zip gts) (cap τ) none := ⟨_, rfl⟩
    have hpick := pick_spec (row.zip gts) 0 (cap τ) none
    rw [← hfound] at hpick
    -- properties of the found one
    have hfj : ∀ j : ℕ, found = some j → ∃ x : ℚ, row[j]? = some x ∧ gts[j]? = some none ∧ cap τ ≤ x ∧
        ∀ (j' : ℕ) (x' : ℚ), row[j']? = some x' → gts[j']? = some none → x' ≤ x ∧ (j < j' → x' < x) := by
      intro j hj
      rcases hpick with ⟨j0, x, h1, h2, h3, h4⟩ | ⟨h1, _⟩
      · rw [h3] at hj
        simp only [Nat.zero_add, Option.some.injEq] at hj
        subst hj
        obtain ⟨h5, h6⟩ := (zip_get hrow _ _).1 h1
        exact ⟨x, h5, h6, h2, fun j' x' h7 h8 => h4 j' x' ((zip_get hrow _ _).2 ⟨h7, h8⟩)⟩
      · rw [h1] at hj; cases hj
    have hfn : found = none → ∀ (j : ℕ) (x : ℚ), row[j]? = some x → gts[j]? = some none → x < cap τ := by
      intro hn j x h1 h2
      rcases hpick with ⟨j0, x, _, _, h3, _⟩ | ⟨_, h⟩
      · rw [h3] at hn; cases hn
      · exact h j x ((zip_get hrow _ _).2 ⟨h1, h2⟩)
    have hassign : ∀ (j : ℕ) (v : Option ℕ), (assign gts i found)[j]? = some v ↔
        (found = some j ∧ j < n ∧ v = some i) ∨ (found ≠ some j ∧ gts[j]? = some v) := by
      intro j v
      unfold assign
      cases hf : found with
      | none => simp
      | some j0 =>
        simp only [List.getElem?_set]
        by_cases hj : j0 = j
        · subst hj
          simp only [if_true, true_and, ne_eq, not_true_eq_false, false_and, or_false, hg]
          by_cases hlt : j0 < n <;> simp [hlt, eq_comm]
        · simp [hj]
    have hlt : ∀ j, found = some j → j < n := by
      intro j hj
      obtain ⟨x, h1, _⟩ := hfj j hj
      have := (List.getElem?_eq_some_iff.1 h1).1
      omega
    obtain ⟨ih1, ih2, ih3⟩ := matchLoop_spec τ n rows (i + 1) (assign gts i found)
      (by unfold assign; split <;> simp [hg]) (fun r hr' => hr r (by simp [hr']))
      (by
        intro j i' h
        rcases (hassign j _).1 h with ⟨_, _, h⟩ | ⟨_, h⟩
        · cases h; omega
        · have := hi j i' h; omega)
    have hr1 : (matchLoop τ i (row :: rows) gts).1 = (matchLoop τ (i + 1) rows (assign gts i found)).1 := by
      simp only [matchLoop]; rw [← hfound]
    have hr2 : (matchLoop τ i (row :: rows) gts).2 = found :: (matchLoop τ (i + 1) rows (assign gts i found)).2 := by
      simp only [matchLoop]; rw [← hfound]
    generalize (matchLoop τ (i + 1) rows (assign gts i found)).1 = G at ih1 ih2 ih3 hr1
    generalize (matchLoop τ (i + 1) rows (assign gts i found)).2 = P at ih1 ih2 ih3 hr2
    simp only [hr1, hr2]
    have hfree : ∀ k j, Free (found :: P) (k + 1) j ↔ found ≠ some j ∧ Free P k j := by
      intro k j
      unfold Free
      constructor
      · intro h
        refine ⟨fun hf => h 0 (by omega) (by simp [hf]), fun i' hi' => ?_⟩
        simpa using h (i' + 1) (by omega)
      · rintro ⟨h1, h2⟩ i' hi'
        cases i' with
        | zero => simpa using h1
        | succ i' => simpa using h2 i' (by omega)
    have havail : ∀ k j : ℕ, (j < n ∧ gts[j]? = some none ∧ Free (found :: P) (k + 1) j) ↔
        (j < n ∧ (assign gts i found)[j]? = some none ∧ Free P k j) := by
      intro k j
      rw [hfree, hassign]
      simp only [reduceCtorEq, and_false, false_or]
      tauto
    have hentry0 : ∀ (j : ℕ) (x : ℚ), row[j]? = some x → entry (row :: rows) 0 j = x := by
      intro j x h; simp [entry, h]
    have hentryS : ∀ k j, entry (row :: rows) (k + 1) j = entry rows k j := by
      intro k j; simp [entry]
    have hget : ∀ j : ℕ, j < n → ∃ x : ℚ, row[j]? = some x := fun j hj =>
      ⟨row[j]'(by rw [hrow, hg]; exact hj), List.getElem?_eq_getElem _⟩
    refine ⟨?_, ?_, ?_⟩
    · intro j i'
      rw [ih1]
      constructor
      · rintro (h | ⟨k, h1, h2⟩)
        · rcases (hassign j _).1 h with ⟨h1, _, h2⟩ | ⟨_, h2⟩
          · cases h2
            exact .inr ⟨0, by omega, by simp [h1]⟩
          · exact .inl h2
        · exact .inr ⟨k + 1, by omega, by simpa using h2⟩
      · rintro (h | ⟨k, h1, h2⟩)
        · left
          rw [hassign]
          right
          refine ⟨?_, h⟩
          intro hf
          obtain ⟨_, _, h3, _⟩ := hfj j hf
          rw [h3] at h; cases h
        · cases k with
          | zero =>
            simp only [List.getElem?_cons_zero, Option.some.injEq] at h2
            left
            rw [hassign]
            exact .inl ⟨h2, hlt j h2, by simp [h1]⟩
          | succ k => exact .inr ⟨k, by omega, by simpa using h2⟩
    · intro k j hk
      cases k with
      | zero =>
        simp only [List.getElem?_cons_zero, Option.some.injEq] at hk
        obtain ⟨x, h1, h2, h3, h4⟩ := hfj j hk
        refine ⟨hlt j hk, ⟨hlt j hk, h2, fun i' hi' => by omega⟩, ?_, ?_⟩
        · rw [hentry0 j x h1]; exact h3
        · rintro j' ⟨h5, h6, _⟩
          obtain ⟨x', hx'⟩ := hget j' h5
          rw [hentry0 j x h1, hentry0 j' x' hx']
          exact h4 j' x' hx' h6
      | succ k =>
        obtain ⟨h1, h2, h3, h4⟩ := ih2 k j (by simpa using hk)
        refine ⟨h1, (havail k j).2 h2, by rw [hentryS]; exact h3, fun j' hj' => ?_⟩
        rw [hentryS, hentryS]
        exact h4 j' ((havail k j').1 hj')
    · intro k hk j hj hgn hfr
      cases k with
      | zero =>
        simp only [List.getElem?_cons_zero, Option.some.injEq] at hk
        obtain ⟨x, hx⟩ := hget j hj
        rw [hentry0 j x hx]
        exact hfn hk j x hx hgn
      | succ k =>
        obtain ⟨h1, h2, h3⟩ := (havail k j).1 ⟨hj, hgn, hfr⟩
        rw [hentryS]
        exact ih3 k (by simpa using hk) j h1 h2 h3

/-- A rectangular table of overlaps. -/
def Rectangular (rows : List (List ℚ)) (numGt : ℕ) : Prop := ∀ r ∈ rows, r.length = numGt

/-- C47: the arrays have an entry for every ground truth and every prediction, and are inverse to each other. -/
theorem C47_inverse (rows : List (List ℚ)) (numGt : ℕ) (threshold : ℚ) (hrect : Rectangular rows numGt)
    (gts preds : List (Option ℕ)) (h : matchBoxes rows numGt threshold = .ok (gts, preds)) :
    gts.length = numGt ∧ preds.length = rows.length ∧
    ∀ i j : ℕ, gts[j]? = some (some i) ↔ preds[i]? = some (some j) := by
  unfold matchBoxes at h
  split_ifs at h
  simp only [Except.ok.injEq] at h
  have hl := matchLoop_lengths threshold rows 0 (List.replicate numGt none)
  have hs := (matchLoop_spec threshold numGt rows 0 (List.replicate numGt none) (by simp) hrect
    (by intro j i' h; simp [List.getElem?_replicate] at h)).1
  rw [h] at hl hs
  refine ⟨by simpa using hl.1, hl.2, fun i j => ?_⟩
  rw [hs]
  simp [List.getElem?_replicate]

/-- C47: no two predictions are matched with the same ground truth, and no two ground truths with the same prediction. -/
theorem C47_one_to_one (rows : List (List ℚ)) (numGt : ℕ) (threshold : ℚ) (hrect : Rectangular rows numGt)
    (gts preds : List (Option ℕ)) (h : matchBoxes rows numGt threshold = .ok (gts, preds)) :
    (∀ i i' j : ℕ, preds[i]? = some (some j) → preds[i']? = some (some j) → i = i') ∧
    (∀ j j' i : ℕ, gts[j]? = some (some i) → gts[j']? = some (some i) → j = j') := by
  obtain ⟨_, _, hinv⟩ := C47_inverse rows numGt threshold hrect gts preds h
  constructor
  · intro i i' j h1 h2
    rw [← hinv] at h1 h2
    rw [h1] at h2
    simpa using h2
  · intro j j' i h1 h2
    rw [hinv] at h1 h2
    rw [h1] at h2
    simpa using h2

/-- The overlap that is required: the threshold, but never more than just below 1. -/
def required (threshold : ℚ) : ℚ := if threshold ≤ 9999999999 / 10000000000 then threshold else 9999999999 / 10000000000

private theorem cap_required (t : ℚ) : cap t = required t := by
  unfold cap required
  have e : (1 : ℚ) - 1 / 10000000000 = 9999999999 / 10000000000 := by norm_num
  rw [e, min_def]

/-- C47: a prediction is matched with the ground truth not taken by an earlier prediction that has the largest overlap, the
last one of these, if this overlap reaches the threshold; otherwise it is not matched. -/
theorem C47_greedy (rows : List (List ℚ)) (numGt : ℕ) (threshold : ℚ) (hrect : Rectangular rows numGt)
    (gts preds : List (Option ℕ)) (h : matchBoxes rows numGt threshold = .ok (gts, preds)) (i : ℕ) :
    (∀ j, preds[i]? = some (some j) → j < numGt ∧
      BestFree (required threshold) (entry rows i) (fun j => j < numGt ∧ Free preds i j) j) ∧
    (preds[i]? = some none → ∀ j < numGt, Free preds i j → entry rows i j < required threshold) := by
  rw [← cap_required]
  unfold matchBoxes at h
  split_ifs at h
  simp only [Except.ok.injEq] at h
  obtain ⟨_, h2, h3⟩ := matchLoop_spec threshold numGt rows 0 (List.replicate numGt none) (by simp) hrect
    (by intro j i' h; simp [List.getElem?_replicate] at h)
  rw [h] at h2 h3
  constructor
  · intro j hj
    obtain ⟨h4, ⟨h5, _, h6⟩, h7, h8⟩ := h2 i j hj
    refine ⟨h4, ⟨h5, h6⟩, h7, fun j' hj' => h8 j' ⟨hj'.1, ?_, hj'.2⟩⟩
    simp [List.getElem?_replicate, hj'.1]
  · intro hn j hj hf
    exact h3 i hn j hj (by simp [List.getElem?_replicate, hj]) hf

/-- C47: a negative threshold is the only error. -/
theorem C47_error (rows : List (List ℚ)) (numGt : ℕ) (threshold : ℚ) :
    (threshold < 0 → matchBoxes rows numGt threshold = .error .valueError) ∧
    (0 ≤ threshold → ∃ r, matchBoxes rows numGt threshold = .ok r) := by
  unfold matchBoxes
  refine ⟨fun h => by rw [if_pos h], fun h => ⟨_, by rw [if_neg (not_lt.2 h)]⟩⟩

/-- Three predictions and two ground truths: the second prediction takes the later one of two equal overlaps, the third one
finds nothing. -/
example : matchBoxes [[1/10, 2/10], [6/10, 6/10], [2/10, 9/10]] 2 (1/2) =
    .ok ([none, some 1], [none, some 1, none]) := by decide +kernel

example : Rectangular [[1/10, 2/10], [6/10, 6/10], [2/10, 9/10]] 2 := by
  intro r hr
  simp only [List.mem_cons, List.not_mem_nil, or_false] at hr
  rcases hr with rfl | rfl | rfl <;> rfl

end Boxes
end TFMA
