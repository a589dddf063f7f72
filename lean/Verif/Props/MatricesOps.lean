import Verif.Model.ConfusionMatrices
import Mathlib.Data.List.Basic

/-!
# C21: arithmetic on threshold indexed matrices
-/

namespace TFMA
namespace Bcm

/-! ### Specification -/

/-- The cells for a threshold, zero when the threshold is absent. -/
def cellsAt (rows : List MRow) (t : Fl) : Matrix :=
  match rows.find? fun r => decide (r.1 = t) with
  | some r => r.2
  | none => ⟨0, 0, 0, 0⟩

/-- Strictly ascending thresholds, none of them NaN. -/
def Ascending (rows : List MRow) : Prop :=
  rows.Pairwise (fun x y => Fl.lt x.1 y.1 = true) ∧ ∀ x ∈ rows, x.1 ≠ .nan

/-- `r` is the combination of `a` and `b`: ascending thresholds, exactly those of either operand, each with the
operation applied to the cells of both operands. -/
structure Combined (f : ℚ → ℚ → ℚ) (a b r : List MRow) : Prop where
  sorted : r.Pairwise fun x y => Fl.lt x.1 y.1 = true
  thresholds : ∀ t, (∃ m, (t, m) ∈ r) ↔ (∃ m, (t, m) ∈ a) ∨ ∃ m, (t, m) ∈ b
  cells : ∀ t m, (t, m) ∈ r →
    m.tp = f (cellsAt a t).tp (cellsAt b t).tp ∧ m.tn = f (cellsAt a t).tn (cellsAt b t).tn ∧
    m.fp = f (cellsAt a t).fp (cellsAt b t).fp ∧ m.fn = f (cellsAt a t).fn (cellsAt b t).fn

/-! ### Helpers -/

theorem lt_irrefl' (a : Fl) : Fl.lt a a = false := by
  unfold Fl.lt; cases Fl.le a a <;> rfl

theorem lt_trans' {a b c : Fl} (h1 : Fl.lt a b = true) (h2 : Fl.lt b c = true) : Fl.lt a c = true := by
  unfold Fl.lt at *
  cases a <;> cases b <;> cases c <;> simp [Fl.le] at h1 h2 ⊢
  exact ⟨le_trans h1.1 h2.1, lt_trans h1.2 h2.2⟩

theorem lt_trichotomy' {a b : Fl} (ha : a ≠ .nan) (hb : b ≠ .nan) (h1 : a ≠ b) (h2 : ¬ Fl.lt a b = true) :
    Fl.lt b a = true := by
  unfold Fl.lt at *
  cases a <;> cases b <;> simp [Fl.le] at *
  rename_i q q'
  rcases lt_trichotomy q q' with h | h | h
  · exact absurd (h2 h.le) (not_le.2 h)
  · exact absurd h h1
  · exact ⟨h.le, h⟩

private theorem cellsAt_cons_self (t : Fl) (m : Matrix) (xs : List MRow) : cellsAt ((t, m) :: xs) t = m := by
  simp [cellsAt]

private theorem cellsAt_cons_ne {t t' : Fl} (m : Matrix) (xs : List MRow) (h : t ≠ t') :
    cellsAt ((t, m) :: xs) t' = cellsAt xs t' := by
  simp [cellsAt, h]

private theorem cellsAt_absent {xs : List MRow} {t : Fl} (h : ∀ x ∈ xs, x.1 ≠ t) : cellsAt xs t = ⟨0, 0, 0, 0⟩ := by
  have : xs.find? (fun r => decide (r.1 = t)) = none := by
    rw [List.find?_eq_none]; intro x hx; simpa using h x hx
  simp [cellsAt, this]

private def Above (t : Fl) (xs : List MRow) : Prop := ∀ x ∈ xs, Fl.lt t x.1 = true

private theorem Above.ne {t : Fl} {xs : List MRow} (h : Above t xs) : ∀ x ∈ xs, x.1 ≠ t := by
  intro x hx he
  have := h x hx
  rw [he, lt_irrefl'] at this; cases this

private theorem comb_above {f : ℚ → ℚ → ℚ} {xs ys r : List MRow} {t : Fl} (h : Combined f xs ys r)
    (hx : Above t xs) (hy : Above t ys) : Above t r := by
  rintro ⟨u, m⟩ hm
  rcases (h.thresholds u).1 ⟨m, hm⟩ with ⟨m', h'⟩ | ⟨m', h'⟩
  · exact hx (u, m') h'
  · exact hy (u, m') h'

private theorem comb_both {f : ℚ → ℚ → ℚ} {xs ys r : List MRow} {t : Fl} {m m' : Matrix} (h : Combined f xs ys r)
    (hx : Above t xs) (hy : Above t ys) :
    Combined f ((t, m) :: xs) ((t, m') :: ys) ((t, Matrix.op f m m') :: r) := by
  have hr := comb_above h hx hy
  refine ⟨List.pairwise_cons.2 ⟨hr, h.sorted⟩, ?_, ?_⟩
  · intro u
    by_cases hu : u = t
    · subst hu; simp
    · simpa [hu] using h.thresholds u
  · intro u k hk
    rcases List.mem_cons.1 hk with he | hk
    · obtain ⟨rfl, rfl⟩ := Prod.mk.inj he
      simp [cellsAt_cons_self, Matrix.op]
    · have hne : t ≠ u := fun e => (Above.ne hr _ hk) e.symm
      rw [cellsAt_cons_ne m xs hne, cellsAt_cons_ne m' ys hne]
      exact h.cells u k hk

private theorem comb_left {f : ℚ → ℚ → ℚ} {xs ys r : List MRow} {t : Fl} {m : Matrix} (h : Combined f xs ys r)
    (hx : Above t xs) (hy : Above t ys) :
    Combined f ((t, m) :: xs) ys ((t, Matrix.op f m Matrix.zero) :: r) := by
  have hr := comb_above h hx hy
  refine ⟨List.pairwise_cons.2 ⟨hr, h.sorted⟩, ?_, ?_⟩
  · intro u
    by_cases hu : u = t
    · subst hu; simp
    · simpa [hu] using h.thresholds u
  · intro u k hk
    rcases List.mem_cons.1 hk with he | hk
    · obtain ⟨rfl, rfl⟩ := Prod.mk.inj he
      rw [cellsAt_cons_self, cellsAt_absent (Above.ne hy)]
      simp [Matrix.op, Matrix.zero]
    · have hne : t ≠ u := fun e => (Above.ne hr _ hk) e.symm
      rw [cellsAt_cons_ne m xs hne]
      exact h.cells u k hk

private theorem comb_right {f : ℚ → ℚ → ℚ} {xs ys r : List MRow} {t : Fl} {m : Matrix} (h : Combined f xs ys r)
    (hx : Above t xs) (hy : Above t ys) :
    Combined f xs ((t, m) :: ys) ((t, Matrix.op f Matrix.zero m) :: r) := by
  have hr := comb_above h hx hy
  refine ⟨List.pairwise_cons.2 ⟨hr, h.sorted⟩, ?_, ?_⟩
  · intro u
    by_cases hu : u = t
    · subst hu; simp
    · simpa [hu] using h.thresholds u
  · intro u k hk
    rcases List.mem_cons.1 hk with he | hk
    · obtain ⟨rfl, rfl⟩ := Prod.mk.inj he
      rw [cellsAt_cons_self, cellsAt_absent (Above.ne hx)]
      simp [Matrix.op, Matrix.zero]
    · have hne : t ≠ u := fun e => (Above.ne hr _ hk) e.symm
      rw [cellsAt_cons_ne m ys hne]
      exact h.cells u k hk

private theorem drop_some {xs : List MRow} {i : ℕ} {x : MRow} (h : xs[i]? = some x) :
    xs.drop i = x :: xs.drop (i + 1) := by
  obtain ⟨hi, rfl⟩ := List.getElem?_eq_some_iff.1 h
  exact List.drop_eq_getElem_cons hi

private theorem drop_none {xs : List MRow} {i : ℕ} (h : xs[i]? = none) : xs.drop i = [] := by
  rw [List.drop_eq_nil_iff]; exact List.getElem?_eq_none_iff.1 h

private theorem asc_drop {xs : List MRow} (h : Ascending xs) {i : ℕ} {x : MRow} (hx : xs[i]? = some x) :
    Above x.1 (xs.drop (i + 1)) ∧ x.1 ≠ .nan := by
  have h1 : (xs.drop i).Pairwise fun x y => Fl.lt x.1 y.1 = true := h.1.sublist (List.drop_sublist i xs)
  rw [drop_some hx, List.pairwise_cons] at h1
  exact ⟨h1.1, h.2 x (List.mem_of_getElem? hx)⟩

private theorem above_cons {t : Fl} {x : MRow} {xs : List MRow} (h : Fl.lt t x.1 = true) (hx : Above x.1 xs) :
    Above t (x :: xs) := by
  intro y hy
  rcases List.mem_cons.1 hy with rfl | hy
  · exact h
  · exact lt_trans' h (hx y hy)

private theorem sound (f : ℚ → ℚ → ℚ) (a b : List MRow) (ha : Ascending a) (hb : Ascending b) (n : ℕ) :
    ∀ i j, (a.length - i) + (b.length - j) ≤ n → ∀ r, elementwiseFrom f a b i j = .ok r →
      Combined f (a.drop i) (b.drop j) r := by
  induction n with
  | zero =>
    intro i j hn r hr
    have hi : a[i]? = none := List.getElem?_eq_none_iff.2 (by omega)
    have hj : b[j]? = none := List.getElem?_eq_none_iff.2 (by omega)
    rw [elementwiseFrom] at hr
    rw [hi, hj] at hr
    simp only [Except.ok.injEq] at hr
    subst hr
    refine ⟨List.Pairwise.nil, ?_, ?_⟩
    · intro t; simp [drop_none hi, drop_none hj]
    · intro t m h; cases h
  | succ n ih =>
    intro i j hn r hr
    rw [elementwiseFrom] at hr
    split at hr
    · rename_i x y hi hj
      have hil := (List.getElem?_eq_some_iff.1 hi).1
      have hjl := (List.getElem?_eq_some_iff.1 hj).1
      obtain ⟨hax, hxn⟩ := asc_drop ha hi
      obtain ⟨hby, hyn⟩ := asc_drop hb hj
      split at hr
      · rename_i hxy
        cases hq : elementwiseFrom f a b (i + 1) (j + 1) with
        | error e => rw [hq] at hr; cases hr
        | ok r' =>
          rw [hq] at hr
          simp only [bind, Except.bind, pure, Except.pure, Except.ok.injEq] at hr
          subst hr
          rw [drop_some hi, drop_some hj]
          obtain ⟨t, m⟩ := x
          obtain ⟨t', m'⟩ := y
          simp only at hxy; subst hxy
          exact comb_both (ih _ _ (by omega) _ hq) hax hby
      · rename_i hne
        split at hr
        · rename_i hlt
          cases hq : elementwiseFrom f a b (i + 1) j with
          | error e => rw [hq] at hr; cases hr
          | ok r' =>
            rw [hq] at hr
            simp only [bind, Except.bind, pure, Except.pure, Except.ok.injEq] at hr
            subst hr
            have := ih (i + 1) j (by omega) _ hq
            rw [drop_some hi]
            rw [drop_some hj] at this ⊢
            exact comb_left this hax (above_cons hlt hby)
        · rename_i hlt
          have hyx := lt_trichotomy' hxn hyn hne hlt
          split at hr
          · split at hr
            · cases hq : elementwiseFrom f a b i (j + 1) with
              | error e => rw [hq] at hr; cases hr
              | ok r' =>
                rw [hq] at hr
                simp only [bind, Except.bind, pure, Except.pure, Except.ok.injEq] at hr
                subst hr
                have := ih i (j + 1) (by omega) _ hq
                rw [drop_some hj]
                rw [drop_some hi] at this ⊢
                exact comb_right this (above_cons hyx hax) hby
            · cases hr
          · cases hr
    · rename_i x hi hj
      have hil := (List.getElem?_eq_some_iff.1 hi).1
      obtain ⟨hax, hxn⟩ := asc_drop ha hi
      cases hq : elementwiseFrom f a b (i + 1) j with
      | error e => rw [hq] at hr; cases hr
      | ok r' =>
        rw [hq] at hr
        simp only [bind, Except.bind, pure, Except.pure, Except.ok.injEq] at hr
        subst hr
        have := ih (i + 1) j (by omega) _ hq
        rw [drop_some hi]
        exact comb_left this hax (by rw [drop_none hj]; intro y hy; cases hy)
    · rename_i y hi hj
      have hjl := (List.getElem?_eq_some_iff.1 hj).1
      obtain ⟨hby, hyn⟩ := asc_drop hb hj
      cases hq : elementwiseFrom f a b i (j + 1) with
      | error e => rw [hq] at hr; cases hr
      | ok r' =>
        rw [hq] at hr
        simp only [bind, Except.bind, pure, Except.pure, Except.ok.injEq] at hr
        subst hr
        have := ih i (j + 1) (by omega) _ hq
        rw [drop_some hj]
        exact comb_right this (by rw [drop_none hi]; intro y hy; cases hy) hby
    · rename_i hi hj
      simp only [Except.ok.injEq] at hr
      subst hr
      rw [drop_none hi, drop_none hj]
      refine ⟨List.Pairwise.nil, ?_, ?_⟩
      · intro t; simp
      · intro t m h; cases h

private theorem complete (f : ℚ → ℚ → ℚ) (a b : List MRow) (ha : Ascending a) (hb : Ascending b) (n : ℕ) :
    ∀ i j, (a.length - i) + (b.length - j) ≤ n →
      (∀ y ∈ b.drop j, ∃ x ∈ a.drop i, x.1 = y.1) → ∃ r, elementwiseFrom f a b i j = .ok r := by
  induction n with
  | zero =>
    intro i j hn _
    have hi : a[i]? = none := List.getElem?_eq_none_iff.2 (by omega)
    have hj : b[j]? = none := List.getElem?_eq_none_iff.2 (by omega)
    rw [elementwiseFrom]
    split <;> simp_all
  | succ n ih =>
    intro i j hn hsub
    rw [elementwiseFrom]
    split
    · rename_i x y hi hj
      have hil := (List.getElem?_eq_some_iff.1 hi).1
      have hjl := (List.getElem?_eq_some_iff.1 hj).1
      obtain ⟨hax, hxn⟩ := asc_drop ha hi
      obtain ⟨hby, hyn⟩ := asc_drop hb hj
      rw [drop_some hi, drop_some hj] at hsub
      split
      · rename_i hxy
        obtain ⟨r, hr⟩ := ih (i + 1) (j + 1) (by omega) (by
          intro y' hy'
          obtain ⟨x', hx', he⟩ := hsub y' (List.mem_cons_of_mem _ hy')
          rcases List.mem_cons.1 hx' with rfl | hx'
          · have := hby y' hy'
            rw [← he, hxy, lt_irrefl'] at this; cases this
          · exact ⟨x', hx', he⟩)
        rw [hr]; exact ⟨_, rfl⟩
      · rename_i hne
        split
        · rename_i hlt
          obtain ⟨r, hr⟩ := ih (i + 1) j (by omega) (by
            rw [drop_some hj]
            intro y' hy'
            obtain ⟨x', hx', he⟩ := hsub y' hy'
            rcases List.mem_cons.1 hx' with rfl | hx'
            · have := above_cons hlt hby y' hy'
              rw [he, lt_irrefl'] at this; cases this
            · exact ⟨x', hx', he⟩)
          rw [hr]; exact ⟨_, rfl⟩
        · rename_i hlt
          exfalso
          obtain ⟨x', hx', he⟩ := hsub y (by simp)
          rcases List.mem_cons.1 hx' with rfl | hx'
          · exact hne he
          · have := hax x' hx'
            rw [he] at this; exact hlt this
    · rename_i x hi hj
      have hil := (List.getElem?_eq_some_iff.1 hi).1
      obtain ⟨r, hr⟩ := ih (i + 1) j (by omega) (by rw [drop_none hj]; intro y hy; cases hy)
      rw [hr]; exact ⟨_, rfl⟩
    · rename_i y hi hj
      rw [drop_none hi, drop_some hj] at hsub
      obtain ⟨x, hx, _⟩ := hsub y (by simp)
      cases hx
    · exact ⟨_, rfl⟩

/-! ### Theorems -/

/-- The full claim of C21. -/
def ElementwiseCorrect : Prop := ∀ (f : ℚ → ℚ → ℚ) (a b : List MRow), Ascending a → Ascending b →
  ∃ r, elementwise f a b = .ok r ∧ Combined f a b r

/-- C21, soundness: whenever the operation returns, the result is the combination of the two operands.
Missing from the full claim: it may raise instead (`C21_interleaved_raises`). -/
theorem C21_elementwise_partial (f : ℚ → ℚ → ℚ) (a b r : List MRow) (ha : Ascending a) (hb : Ascending b)
    (h : elementwise f a b = .ok r) : Combined f a b r := by
  simpa using sound f a b ha hb _ 0 0 (le_refl _) r h

/-- C21 in full when every threshold of the right operand also occurs in the left one, in particular when both have the
same thresholds. -/
theorem C21_elementwise_subset_partial (f : ℚ → ℚ → ℚ) (a b : List MRow) (ha : Ascending a) (hb : Ascending b)
    (hsub : ∀ t m, (t, m) ∈ b → ∃ m', (t, m') ∈ a) :
    ∃ r, elementwise f a b = .ok r ∧ Combined f a b r := by
  obtain ⟨r, hr⟩ := complete f a b ha hb _ 0 0 (le_refl _) (by
    rintro ⟨t, m⟩ hy
    obtain ⟨m', h'⟩ := hsub t m (by simpa using hy)
    exact ⟨(t, m'), by simpa using h', rfl⟩)
  exact ⟨r, hr, C21_elementwise_partial f a b r ha hb hr⟩

/-- Non-vacuous: difference of matrices at two common thresholds and one extra. -/
example : (fun r => r.toOption) (elementwise (fun x y => x - y)
    [(.fin 0, ⟨5, 0, 1, 0⟩), (.fin (1 / 2), ⟨3, 1, 0, 2⟩), (.fin 1, ⟨0, 1, 0, 5⟩)]
    [(.fin 0, ⟨4, 0, 1, 1⟩), (.fin 1, ⟨1, 0, 0, 5⟩)]) =
    some [(.fin 0, ⟨1, 0, 0, -1⟩), (.fin (1 / 2), ⟨3, 1, 0, 2⟩), (.fin 1, ⟨-1, 1, 0, 0⟩)] := by
  decide +kernel

/-- C21 is false: with thresholds [1, 4] and [2, 3] the loop compares the wrong elements (the indices of the two operands
are swapped on line 124) and ends in an AssertionError. -/
theorem C21_interleaved_raises :
    elementwise (fun x y => x - y) [(.fin 1, ⟨0, 0, 0, 0⟩), (.fin 4, ⟨0, 0, 0, 0⟩)]
      [(.fin 2, ⟨0, 0, 0, 0⟩), (.fin 3, ⟨0, 0, 0, 0⟩)] = .error .assertionError := by
  decide +kernel

/-- C21 is false: with thresholds [5] and [1, 2] the swapped indices run out of range. -/
theorem C21_index_out_of_range :
    elementwise (fun x y => x - y) [(.fin 5, ⟨0, 0, 0, 0⟩)]
      [(.fin 1, ⟨0, 0, 0, 0⟩), (.fin 2, ⟨0, 0, 0, 0⟩)] = .error .indexError := by
  decide +kernel

/-- Hence the full claim fails. -/
theorem C21_not_correct : ¬ ElementwiseCorrect := by
  intro h
  obtain ⟨r, hr, _⟩ := h (fun x y => x - y) [(.fin 1, ⟨0, 0, 0, 0⟩), (.fin 4, ⟨0, 0, 0, 0⟩)]
      [(.fin 2, ⟨0, 0, 0, 0⟩), (.fin 3, ⟨0, 0, 0, 0⟩)]
      ⟨by norm_num [Fl.lt, Fl.le], by simp⟩ ⟨by norm_num [Fl.lt, Fl.le], by simp⟩
  rw [C21_interleaved_raises] at hr
  cases hr

/-- C21 for a plain number: the operation is applied to every cell and the thresholds are kept. -/
theorem C21_broadcast (f : ℚ → ℚ → ℚ) (a : List MRow) (v : ℚ) :
    (broadcast f a v).length = a.length ∧ ∀ (i : ℕ) (t : Fl) (m : Matrix), a[i]? = some (t, m) →
      (broadcast f a v)[i]? = some (t, ⟨f m.tp v, f m.tn v, f m.fp v, f m.fn v⟩) := by
  refine ⟨by simp [broadcast], ?_⟩
  intro i t m h
  simp [broadcast, h]

end Bcm
end TFMA
