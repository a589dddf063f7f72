import Verif.Props.InputsFlow
import Mathlib.Data.List.Sort
import Mathlib.Data.List.Count

/-!
# C57, C58: the k-th prediction and the top k predictions

`np.argpartition` may order the indices in many ways; the theorems hold for every such choice (`Partition`).
-/

namespace TFMA
namespace Inputs

open MetricKeys

variable {α : Type}

/-! ### Order -/

theorem sortLe_refl (x : Fl) : sortLe x x = true := by
  cases x <;> simp [sortLe, Fl.le]

theorem sortLe_trans {x y z : Fl} (h1 : sortLe x y = true) (h2 : sortLe y z = true) : sortLe x z = true := by
  cases x <;> cases y <;> cases z <;> simp_all [sortLe, Fl.le]
  exact le_trans h1 h2

theorem sortLe_total (x y : Fl) : sortLe x y = true ∨ sortLe y x = true := by
  cases x <;> cases y <;> simp [sortLe, Fl.le]
  exact le_total _ _

private theorem sorted_partition (l : List Fl) (L : List ℕ) (k : ℕ)
    (hs : L.Pairwise fun i j => sortLe (l.getD i .nan) (l.getD j .nan) = true) :
    (∀ i ∈ L.take (l.length - k), ∀ j x y,
      L[l.length - k]? = some j → l[i]? = some x → l[j]? = some y → sortLe x y) ∧
    (∀ j ∈ L.drop (l.length - k), ∀ i x y,
      L[l.length - k]? = some i → l[i]? = some x → l[j]? = some y → sortLe x y) := by
  rw [List.pairwise_iff_getElem] at hs
  constructor
  · intro i hi j x y hj hx hy
    obtain ⟨hj1, hj2⟩ := List.getElem?_eq_some_iff.1 hj
    obtain ⟨a, ha, hai⟩ := List.getElem_of_mem hi
    have ha' : a < l.length - k ∧ a < L.length := by simpa using ha
    have := hs a (l.length - k) ha'.2 hj1 ha'.1
    rw [List.getElem_take] at hai
    rw [hai, hj2] at this
    simpa [List.getD_eq_getElem?_getD, hx, hy] using this
  · intro i hi j x y hj hx hy
    obtain ⟨hj1, hj2⟩ := List.getElem?_eq_some_iff.1 hj
    obtain ⟨a, ha, hai⟩ := List.getElem_of_mem hi
    rw [List.getElem_drop] at hai
    by_cases h0 : a = 0
    · subst h0
      simp only [Nat.add_zero] at hai
      rw [hj2] at hai
      subst hai
      rw [hx] at hy
      cases hy
      exact sortLe_refl x
    · have hal : l.length - k + a < L.length := by rw [List.length_drop] at ha; omega
      have := hs (l.length - k) (l.length - k + a) hj1 hal (by omega)
      rw [hai, hj2] at this
      simpa [List.getD_eq_getElem?_getD, hx, hy] using this

/-- Sorting is a partition, so the theorems below are not about nothing. -/
theorem partition_exists : ∃ part, Partition part := by
  have hs : ∀ l : List Fl, ((List.range l.length).insertionSort
      (fun i j => sortLe (l.getD i .nan) (l.getD j .nan) = true)).Pairwise
        fun i j => sortLe (l.getD i .nan) (l.getD j .nan) = true := by
    intro l
    have inst1 : IsTrans ℕ fun i j => sortLe (l.getD i .nan) (l.getD j .nan) = true :=
      ⟨fun a b c h1 h2 => sortLe_trans h1 h2⟩
    have inst2 : Std.Total fun (i j : ℕ) => sortLe (l.getD i .nan) (l.getD j .nan) = true :=
      ⟨fun a b => sortLe_total _ _⟩
    exact List.pairwise_insertionSort _ _
  exact ⟨fun _ l => (List.range l.length).insertionSort (fun i j => sortLe (l.getD i .nan) (l.getD j .nan) = true),
    fun k l => List.perm_insertionSort _ _, fun k l _ => (sorted_partition l _ k (hs l)).1,
    fun k l _ => (sorted_partition l _ k (hs l)).2⟩

/-! ### Specification -/

/-- `j` is a position of the k-th largest value: fewer than `k` values are larger and at least `k` values are as large. -/
def IsKth (k : ℕ) (r : List Fl) (j : ℕ) : Prop :=
  ∃ x, r[j]? = some x ∧ r.countP (fun y => !sortLe y x) < k ∧ k ≤ r.countP (fun y => sortLe x y)

/-- `J` are the positions of `k` values such that no other value is larger than any of them. -/
def IsTopK (k : ℕ) (r : List Fl) (J : List ℕ) : Prop :=
  J.Nodup ∧ J.length = k ∧ (∀ j ∈ J, j < r.length) ∧
    ∀ i j x y, i ∉ J → j ∈ J → r[i]? = some x → r[j]? = some y → sortLe x y = true

/-- The row with everything but the positions `J` replaced by -inf. -/
def keep (J : List ℕ) (r : List Fl) : List Fl := (List.range r.length).map fun i => if i ∈ J then r.getD i .nan else .ninf

/-- The k-th largest value does not depend on the choice. -/
theorem C57_value_unique (k : ℕ) (r : List Fl) (i j : ℕ) (hi : IsKth k r i) (hj : IsKth k r j) :
    r[i]? = r[j]? := by
  obtain ⟨x, hx, hx1, hx2⟩ := hi
  obtain ⟨y, hy, hy1, hy2⟩ := hj
  have key : ∀ x y : Fl, k ≤ r.countP (fun z => sortLe x z) → r.countP (fun z => !sortLe z y) < k →
      sortLe x y = true := by
    intro x y h1 h2
    by_contra h
    have : r.countP (fun z => sortLe x z) ≤ r.countP (fun z => !sortLe z y) := by
      apply List.countP_mono_left
      intro z _ hz
      simp only [Bool.not_eq_true']
      by_contra h3
      exact h (sortLe_trans hz (by simpa using h3))
    omega
  have h1 := key x y hx2 hy1
  have h2 := key y x hy2 hx1
  rw [hx, hy]
  congr 1
  cases x <;> cases y <;> simp_all [sortLe, Fl.le]
  exact le_antisymm h1 h2

/-! ### Partitions give the k-th value and the top k -/

theorem range_getD (r : List α) (d : α) : (List.range r.length).map (fun i => r.getD i d) = r := by
  apply List.ext_getElem
  · simp
  · intro i h1 h2
    simp [List.getD_eq_getElem?_getD, h2]

private theorem countP_idx (r : List Fl) (q : Fl → Bool) (is : List ℕ) (h : is.Perm (List.range r.length)) :
    is.countP (fun i => q (r.getD i .nan)) = r.countP q := by
  rw [h.countP_eq]
  conv_rhs => rw [← range_getD r .nan, List.countP_map]
  rfl

private theorem getElem?_getD {r : List Fl} {i : ℕ} (h : i < r.length) : r[i]? = some (r.getD i .nan) := by
  simp [List.getD_eq_getElem?_getD, h]

variable {part : ℕ → List Fl → List ℕ}

private theorem part_length (hp : Partition part) (k : ℕ) (r : List Fl) : (part k r).length = r.length := by
  rw [(hp.perm k r).length_eq, List.length_range]

private theorem part_lt (hp : Partition part) (k : ℕ) (r : List Fl) (i : ℕ) (h : i ∈ part k r) : i < r.length :=
  List.mem_range.1 ((hp.perm k r).mem_iff.1 h)

theorem part_kth (hp : Partition part) (k : ℕ) (r : List Fl) (hk : 1 ≤ k) (hkr : k ≤ r.length) :
    ∃ j, (part k r)[r.length - k]? = some j ∧ j < r.length ∧ IsKth k r j := by
  have hlen := part_length hp k r
  have hlt : r.length - k < (part k r).length := by omega
  refine ⟨(part k r)[r.length - k], List.getElem?_eq_getElem hlt, part_lt hp k r _ (List.getElem_mem hlt), ?_⟩
  generalize hj : (part k r)[r.length - k] = j
  have hj' : (part k r)[r.length - k]? = some j := by rw [List.getElem?_eq_getElem hlt, hj]
  have hjl : j < r.length := by rw [← hj]; exact part_lt hp k r _ (List.getElem_mem hlt)
  have hsplit := List.take_append_drop (r.length - k) (part k r)
  have hdl : ((part k r).drop (r.length - k)).length = k := by rw [List.length_drop]; omega
  refine ⟨r.getD j .nan, getElem?_getD hjl, ?_, ?_⟩
  · rw [← countP_idx r (fun y => !sortLe y (r.getD j .nan)) (part k r) (hp.perm k r), ← hsplit, List.countP_append]
    have h1 : ((part k r).take (r.length - k)).countP (fun i => !sortLe (r.getD i .nan) (r.getD j .nan)) = 0 := by
      rw [List.countP_eq_zero]
      intro i hi
      have hil := part_lt hp k r i (List.mem_of_mem_take hi)
      have := hp.before k r hkr i hi j _ _ hj' (getElem?_getD hil) (getElem?_getD hjl)
      rw [this]; simp
    rw [h1, Nat.zero_add]
    have hd : (part k r).drop (r.length - k) = j :: (part k r).drop (r.length - k + 1) := by
      rw [← hj]; exact List.drop_eq_getElem_cons hlt
    have hdl2 : ((part k r).drop (r.length - k + 1)).length = k - 1 := by rw [List.length_drop]; omega
    rw [hd, List.countP_cons_of_neg (by simp [sortLe_refl])]
    calc _ ≤ ((part k r).drop (r.length - k + 1)).length := List.countP_le_length
      _ < k := by omega
  · rw [← countP_idx r (fun y => sortLe (r.getD j .nan) y) (part k r) (hp.perm k r), ← hsplit, List.countP_append]
    have h1 : ((part k r).drop (r.length - k)).countP (fun i => sortLe (r.getD j .nan) (r.getD i .nan)) = k := by
      rw [List.countP_eq_length.2, hdl]
      intro i hi
      have hil := part_lt hp k r i (List.mem_of_mem_drop hi)
      exact hp.behind k r hkr i hi j _ _ hj' (getElem?_getD hjl) (getElem?_getD hil)
    omega

theorem part_top (hp : Partition part) (k : ℕ) (r : List Fl) (hk : 1 ≤ k) (hkr : k ≤ r.length) :
    IsTopK k r ((part k r).drop (r.length - k)) := by
  have hlen := part_length hp k r
  have hnd : (part k r).Nodup := (hp.perm k r).nodup_iff.2 List.nodup_range
  refine ⟨hnd.sublist (List.drop_sublist _ _), ?_, ?_, ?_⟩
  · rw [List.length_drop]; omega
  · intro j hj; exact part_lt hp k r j (List.mem_of_mem_drop hj)
  · intro i j x y hi hj hx hy
    obtain ⟨m, hm, hml, -⟩ := part_kth hp k r hk hkr
    have hil : i < r.length := (List.getElem?_eq_some_iff.1 hx).1
    have him : i ∈ part k r := (hp.perm k r).mem_iff.2 (List.mem_range.2 hil)
    rw [← List.take_append_drop (r.length - k) (part k r), List.mem_append] at him
    have hit := him.resolve_right hi
    exact sortLe_trans (hp.before k r hkr i hit m _ _ hm hx (getElem?_getD hml))
      (hp.behind k r hkr j hj m _ _ hm (getElem?_getD hml) hy)

/-! ### The code, row by row -/

private theorem lastRows_eq (s : List ℕ) (n : ℕ) (P : List (List α)) (hP : P.length = s.prod)
    (hr : ∀ r ∈ P, r.length = n) : Arr.lastRows (⟨s ++ [n], P.flatten⟩ : Arr α) = P := by
  unfold Arr.lastRows
  simp only [List.getLast?_concat, Option.getD_some, List.dropLast_concat]
  rw [← hP, rows_flatten n P hr]

private theorem single (P : List (List α)) (h : P.length = 1) : P = [P.flatten] := by
  obtain ⟨r, rfl⟩ := List.length_eq_one_iff.1 h
  simp

/-- Zero or one leading dimension. -/
def Flat1 (s : List ℕ) : Prop := s = [] ∨ ∃ m, s = [m]

private theorem topKIndices_eq (s : List ℕ) (hs : Flat1 s) (n k : ℕ) (hk : k ≤ n) (P : List (List Fl))
    (hP : P.length = s.prod) (hr : ∀ r ∈ P, r.length = n) :
    topKIndices part k ⟨s ++ [n], P.flatten⟩ = .ok (P.map fun r => (part k r).drop (n - k)) := by
  have hl := lastRows_eq s n P hP hr
  rcases hs with rfl | ⟨m, rfl⟩
  · have := single P (by simpa using hP)
    simp only [topKIndices, List.nil_append]
    rw [if_neg (by omega)]
    conv_rhs => rw [this]
    rfl
  · simp only [topKIndices, List.cons_append, List.nil_append] at hl ⊢
    rw [if_neg (by omega), hl]

private theorem zipWith_map_same {β γ : Type} (f : List α → β → γ) (g : List Fl → β) (L : List (List α))
    (P : List (List Fl)) : List.zipWith f L (P.map g) = List.zipWith (fun l r => f l (g r)) L P := by
  rw [List.zipWith_map_right]

private theorem selectKth_eq (s : List ℕ) (hs : Flat1 s) (n : ℕ) (L : List (List α)) (hL : L.length = s.prod)
    (hl : ∀ r ∈ L, r.length = n) (idx : List (List ℕ)) (hi : idx.length = s.prod) :
    (selectKth (⟨s ++ [n], L.flatten⟩ : Arr α) idx).data = (List.zipWith (fun r i => pick r (i.take 1)) L idx).flatten ∧
      (selectKth (⟨s ++ [n], L.flatten⟩ : Arr α) idx).shape.prod = s.prod := by
  have hrows := lastRows_eq s n L hL hl
  rcases hs with rfl | ⟨m, rfl⟩
  · have h1 := single L (by simpa using hL)
    obtain ⟨i, rfl⟩ := List.length_eq_one_iff.1 (by simpa using hi)
    simp only [selectKth, List.nil_append, List.headD_cons, List.prod_nil, and_true]
    conv_rhs => rw [h1]
    simp
  · simp only [selectKth, List.cons_append, List.nil_append] at hrows ⊢
    rw [hrows]
    refine ⟨by rw [List.zipWith_map_right], by simp⟩

private theorem pick_eq (d : α) (r : List α) (is : List ℕ) (h : ∀ i ∈ is, i < r.length) :
    pick r is = is.map fun i => r.getD i d := by
  unfold pick
  induction is with
  | nil => rfl
  | cons i is ih =>
    have hi := h i (by simp)
    rw [List.filterMap_cons_some (b := r[i]) (List.getElem?_eq_getElem hi), ih fun j hj => h j (by simp [hj])]
    simp [List.getD_eq_getElem?_getD, hi]

private theorem selectIndices_eq (s : List ℕ) (hs : Flat1 s) (n k : ℕ) (L : List (List α)) (hL : L.length = s.prod)
    (hl : ∀ r ∈ L, r.length = n) (idx : List (List ℕ)) (hi : idx.length = s.prod) (hil : ∀ i ∈ idx, i.length = k)
    (hib : ∀ i ∈ idx, ∀ j ∈ i, j < n) (hpos : 0 < s.prod) :
    selectIndices (⟨s ++ [n], L.flatten⟩ : Arr α) idx = ⟨s ++ [k], (List.zipWith pick L idx).flatten⟩ := by
  have hrows := lastRows_eq s n L hL hl
  rcases hs with rfl | ⟨m, rfl⟩
  · have h1 := single L (by simpa using hL)
    obtain ⟨i, rfl⟩ := List.length_eq_one_iff.1 (by simpa using hi)
    obtain ⟨r, rfl⟩ := List.length_eq_one_iff.1 (by simpa using hL)
    simp only [selectIndices, List.nil_append, List.headD_cons, List.flatten_cons, List.flatten_nil, List.append_nil,
      List.zipWith_cons_cons, List.zipWith_nil_right]
    have hk := hil i (by simp)
    have hrl := hl r (by simp)
    have : (pick r i).length = k := by
      rcases r with _ | ⟨d, r'⟩
      · have : i = [] := by
          cases i with
          | nil => rfl
          | cons j i => have := hib (j :: i) (by simp) j (by simp); simp at hrl; omega
        subst this; simpa [pick] using hk
      · rw [pick_eq d _ _ (fun j hj => by rw [hrl]; exact hib i (by simp) j hj)]; simpa using hk
    rw [this]
  · simp only [selectIndices, List.cons_append, List.nil_append] at hrows ⊢
    rw [hrows]
    obtain ⟨i, idx', rfl⟩ : ∃ a b, idx = a :: b := by
      cases idx with
      | nil => simp at hi hpos; omega
      | cons a b => exact ⟨a, b, rfl⟩
    simp [hil i (by simp)]

private theorem maskRow_eq (r : List Fl) (J : List ℕ) : maskRow r J = keep J r := by
  unfold maskRow keep
  apply List.ext_getElem
  · simp
  · intro i h1 h2
    have hi : i < r.length := by simpa using h2
    simp [List.getD_eq_getElem?_getD, hi]

private theorem maskTopK_eq (s : List ℕ) (hs : Flat1 s) (n : ℕ) (P : List (List Fl)) (hP : P.length = s.prod)
    (hr : ∀ r ∈ P, r.length = n) (f : List Fl → List ℕ) :
    maskTopK ⟨s ++ [n], P.flatten⟩ (P.map f) = ⟨s ++ [n], (P.map fun r => keep (f r) r).flatten⟩ := by
  have hrows := lastRows_eq s n P hP hr
  have hz : List.zipWith maskRow P (P.map f) = P.map fun r => keep (f r) r := by
    rw [List.zipWith_map_right, List.zipWith_self]
    simp only [maskRow_eq]
  rcases hs with rfl | ⟨m, rfl⟩
  · have h1 := single P (by simpa using hP)
    simp only [maskTopK, List.nil_append]
    rw [← h1, hz]
  · simp only [maskTopK, List.cons_append, List.nil_append] at hrows ⊢
    rw [hrows, hz]

private theorem keep_length (J : List ℕ) (r : List Fl) : (keep J r).length = r.length := by simp [keep]

private theorem denseLabel_dense (s : List ℕ) (n : ℕ) (l : List ℚ) (p : List Fl) :
    denseLabel ⟨s ++ [n], l⟩ ⟨s ++ [n], p⟩ = .ok ⟨s ++ [n], l⟩ := by
  simp [denseLabel]

private theorem denseLabel_sparse (s : List ℕ) (n : ℕ) (hn : 2 ≤ n) (cs : List ℤ) (p : List Fl)
    (hcl : cs.length = s.prod) (hcs : ∀ c ∈ cs, -1 ≤ c ∧ c < n) :
    denseLabel ⟨s ++ [1], cs.map fun c : ℤ => (c : ℚ)⟩ ⟨s ++ [n], p⟩ = .ok ⟨s ++ [n], (cs.map (hot n)).flatten⟩ := by
  unfold denseLabel
  rw [if_pos (by simp; omega), C28_one_hot_partial _ cs s n hcl hcs, List.flatMap_def]

private theorem kthArgs_process (k : ℕ) (l : Arr ℚ) (p : Arr Fl) (w : Arr ℚ) :
    process part { weighted with subKey := some ⟨none, some (k : ℤ), none⟩ } ⟨some l, some p, w⟩ =
      (topKIndices part k p).bind fun idx => (denseLabel l p).bind fun l =>
        emit { weighted with subKey := some ⟨none, some (k : ℤ), none⟩ }
          (some (selectKth l idx), some (selectKth p idx)) w := by
  simp only [process, weighted, checkNone, singleWeight, optSubKey, applySubKey, bind,
    Except.bind, pure, Except.pure, Option.isNone_some, Bool.or_self, Bool.false_and, Int.toNat_natCast]
  cases topKIndices part k p with
  | error e => rfl
  | ok idx => cases denseLabel l p <;> rfl

private theorem zip_pick (d : α) (n k : ℕ) (j : List Fl → ℕ)
    (hj : ∀ r, r.length = n → (part k r)[n - k]? = some (j r) ∧ j r < n) (L : List (List α)) (P : List (List Fl))
    (hl : ∀ r ∈ L, r.length = n) (hr : ∀ r ∈ P, r.length = n) :
    (List.zipWith (fun r i => pick r (i.take 1)) L (P.map fun r => (part k r).drop (n - k))).flatten =
      List.zipWith (fun l r => l.getD (j r) d) L P := by
  induction L generalizing P with
  | nil => simp
  | cons l L ih =>
    cases P with
    | nil => simp
    | cons r P =>
      obtain ⟨h1, h2⟩ := hj r (hr r (by simp))
      simp only [List.map_cons, List.zipWith_cons_cons, List.flatten_cons]
      have ht : ((part k r).drop (n - k)).take 1 = [j r] := by
        obtain ⟨hlt, he⟩ := List.getElem?_eq_some_iff.1 h1
        rw [List.drop_eq_getElem_cons hlt, he]
        simp
      rw [ht, ih P (fun r hr => hl r (by simp [hr])) (fun r hr' => hr r (by simp [hr']))]
      rw [pick_eq d l [j r] (by simpa [hl l (by simp)] using h2)]
      simp

/-- C57, dense labels: with the sub key k every row gives one binary example: the label and the prediction at a
position of the k-th largest prediction. -/
theorem C57_dense (hp : Partition part) (s ws : List ℕ) (hs : Flat1 s) (n k : ℕ) (hk : 1 ≤ k) (hkn : k ≤ n)
    (L : List (List ℚ)) (P : List (List Fl)) (w : ℚ) (hL : L.length = s.prod) (hl : ∀ r ∈ L, r.length = n)
    (hP : P.length = s.prod) (hr : ∀ r ∈ P, r.length = n) (hpos : 0 < s.prod) :
    ∃ j : List Fl → ℕ, (∀ r ∈ P, IsKth k r (j r)) ∧
      toLabelPredictionWeight part { weighted with subKey := some ⟨none, some (k : ℤ), none⟩ }
        (raw ⟨s ++ [n], L.flatten⟩ ⟨s ++ [n], P.flatten⟩ ⟨ws, [w]⟩) =
      .ok (pairs (List.zipWith (fun l r => l.getD (j r) 0) L P) (P.map fun r => r.getD (j r) .nan) w) := by
  have hex : ∀ r : List Fl, r.length = n → ∃ j, (part k r)[n - k]? = some j ∧ j < n ∧ IsKth k r j := by
    intro r h
    have := part_kth hp k r hk (by omega)
    rwa [h] at this
  classical
  let j : List Fl → ℕ := fun r => if h : r.length = n then (hex r h).choose else 0
  have hj : ∀ r, r.length = n → (part k r)[n - k]? = some (j r) ∧ j r < n ∧ IsKth k r (j r) := by
    intro r h
    have := (hex r h).choose_spec
    simp only [j, dif_pos h]
    exact this
  refine ⟨j, fun r h => (hj r (hr r h)).2.2, ?_⟩
  rw [toLPW_raw part _ rfl rfl rfl rfl, kthArgs_process, topKIndices_eq s hs n k hkn P hP hr, denseLabel_dense]
  simp only [Except.bind]
  have h1 := selectKth_eq s hs n L hL hl (P.map fun r => (part k r).drop (n - k)) (by simpa using hP)
  have h2 := selectKth_eq s hs n P hP hr (P.map fun r => (part k r).drop (n - k)) (by simpa using hP)
  rw [zip_pick 0 n k j (fun r h => ⟨(hj r h).1, (hj r h).2.1⟩) L P hl hr] at h1
  rw [zip_pick .nan n k j (fun r h => ⟨(hj r h).1, (hj r h).2.1⟩) P P hr hr] at h2
  rw [emit_dense _ rfl rfl rfl rfl _ _ ⟨ws, [w]⟩ w, h1.1, h2.1, List.zipWith_self]
  · unfold Arr.WF; rw [h1.1, h1.2]; simp [hL, hP]
  · unfold Arr.WF; rw [h2.1, h2.2]; simp [hP]
  · rfl
  · simp only [Arr.size]; rw [h1.1, h2.1]; simp [hL, hP]
  · simp only [Arr.size]; rw [h2.1]; simpa [hP] using hpos

/-- C57, sparse labels: the example is positive exactly if the k-th prediction is the one of the example's class. -/
theorem C57_sparse (hp : Partition part) (s ws : List ℕ) (hs : Flat1 s) (n k : ℕ) (hn : 2 ≤ n) (hk : 1 ≤ k)
    (hkn : k ≤ n) (cs : List ℤ) (P : List (List Fl)) (w : ℚ) (hcl : cs.length = s.prod)
    (hcs : ∀ c ∈ cs, -1 ≤ c ∧ c < n) (hP : P.length = s.prod) (hr : ∀ r ∈ P, r.length = n) (hpos : 0 < s.prod) :
    ∃ j : List Fl → ℕ, (∀ r ∈ P, IsKth k r (j r)) ∧
      toLabelPredictionWeight part { weighted with subKey := some ⟨none, some (k : ℤ), none⟩ }
        (raw ⟨s ++ [1], cs.map fun c : ℤ => (c : ℚ)⟩ ⟨s ++ [n], P.flatten⟩ ⟨ws, [w]⟩) =
      .ok (pairs (List.zipWith (fun (c : ℤ) r => if c = (j r : ℤ) then 1 else 0) cs P)
        (P.map fun r => r.getD (j r) .nan) w) := by
  have hlr : ∀ r ∈ cs.map (hot n), r.length = n := by
    intro r hr
    obtain ⟨c, _, rfl⟩ := List.mem_map.1 hr
    exact (C28_hot_spec n c).1
  obtain ⟨j, hj, hres⟩ := C57_dense hp s ws hs n k hk hkn (cs.map (hot n)) P w (by simpa using hcl) hlr hP hr hpos
  refine ⟨j, hj, ?_⟩
  rw [toLPW_raw part _ rfl rfl rfl rfl, kthArgs_process, topKIndices_eq s hs n k hkn P hP hr] at hres ⊢
  rw [denseLabel_dense] at hres
  rw [denseLabel_sparse s n hn cs P.flatten hcl hcs]
  simp only [Except.bind] at hres ⊢
  rw [hres]
  congr 2
  rw [List.zipWith_map_left]
  apply List.ext_getElem
  · simp
  · intro i h1 h2
    simp only [List.getElem_zipWith]
    have hi : i < P.length := by simp at h1; omega
    have hm := List.getElem_mem hi
    obtain ⟨x, hx, -⟩ := hj _ hm
    have hlt : j P[i] < n := by rw [← hr _ hm]; exact (List.getElem?_eq_some_iff.1 hx).1
    rw [List.getD_eq_getElem?_getD, (C28_hot_spec n _).2.2 _ hlt, Option.getD_some]
    by_cases h : (j P[i] : ℤ) = cs[i]'(by simp at h1; omega)
    · rw [if_pos h, if_pos h.symm]
    · rw [if_neg h, if_neg (Ne.symm h)]

/-- C57, C58: fewer predictions than k are rejected. -/
theorem C57_too_few (n k : ℕ) (hk : n < k) (l : Arr ℚ) (ps : List Fl) (w : Arr ℚ) :
    toLabelPredictionWeight part { weighted with subKey := some ⟨none, some (k : ℤ), none⟩ } (raw l ⟨[n], ps⟩ w) =
      .error .valueError := by
  rw [toLPW_raw part _ rfl rfl rfl rfl, kthArgs_process]
  simp [topKIndices, hk, Except.bind]

/-! ### C58 -/

private theorem topArgs_process (agg : Bool) (k : ℕ) (l : Arr ℚ) (p : Arr Fl) (w : Arr ℚ) :
    process part { weighted with subKey := some ⟨none, none, some (k : ℤ)⟩, aggregated := agg } ⟨some l, some p, w⟩ =
      (topK part k agg l p).bind fun lp =>
        emit { weighted with subKey := some ⟨none, none, some (k : ℤ)⟩, aggregated := agg } (some lp.1, some lp.2) w := by
  simp only [process, weighted, checkNone, singleWeight, optSubKey, applySubKey, optTopK, optClassId, bind,
    Except.bind, pure, Except.pure, Option.isNone_some, Bool.or_self, Bool.false_and, Int.toNat_natCast]
  cases topK part k agg l p <;> rfl

/-- C58, binarization with top_k: all classes are kept, with -inf instead of the prediction for all but k positions of
the largest predictions of each row.  Dense labels. -/
theorem C58_binarize_dense (hp : Partition part) (s ws : List ℕ) (hs : Flat1 s) (n k : ℕ) (hk : 1 ≤ k) (hkn : k ≤ n)
    (ls : List ℚ) (P : List (List Fl)) (w : ℚ) (hl : ls.length = s.prod * n)
    (hP : P.length = s.prod) (hr : ∀ r ∈ P, r.length = n) (hpos : 0 < s.prod) :
    ∃ J : List Fl → List ℕ, (∀ r ∈ P, IsTopK k r (J r)) ∧
      toLabelPredictionWeight part { weighted with subKey := some ⟨none, none, some (k : ℤ)⟩, aggregated := false }
        (raw ⟨s ++ [n], ls⟩ ⟨s ++ [n], P.flatten⟩ ⟨ws, [w]⟩) =
      .ok (pairs ls (P.map fun r => keep (J r) r).flatten w) := by
  refine ⟨fun r => (part k r).drop (n - k), ?_, ?_⟩
  · intro r h
    have := part_top hp k r hk (by rw [hr r h]; exact hkn)
    rwa [hr r h] at this
  · rw [toLPW_raw part _ rfl rfl rfl rfl, topArgs_process]
    simp only [topK, topKIndices_eq s hs n k hkn P hP hr, bind, Except.bind, pure, Except.pure, Bool.false_eq_true,
      if_false, maskTopK_eq s hs n P hP hr]
    have hlen : (P.map fun r => keep ((part k r).drop (n - k)) r).flatten.length = s.prod * n := by
      rw [flatten_length n, List.length_map, hP]
      intro r hr'
      obtain ⟨r, h, rfl⟩ := List.mem_map.1 hr'
      rw [keep_length, hr r h]
    rw [emit_dense _ rfl rfl rfl rfl _ _ ⟨ws, [w]⟩ w]
    · unfold Arr.WF; simp [hl]
    · unfold Arr.WF; rw [hlen]; simp
    · rfl
    · simp only [Arr.size]; rw [hlen, hl]
    · simp only [Arr.size]; rw [hlen]; exact Nat.mul_pos hpos (by omega)

/-- C58, binarization with top_k and sparse labels. -/
theorem C58_binarize_sparse (hp : Partition part) (s ws : List ℕ) (hs : Flat1 s) (n k : ℕ) (hn : 2 ≤ n) (hk : 1 ≤ k)
    (hkn : k ≤ n) (cs : List ℤ) (P : List (List Fl)) (w : ℚ) (hcl : cs.length = s.prod)
    (hcs : ∀ c ∈ cs, -1 ≤ c ∧ c < n) (hP : P.length = s.prod) (hr : ∀ r ∈ P, r.length = n) (hpos : 0 < s.prod) :
    ∃ J : List Fl → List ℕ, (∀ r ∈ P, IsTopK k r (J r)) ∧
      toLabelPredictionWeight part { weighted with subKey := some ⟨none, none, some (k : ℤ)⟩, aggregated := false }
        (raw ⟨s ++ [1], cs.map fun c : ℤ => (c : ℚ)⟩ ⟨s ++ [n], P.flatten⟩ ⟨ws, [w]⟩) =
      .ok (pairs (cs.flatMap (hot n)) (P.map fun r => keep (J r) r).flatten w) := by
  refine ⟨fun r => (part k r).drop (n - k), ?_, ?_⟩
  · intro r h
    have := part_top hp k r hk (by rw [hr r h]; exact hkn)
    rwa [hr r h] at this
  · rw [toLPW_raw part _ rfl rfl rfl rfl, topArgs_process]
    simp only [topK, topKIndices_eq s hs n k hkn P hP hr, bind, Except.bind, pure, Except.pure, Bool.false_eq_true,
      if_false, maskTopK_eq s hs n P hP hr]
    have hlen : (P.map fun r => keep ((part k r).drop (n - k)) r).flatten.length = s.prod * n := by
      rw [flatten_length n, List.length_map, hP]
      intro r hr'
      obtain ⟨r, h, rfl⟩ := List.mem_map.1 hr'
      rw [keep_length, hr r h]
    exact emit_sparse _ rfl rfl rfl s n hn cs _ ⟨ws, [w]⟩ w hcl hlen hpos hcs rfl

/-- C58: top_k = number of classes changes nothing. -/
theorem C58_all (r : List Fl) (J : List ℕ) (h : IsTopK r.length r J) : keep J r = r := by
  obtain ⟨hn, hl, hb, -⟩ := h
  have : ∀ i, i < r.length → i ∈ J := by
    intro i hi
    have hsub : J ⊆ List.range r.length := fun j hj => List.mem_range.2 (hb j hj)
    have hperm : J.Perm (List.range r.length) := by
      apply List.Subperm.perm_of_length_le (List.subperm_of_subset hn hsub)
      simp [hl]
    exact hperm.mem_iff.2 (List.mem_range.2 hi)
  conv_rhs => rw [← range_getD r .nan]
  unfold keep
  apply List.map_congr_left
  intro i hi
  rw [if_pos (this i (List.mem_range.1 hi))]

/-- C58, aggregation with top_k: each row gives exactly k binary examples, the labels and predictions at the positions
of the k largest predictions. -/
theorem C58_aggregate_dense (hp : Partition part) (s ws : List ℕ) (hs : Flat1 s) (n k : ℕ) (hk : 1 ≤ k) (hkn : k ≤ n)
    (L : List (List ℚ)) (P : List (List Fl)) (w : ℚ) (hL : L.length = s.prod) (hl : ∀ r ∈ L, r.length = n)
    (hP : P.length = s.prod) (hr : ∀ r ∈ P, r.length = n) (hpos : 0 < s.prod) :
    ∃ J : List Fl → List ℕ, (∀ r ∈ P, IsTopK k r (J r)) ∧
      toLabelPredictionWeight part { weighted with subKey := some ⟨none, none, some (k : ℤ)⟩, aggregated := true }
        (raw ⟨s ++ [n], L.flatten⟩ ⟨s ++ [n], P.flatten⟩ ⟨ws, [w]⟩) =
      .ok (pairs (List.zipWith (fun l r => (J r).map fun i => l.getD i 0) L P).flatten
        (P.map fun r => (J r).map fun i => r.getD i .nan).flatten w) := by
  have htop : ∀ r ∈ P, IsTopK k r ((part k r).drop (n - k)) := by
    intro r h
    have := part_top hp k r hk (by rw [hr r h]; exact hkn)
    rwa [hr r h] at this
  refine ⟨fun r => (part k r).drop (n - k), htop, ?_⟩
  have hpick : ∀ {β : Type} (d : β) (L : List (List β)) (P : List (List Fl)), (∀ r ∈ L, r.length = n) →
      (∀ r ∈ P, r.length = n) → (∀ r ∈ P, IsTopK k r ((part k r).drop (n - k))) →
      List.zipWith pick L (P.map fun r => (part k r).drop (n - k)) =
        List.zipWith (fun l r => ((part k r).drop (n - k)).map fun i => l.getD i d) L P := by
    intro β d L P hl hr ht
    rw [List.zipWith_map_right]
    apply List.ext_getElem
    · simp
    · intro i h1 h2
      simp only [List.getElem_zipWith]
      have hiL : i < L.length := by simp at h1; omega
      have hiP : i < P.length := by simp at h1; omega
      apply pick_eq
      intro j hj
      rw [hl _ (List.getElem_mem hiL), ← hr _ (List.getElem_mem hiP)]
      exact (ht _ (List.getElem_mem hiP)).2.2.1 j hj
  have hkl : ∀ {β : Type} (d : β) (L : List (List β)), L.length = s.prod →
      (List.zipWith (fun l r => ((part k r).drop (n - k)).map fun i => l.getD i d) L P).flatten.length = s.prod * k := by
    intro β d L hL
    rw [flatten_length k]
    · simp [hL, hP]
    · intro x hx
      obtain ⟨i, hi, rfl⟩ := List.getElem_of_mem hx
      simp only [List.getElem_zipWith, List.length_map]
      exact (htop _ (List.getElem_mem _)).2.1
  rw [toLPW_raw part _ rfl rfl rfl rfl, topArgs_process]
  have hidx : ∀ i ∈ P.map (fun r => (part k r).drop (n - k)), i.length = k := by
    intro i hi
    obtain ⟨r, h, rfl⟩ := List.mem_map.1 hi
    exact (htop r h).2.1
  have hidb : ∀ i ∈ P.map (fun r => (part k r).drop (n - k)), ∀ j ∈ i, j < n := by
    intro i hi
    obtain ⟨r, h, rfl⟩ := List.mem_map.1 hi
    intro j hj
    rw [← hr r h]
    exact (htop r h).2.2.1 j hj
  simp only [topK, topKIndices_eq s hs n k hkn P hP hr, bind, Except.bind, pure, Except.pure, if_true, denseLabel_dense,
    selectIndices_eq s hs n k L hL hl _ (by simpa using hP) hidx hidb hpos,
    selectIndices_eq s hs n k P hP hr _ (by simpa using hP) hidx hidb hpos, hpick 0 L P hl hr htop,
    hpick Fl.nan P P hr hr htop]
  rw [emit_dense _ rfl rfl rfl rfl _ _ ⟨ws, [w]⟩ w]
  · simp only [List.zipWith_self]
  · unfold Arr.WF; simp only; rw [hkl 0 L hL]; simp
  · unfold Arr.WF; simp only; rw [hkl Fl.nan P hP]; simp
  · rfl
  · simp only [Arr.size]; rw [hkl 0 L hL, hkl Fl.nan P hP]
  · simp only [Arr.size]; rw [hkl Fl.nan P hP]; exact Nat.mul_pos hpos (by omega)

/-- C58, aggregation with top_k and sparse labels: as with the one-hot labels. -/
theorem C58_aggregate_sparse (s ws : List ℕ) (n k : ℕ) (hn : 2 ≤ n)
    (cs : List ℤ) (ps : List Fl) (w : ℚ) (hcl : cs.length = s.prod) (hcs : ∀ c ∈ cs, -1 ≤ c ∧ c < n) :
    toLabelPredictionWeight part { weighted with subKey := some ⟨none, none, some (k : ℤ)⟩, aggregated := true }
        (raw ⟨s ++ [1], cs.map fun c : ℤ => (c : ℚ)⟩ ⟨s ++ [n], ps⟩ ⟨ws, [w]⟩) =
    toLabelPredictionWeight part { weighted with subKey := some ⟨none, none, some (k : ℤ)⟩, aggregated := true }
        (raw ⟨s ++ [n], (cs.map (hot n)).flatten⟩ ⟨s ++ [n], ps⟩ ⟨ws, [w]⟩) := by
  rw [toLPW_raw part _ rfl rfl rfl rfl, topArgs_process, toLPW_raw part _ rfl rfl rfl rfl, topArgs_process]
  have ho : oneHot ⟨s ++ [1], cs.map fun c : ℤ => (c : ℚ)⟩ (s ++ [n]) = .ok ⟨s ++ [n], cs.flatMap (hot n)⟩ :=
    C28_one_hot_partial (s ++ [1]) cs s n hcl hcs
  have h1 : denseLabel ⟨s ++ [1], cs.map fun c : ℤ => (c : ℚ)⟩ ⟨s ++ [n], ps⟩ =
      denseLabel ⟨s ++ [n], (cs.map (hot n)).flatten⟩ ⟨s ++ [n], ps⟩ := by
    unfold denseLabel
    rw [if_pos (by simp; omega), if_neg (by simp), ho, List.flatMap_def]
  simp only [topK, h1, if_true]

/-- One example of three classes, k = 2, and any choice of indices. -/
example (hp : Partition part) :
    ∃ J : List Fl → List ℕ, (∀ r ∈ [[Fl.fin 1, .fin 3, .fin 1]], IsTopK 2 r (J r)) ∧
      toLabelPredictionWeight part { weighted with subKey := some ⟨none, none, some 2⟩, aggregated := false }
        (raw ⟨[3], [0, 1, 0]⟩ ⟨[3], [.fin 1, .fin 3, .fin 1]⟩ ⟨[], [1]⟩) =
      .ok (pairs [0, 1, 0] ([[Fl.fin 1, .fin 3, .fin 1]].map fun r => keep (J r) r).flatten 1) :=
  C58_binarize_dense hp [] [] (by simp [Flat1]) 3 2 (by decide) (by decide) [0, 1, 0] [[.fin 1, .fin 3, .fin 1]] 1 rfl rfl
    (by simp) (by decide)

/-- A row of three predictions with two equal values: both positions are second largest. -/
example : IsKth 2 [.fin 1, .fin 3, .fin 1] 0 ∧ IsKth 2 [.fin 1, .fin 3, .fin 1] 2 ∧
    ¬ IsKth 2 [.fin 1, .fin 3, .fin 1] 1 := by
  refine ⟨⟨.fin 1, rfl, by decide +kernel, by decide +kernel⟩, ⟨.fin 1, rfl, by decide +kernel, by decide +kernel⟩, ?_⟩
  rintro ⟨x, hx, _, h⟩
  cases hx
  revert h
  decide +kernel

example : keep [0, 1] [.fin 3, .fin 2, .fin 1] = [.fin 3, .fin 2, .ninf] := by decide +kernel

end Inputs
end TFMA
