import Verif.Props.Inputs
import Mathlib.Data.List.Perm.Basic
import Mathlib.Data.List.Perm.Lattice

/-!
# C55–C61: from labels and predictions to binary examples

Specification: predictions are given as rows (one row of `n` values per example), labels as class ids (sparse) or as
rows (dense).
-/

namespace TFMA
namespace Inputs

open MetricKeys

/-- Inputs without model or output names. -/
def raw (l : Arr ℚ) (p : Arr Fl) (w : Arr ℚ) : Raw := ⟨.leaf (some l), .leaf (some p), .leaf (some w)⟩

/-- Examples of one value each, all with the weight `w`. -/
def pairs (ls : List ℚ) (ps : List Fl) (w : ℚ) : List Item := List.zipWith (fun l p => ⟨one l, one p, one w⟩) ls ps

/-- Defaults with example weights. -/
def weighted : Args := { exampleWeighted := true }

variable {α : Type}

/-! ### Helpers -/

theorem toLPW_raw (part) (a : Args) (hs : a.specs = []) (hm : a.model = "") (ho : a.output = "")
    (he : a.exampleWeighted = true) (l : Arr ℚ) (p : Arr Fl) (w : Arr ℚ) :
    toLabelPredictionWeight part a (raw l p w) = process part a ⟨some l, some p, w⟩ := by
  unfold toLabelPredictionWeight
  have : find a (raw l p w) = .ok ⟨some l, some p, w⟩ := by
    unfold find
    simp [hs, hm, ho, he, specKeys, byName, raw, isNoneLeaf, requireLeaf, preparePrediction, bind, Except.bind, pure,
      Except.pure]
  rw [this]
  rfl

theorem atLeast1_size (a : Arr α) : (atLeast1 a).size = a.size := by
  unfold atLeast1; split <;> rfl

theorem atLeast1_data (a : Arr α) : (atLeast1 a).data = a.data := by
  unfold atLeast1; split <;> rfl

theorem atLeast1_ne (a : Arr α) : (atLeast1 a).shape ≠ [] := by
  unfold atLeast1
  split
  · simp
  · assumption

theorem prod_atLeast1 (a : Arr α) (h : a.WF) : (atLeast1 a).WF := by
  unfold atLeast1
  split
  · rename_i h0; unfold Arr.WF at h ⊢; simpa [h0] using h
  · exact h

private theorem filter_ones (s : List ℕ) (h : s.prod = 1) : s.filter (· ≠ 1) = [] := by
  induction s with
  | nil => rfl
  | cons x s ih =>
    rw [List.prod_cons] at h
    have h1 := Nat.eq_one_of_mul_eq_one_right h
    have h2 := Nat.eq_one_of_mul_eq_one_left h
    subst h1
    simpa using ih h2

private theorem squeeze_one (a : Arr α) (x : α) (hd : a.data = [x]) (h : a.WF) (hne : a.shape ≠ []) :
    squeeze a = one x := by
  unfold Arr.WF at h
  rw [hd] at h
  unfold squeeze
  split
  · rename_i h'
    rcases h' with h' | h'
    · exact absurd h' hne
    · cases a
      simp only at hd h'
      subst hd h'
      rfl
  · simp only [filter_ones a.shape h.symm, if_true, hd]
    rfl

private theorem zip3_replicate (ls : List ℚ) (ps : List Fl) (w : ℚ) (n : ℕ) (h : ps.length ≤ n) :
    zip3 ls ps (List.replicate n w) = pairs ls ps w := by
  induction ps generalizing ls n with
  | nil => cases ls <;> simp [zip3, pairs]
  | cons p ps ih =>
    cases ls with
    | nil => simp [zip3, pairs]
    | cons l ls =>
      obtain ⟨n, rfl⟩ : ∃ m, n = m + 1 := ⟨n - 1, by simp at h; omega⟩
      simp only [List.replicate_succ, zip3, pairs, List.zipWith_cons_cons]
      rw [ih ls n (by simpa using h)]
      rfl

theorem flattenWeights_one (n : ℕ) (w : Arr ℚ) (x : ℚ) (h : w.data = [x]) :
    flattenWeights n (atLeast1 w) = .ok ⟨[n], List.replicate n x⟩ := by
  unfold flattenWeights
  rw [atLeast1_data, h]

theorem yield_dense (l : Arr ℚ) (p : Arr Fl) (x : ℚ) (hl : l.WF) (hp : p.WF) (hls : l.shape ≠ [])
    (hps : p.shape ≠ []) (hlen : l.size = p.size) (hpos : 0 < p.size) :
    yieldResults true true l p ⟨[p.size], List.replicate p.size x⟩ = .ok (pairs l.data p.data x) := by
  have hsz : Arr.size ⟨[p.size], List.replicate p.size x⟩ = p.size := by simp [Arr.size]
  unfold yieldResults
  rw [hsz]
  by_cases h1 : p.size = 1
  · have h1' : l.size = 1 := by omega
    obtain ⟨y, hy⟩ := List.length_eq_one_iff.1 h1'
    obtain ⟨z, hz⟩ := List.length_eq_one_iff.1 h1
    rw [if_pos (by simp [h1, h1']), if_pos rfl, squeeze_one l y hy hl hls, squeeze_one p z hz hp hps, h1]
    simp [squeeze, pairs, hy, hz, one]
  · rw [if_neg (by simp [h1]; omega), if_neg (by omega), if_neg (by omega), if_pos ⟨hlen, hlen⟩, zip3_replicate]
    exact le_refl _

private theorem yield_sparse (sq : Bool) (s : List ℕ) (n : ℕ) (hn : 2 ≤ n) (cs : List ℤ) (ps : List Fl) (x : ℚ)
    (hcl : cs.length = s.prod) (hpl : ps.length = s.prod * n) (hpos : 0 < s.prod) (hcs : ∀ c ∈ cs, -1 ≤ c ∧ c < n) :
    yieldResults true sq ⟨s ++ [1], cs.map fun c : ℤ => (c : ℚ)⟩ ⟨s ++ [n], ps⟩
      ⟨[s.prod * n], List.replicate (s.prod * n) x⟩ = .ok (pairs (cs.flatMap (hot n)) ps x) := by
  have hls : Arr.size (⟨s ++ [1], cs.map fun c : ℤ => (c : ℚ)⟩ : Arr ℚ) = s.prod := by simp [Arr.size, hcl]
  have hps : Arr.size (⟨s ++ [n], ps⟩ : Arr Fl) = s.prod * n := by simp [Arr.size, hpl]
  have hsz : Arr.size ⟨[s.prod * n], List.replicate (s.prod * n) x⟩ = s.prod * n := by simp [Arr.size]
  have hlt : s.prod < s.prod * n := by nlinarith
  unfold yieldResults
  rw [hls, hps, hsz, if_neg (by simp; omega), if_neg (by omega), if_neg (by omega),
    if_neg (by rintro ⟨h, _⟩; omega), if_pos ⟨List.getLast?_concat .., rfl⟩,
    C28_one_hot_partial (s ++ [1]) cs s n hcl hcs]
  simp only [zip3_replicate _ _ _ _ (le_of_eq hpl)]
  rfl

/-- Emission of equally many labels and predictions. -/
theorem emit_dense (a : Args) (hf : a.flatten = true) (hq : a.squeeze = true) (hc : a.classWeights = [])
    (hr : a.fractional = false) (l : Arr ℚ) (p : Arr Fl) (w : Arr ℚ) (x : ℚ) (hl : l.WF) (hp : p.WF)
    (hw : w.data = [x]) (hlen : l.size = p.size) (hpos : 0 < p.size) :
    emit a (some l, some p) w = .ok (pairs l.data p.data x) := by
  have hn : ¬ p.size = 0 := by omega
  have h := yield_dense (atLeast1 l) (atLeast1 p) x (prod_atLeast1 l hl) (prod_atLeast1 p hp) (atLeast1_ne l)
    (atLeast1_ne p) (by rw [atLeast1_size, atLeast1_size, hlen]) (by rw [atLeast1_size]; exact hpos)
  rw [atLeast1_size, atLeast1_data, atLeast1_data] at h
  simp only [emit, hf, hq, hc, if_true, orEmpty, atLeast1_size, hn, if_false, flattenWeights_one _ w x hw,
    applyClassWeights, yieldAll, hr, bind, Except.bind, Bool.false_and, pure, Except.pure, h, Bool.false_eq_true]

/-- Emission of sparse labels. -/
theorem emit_sparse (a : Args) (hf : a.flatten = true) (hc : a.classWeights = []) (hr : a.fractional = false)
    (s : List ℕ) (n : ℕ) (hn : 2 ≤ n) (cs : List ℤ) (ps : List Fl) (w : Arr ℚ) (x : ℚ) (hcl : cs.length = s.prod)
    (hpl : ps.length = s.prod * n) (hpos : 0 < s.prod) (hcs : ∀ c ∈ cs, -1 ≤ c ∧ c < n) (hw : w.data = [x]) :
    emit a (some ⟨s ++ [1], cs.map fun c : ℤ => (c : ℚ)⟩, some ⟨s ++ [n], ps⟩) w =
      .ok (pairs (cs.flatMap (hot n)) ps x) := by
  have h1 : atLeast1 (⟨s ++ [1], cs.map fun c : ℤ => (c : ℚ)⟩ : Arr ℚ) = ⟨s ++ [1], cs.map fun c : ℤ => (c : ℚ)⟩ := by
    unfold atLeast1; rw [if_neg (by simp)]
  have h2 : atLeast1 (⟨s ++ [n], ps⟩ : Arr Fl) = ⟨s ++ [n], ps⟩ := by
    unfold atLeast1; rw [if_neg (by simp)]
  have hps : Arr.size (⟨s ++ [n], ps⟩ : Arr Fl) = s.prod * n := by simp [Arr.size, hpl]
  have hn0 : ¬ s.prod * n = 0 := by have := Nat.mul_pos hpos (show 0 < n by omega); omega
  simp only [emit, hf, hc, if_true, orEmpty, h1, h2, hps, hn0, if_false, flattenWeights_one _ w x hw,
    applyClassWeights, yieldAll, hr, bind, Except.bind, Bool.false_and, pure, Except.pure,
    yield_sparse a.squeeze s n hn cs ps x hcl hpl hpos hcs, Bool.false_eq_true]

/-! ### C55: flattening -/

/-- C55, sparse labels: every example gives one binary example per class, in order, labelled 1 exactly for the class of
the example (none for -1), with the prediction of the class and the example's weight. -/
theorem C55_sparse (part) (s ws : List ℕ) (n : ℕ) (hn : 2 ≤ n) (cs : List ℤ) (ps : List Fl) (w : ℚ)
    (hcl : cs.length = s.prod) (hpl : ps.length = s.prod * n) (hpos : 0 < s.prod) (hcs : ∀ c ∈ cs, -1 ≤ c ∧ c < n) :
    toLabelPredictionWeight part weighted (raw ⟨s ++ [1], cs.map fun c : ℤ => (c : ℚ)⟩ ⟨s ++ [n], ps⟩ ⟨ws, [w]⟩) =
      .ok (pairs (cs.flatMap (hot n)) ps w) := by
  rw [toLPW_raw part weighted rfl rfl rfl rfl]
  exact emit_sparse weighted rfl rfl rfl s n hn cs ps ⟨ws, [w]⟩ w hcl hpl hpos hcs rfl

/-- C55, dense labels: each label is paired with the prediction at its position. -/
theorem C55_dense (part) (l : Arr ℚ) (p : Arr Fl) (ws : List ℕ) (w : ℚ) (hl : l.WF) (hp : p.WF)
    (hlen : l.size = p.size) (hpos : 0 < p.size) :
    toLabelPredictionWeight part weighted (raw l p ⟨ws, [w]⟩) = .ok (pairs l.data p.data w) := by
  rw [toLPW_raw part weighted rfl rfl rfl rfl]
  exact emit_dense weighted rfl rfl rfl rfl l p ⟨ws, [w]⟩ w hl hp rfl hlen hpos

/-- C55: a class id and its one-hot vector are the same label. -/
theorem C55_encodings_agree (part) (s ws : List ℕ) (n : ℕ) (hn : 2 ≤ n) (cs : List ℤ) (ps : List Fl) (w : ℚ)
    (hcl : cs.length = s.prod) (hpl : ps.length = s.prod * n) (hpos : 0 < s.prod) (hcs : ∀ c ∈ cs, -1 ≤ c ∧ c < n) :
    toLabelPredictionWeight part weighted (raw ⟨s ++ [1], cs.map fun c : ℤ => (c : ℚ)⟩ ⟨s ++ [n], ps⟩ ⟨ws, [w]⟩) =
      toLabelPredictionWeight part weighted (raw ⟨s ++ [n], cs.flatMap (hot n)⟩ ⟨s ++ [n], ps⟩ ⟨ws, [w]⟩) := by
  have hfl : (cs.flatMap (hot n)).length = s.prod * n := by
    rw [← hcl]
    clear hcl hcs
    induction cs with
    | nil => simp
    | cons c cs ih =>
      simp only [List.flatMap_cons, List.length_append, ih, List.length_cons, (C28_hot_spec n c).1]; ring
  rw [C55_sparse part s ws n hn cs ps w hcl hpl hpos hcs, C55_dense part]
  · unfold Arr.WF; simp [hfl]
  · unfold Arr.WF; simp [hpl]
  · simp only [Arr.size]; omega
  · simp only [Arr.size]; rw [hpl]; exact Nat.mul_pos hpos (by omega)

/-- Two examples of three classes; the second label is unknown. -/
example (part) :
    toLabelPredictionWeight part weighted
        (raw ⟨[2, 1], [2, -1]⟩ ⟨[2, 3], [.fin 1, .fin 2, .fin 3, .fin 4, .fin 5, .fin 6]⟩ ⟨[], [7]⟩) =
      .ok [⟨one 0, one (.fin 1), one 7⟩, ⟨one 0, one (.fin 2), one 7⟩, ⟨one 1, one (.fin 3), one 7⟩,
        ⟨one 0, one (.fin 4), one 7⟩, ⟨one 0, one (.fin 5), one 7⟩, ⟨one 0, one (.fin 6), one 7⟩] := by
  have h := C55_sparse part [2] [] 3 (by decide) [2, -1] [.fin 1, .fin 2, .fin 3, .fin 4, .fin 5, .fin 6] 7 rfl rfl
    (by decide) (by decide)
  simp only [List.map_cons, List.map_nil, Int.cast_ofNat, Int.cast_neg, Int.cast_one] at h
  exact h.trans (by decide +kernel)

/-! ### C56: class ids -/

theorem rows_flatten (n : ℕ) (P : List (List α)) (h : ∀ r ∈ P, r.length = n) : rows n P.length P.flatten = P := by
  induction P with
  | nil => rfl
  | cons r P ih =>
    have hr := h r (by simp)
    simp only [List.length_cons, rows, List.flatten_cons]
    rw [List.take_append_of_le_length (by omega), List.take_of_length_le (by omega),
      List.drop_append_of_le_length (by omega), List.drop_of_length_le (by omega), List.nil_append,
      ih fun r hr => h r (by simp [hr])]

private theorem rows_one (l : List α) : rows 1 l.length l = l.map fun x => [x] := by
  induction l with
  | nil => rfl
  | cons x l ih => simp [rows, ih]

private theorem lookup_ok (i : ℕ) (r : List α) (h : i < r.length) : lookup (i : ℤ) r = .ok r[i] := by
  unfold lookup
  rw [if_neg (by omega)]
  simp [h]

/-- The binary examples of class `i` for rows `P` of predictions: label 1 exactly if the class of the row is `i`. -/
def ofClass (i : ℕ) (w : ℚ) (cs : List ℤ) (P : List (List Fl)) : List Item :=
  List.zipWith (fun (c : ℤ) r => ⟨one (if c = i then 1 else 0), one (r.getD i .nan), one w⟩) cs P

theorem map_getD {i n : ℕ} (hi : i < n) (d : α) (P : List (List α)) (h : ∀ r ∈ P, r.length = n) :
    mapE (lookup (i : ℤ)) P = .ok (P.map fun r => r.getD i d) := by
  apply mapE_ok
  intro r hr
  have := h r hr
  rw [lookup_ok i r (by omega)]
  simp [List.getD_eq_getElem?_getD, show i < r.length by omega]

theorem flatten_length (n : ℕ) (P : List (List α)) (h : ∀ r ∈ P, r.length = n) :
    P.flatten.length = P.length * n := by
  induction P with
  | nil => simp
  | cons r P ih =>
    simp only [List.flatten_cons, List.length_append, h r (by simp), ih fun r hr => h r (by simp [hr]),
      List.length_cons]
    ring

private def classArgs (i : ℤ) : Args := { exampleWeighted := true, subKey := some ⟨some i, none, none⟩ }

private theorem process_class (part) (i : ℤ) (l : Arr ℚ) (p : Arr Fl) (w : Arr ℚ) :
    process part (classArgs i) ⟨some l, some p, w⟩ =
      (selectClassId i l p).bind fun lp => emit (classArgs i) (some lp.1, some lp.2) w := by
  simp only [process, classArgs, checkNone, singleWeight, optSubKey, applySubKey, optTopK, optClassId, bind,
    Except.bind, pure, Except.pure, Option.isNone_some, Bool.or_self, Bool.false_and]
  cases selectClassId i l p <;> rfl

/-- C56, sparse labels: the sub key class_id = i gives one binary example per row, labelled 1 exactly for the rows of
class `i`, with the prediction for class `i`. -/
theorem C56_sparse (part) (s ws : List ℕ) (n : ℕ) (hn : 2 ≤ n) (cs : List ℤ) (P : List (List Fl)) (w : ℚ)
    (hcl : cs.length = s.prod) (hP : P.length = s.prod) (hr : ∀ r ∈ P, r.length = n) (hpos : 0 < s.prod)
    (i : ℕ) (hi : i < n) :
    toLabelPredictionWeight part { weighted with subKey := some ⟨some i, none, none⟩ }
        (raw ⟨s ++ [1], cs.map fun c : ℤ => (c : ℚ)⟩ ⟨s ++ [n], P.flatten⟩ ⟨ws, [w]⟩) =
      .ok (ofClass i w cs P) := by
  rw [toLPW_raw part _ rfl rfl rfl rfl]
  refine (process_class part i _ _ _).trans ?_
  have hfl := flatten_length n P hr
  have hls : Arr.size (⟨s ++ [1], cs.map fun c : ℤ => (c : ℚ)⟩ : Arr ℚ) = s.prod := by simp [Arr.size, hcl]
  have hps : Arr.size (⟨s ++ [n], P.flatten⟩ : Arr Fl) = s.prod * n := by simp only [Arr.size]; rw [hfl, hP]
  have h1 : atLeast1 (⟨s ++ [1], cs.map fun c : ℤ => (c : ℚ)⟩ : Arr ℚ) = ⟨s ++ [1], cs.map fun c : ℤ => (c : ℚ)⟩ := by
    unfold atLeast1; rw [if_neg (by simp)]
  have h2 : atLeast1 (⟨s ++ [n], P.flatten⟩ : Arr Fl) = ⟨s ++ [n], P.flatten⟩ := by
    unfold atLeast1; rw [if_neg (by simp)]
  have hsp : isSparse (⟨s ++ [1], cs.map fun c : ℤ => (c : ℚ)⟩ : Arr ℚ) ⟨s ++ [n], P.flatten⟩ = true := by
    unfold isSparse
    simp; omega
  have hss : sparseShape true (⟨s ++ [1], cs.map fun c : ℤ => (c : ℚ)⟩ : Arr ℚ) =
      ⟨s ++ [1], cs.map fun c : ℤ => (c : ℚ)⟩ := by
    unfold sparseShape; rw [if_neg (by simp)]
  have hl : Arr.lastRows (⟨s ++ [1], cs.map fun c : ℤ => (c : ℚ)⟩ : Arr ℚ) = cs.map fun c : ℤ => [(c : ℚ)] := by
    unfold Arr.lastRows
    simp only [List.getLast?_concat, Option.getD_some, List.dropLast_concat]
    rw [← hcl]
    have := rows_one (cs.map fun c : ℤ => (c : ℚ))
    rw [List.length_map] at this
    rw [this, List.map_map]
    rfl
  have hp : Arr.lastRows (⟨s ++ [n], P.flatten⟩ : Arr Fl) = P := by
    unfold Arr.lastRows
    simp only [List.getLast?_concat, Option.getD_some, List.dropLast_concat]
    rw [← hP, rows_flatten n P hr]
  have hsel : selectClassId i (⟨s ++ [1], cs.map fun c : ℤ => (c : ℚ)⟩ : Arr ℚ) ⟨s ++ [n], P.flatten⟩ =
      .ok (⟨s ++ [1], cs.map fun (c : ℤ) => if c = i then 1 else 0⟩, ⟨s ++ [1], P.map fun r => r.getD i .nan⟩) := by
    unfold selectClassId
    rw [hls, hps, if_neg (by
      have := Nat.mul_pos hpos (show 0 < n by omega)
      omega)]
    simp only [h1, h2, hsp, hss, if_true, hl, hp, map_getD hi .nan P hr, bind, Except.bind, pure, Except.pure,
      List.dropLast_concat, List.map_map]
    congr 3
    apply List.map_congr_left
    intro c _
    simp only [Function.comp_apply, List.head?_cons, Option.some.injEq, Int.cast_natCast]
    norm_cast
  rw [hsel]
  simp only [Except.bind]
  rw [emit_dense (classArgs i) rfl rfl rfl rfl _ _ ⟨ws, [w]⟩ w]
  · simp only [pairs, ofClass, List.zipWith_map]
  · unfold Arr.WF; simp [hcl]
  · unfold Arr.WF; simp [hP]
  · rfl
  · simp [Arr.size, hcl, hP]
  · simp [Arr.size, hP, hpos]

/-- C56, dense labels: the label and the prediction of class `i` of every row. -/
theorem C56_dense (part) (s ws : List ℕ) (n : ℕ) (L : List (List ℚ)) (P : List (List Fl)) (w : ℚ)
    (hL : L.length = s.prod) (hl : ∀ r ∈ L, r.length = n) (hP : P.length = s.prod) (hr : ∀ r ∈ P, r.length = n)
    (hpos : 0 < s.prod) (i : ℕ) (hi : i < n) :
    toLabelPredictionWeight part { weighted with subKey := some ⟨some i, none, none⟩ }
        (raw ⟨s ++ [n], L.flatten⟩ ⟨s ++ [n], P.flatten⟩ ⟨ws, [w]⟩) =
      .ok (pairs (L.map fun r => r.getD i 0) (P.map fun r => r.getD i .nan) w) := by
  rw [toLPW_raw part _ rfl rfl rfl rfl]
  refine (process_class part i _ _ _).trans ?_
  have hfl := flatten_length n P hr
  have hfl' := flatten_length n L hl
  have hls : Arr.size (⟨s ++ [n], L.flatten⟩ : Arr ℚ) = s.prod * n := by simp only [Arr.size]; rw [hfl', hL]
  have hps : Arr.size (⟨s ++ [n], P.flatten⟩ : Arr Fl) = s.prod * n := by simp only [Arr.size]; rw [hfl, hP]
  have h1 : atLeast1 (⟨s ++ [n], L.flatten⟩ : Arr ℚ) = ⟨s ++ [n], L.flatten⟩ := by
    unfold atLeast1; rw [if_neg (by simp)]
  have h2 : atLeast1 (⟨s ++ [n], P.flatten⟩ : Arr Fl) = ⟨s ++ [n], P.flatten⟩ := by
    unfold atLeast1; rw [if_neg (by simp)]
  have hsp : isSparse (⟨s ++ [n], L.flatten⟩ : Arr ℚ) ⟨s ++ [n], P.flatten⟩ = false := by
    unfold isSparse
    simp
  have hss : sparseShape false (⟨s ++ [n], L.flatten⟩ : Arr ℚ) = ⟨s ++ [n], L.flatten⟩ := by
    unfold sparseShape; rw [if_neg (by simp)]
  have hll : Arr.lastRows (⟨s ++ [n], L.flatten⟩ : Arr ℚ) = L := by
    unfold Arr.lastRows
    simp only [List.getLast?_concat, Option.getD_some, List.dropLast_concat]
    rw [← hL, rows_flatten n L hl]
  have hp : Arr.lastRows (⟨s ++ [n], P.flatten⟩ : Arr Fl) = P := by
    unfold Arr.lastRows
    simp only [List.getLast?_concat, Option.getD_some, List.dropLast_concat]
    rw [← hP, rows_flatten n P hr]
  have hsel : selectClassId i (⟨s ++ [n], L.flatten⟩ : Arr ℚ) ⟨s ++ [n], P.flatten⟩ =
      .ok (⟨s ++ [1], L.map fun r => r.getD i 0⟩, ⟨s ++ [1], P.map fun r => r.getD i .nan⟩) := by
    unfold selectClassId
    rw [hls, hps, if_neg (by
      have := Nat.mul_pos hpos (show 0 < n by omega)
      omega)]
    simp only [h1, h2, hsp, hss, hll, hp, map_getD hi .nan P hr, map_getD hi 0 L hl, bind, Except.bind, pure,
      Except.pure, List.dropLast_concat, Bool.false_eq_true, if_false]
  rw [hsel]
  simp only [Except.bind]
  rw [emit_dense (classArgs i) rfl rfl rfl rfl _ _ ⟨ws, [w]⟩ w]
  · unfold Arr.WF; simp [hL]
  · unfold Arr.WF; simp [hP]
  · rfl
  · simp [Arr.size, hL, hP]
  · simp [Arr.size, hP, hpos]

/-- C56: a class id that the predictions do not have is rejected. -/
theorem C56_out_of_range (part) (n : ℕ) (hn : 2 ≤ n) (c : ℤ) (ps : List Fl) (hp : ps.length = n) (w : Arr ℚ) (i : ℤ)
    (hi : i < 0 ∨ n ≤ i) :
    toLabelPredictionWeight part { weighted with subKey := some ⟨some i, none, none⟩ }
        (raw ⟨[1], [(c : ℚ)]⟩ ⟨[n], ps⟩ w) = .error .valueError := by
  rw [toLPW_raw part _ rfl rfl rfl rfl]
  refine (process_class part i _ _ _).trans ?_
  have hl : lookup i ps = .error .valueError := by
    unfold lookup
    by_cases h : i < 0
    · rw [if_pos h]
    · rw [if_neg h, List.getElem?_eq_none (by omega)]
  have hrow : Arr.lastRows (⟨[n], ps⟩ : Arr Fl) = [ps] := by
    unfold Arr.lastRows
    simp [rows, ← hp]
  have hsp : isSparse (⟨[1], [(c : ℚ)]⟩ : Arr ℚ) ⟨[n], ps⟩ = true := by
    unfold isSparse; simp; omega
  have hsel : selectClassId i (⟨[1], [(c : ℚ)]⟩ : Arr ℚ) ⟨[n], ps⟩ = .error .valueError := by
    unfold selectClassId
    rw [if_neg (by simp only [Arr.size, List.length_cons, List.length_nil, hp]; omega)]
    have h1 : atLeast1 (⟨[1], [(c : ℚ)]⟩ : Arr ℚ) = ⟨[1], [(c : ℚ)]⟩ := by unfold atLeast1; rw [if_neg (by simp)]
    have h2 : atLeast1 (⟨[n], ps⟩ : Arr Fl) = ⟨[n], ps⟩ := by unfold atLeast1; rw [if_neg (by simp)]
    simp only [h1, h2, hsp, sparseShape, hrow, mapE, hl, bind, Except.bind, if_true]
  rw [hsel]
  rfl

private theorem hot_cons_zip (n : ℕ) (c : ℤ) (r : List Fl) (w : ℚ) (hr : r.length = n) :
    pairs (hot n c) r w =
      (List.range n).map fun (i : ℕ) => ⟨one (if c = i then 1 else 0), one (r.getD i .nan), one w⟩ := by
  apply List.ext_getElem
  · simp [pairs, hot, hr]
  · intro j h1 h2
    have hj : j < n := by simpa using h2
    simp only [pairs, hot, List.getElem_zipWith, List.getElem_map, List.getElem_range]
    have : r.getD j .nan = r[j] := by simp [List.getD_eq_getElem?_getD, hr, hj]
    rw [this]
    congr 2
    by_cases h : (j : ℤ) = c
    · rw [if_pos h, if_pos h.symm]
    · rw [if_neg h, if_neg (Ne.symm h)]

private theorem pairs_append (a b : List ℚ) (c d : List Fl) (w : ℚ) (h : a.length = c.length) :
    pairs (a ++ b) (c ++ d) w = pairs a c w ++ pairs b d w := by
  unfold pairs
  exact List.zipWith_append h

/-- C56: the binary examples of all the class ids together are, up to order, the binary examples that flattening gives
(one-vs-rest binarization loses nothing and adds nothing). -/
theorem C56_decomposition (part) (s ws : List ℕ) (n : ℕ) (hn : 2 ≤ n) (cs : List ℤ) (P : List (List Fl)) (w : ℚ)
    (hcl : cs.length = s.prod) (hP : P.length = s.prod) (hr : ∀ r ∈ P, r.length = n) (hpos : 0 < s.prod)
    (hcs : ∀ c ∈ cs, -1 ≤ c ∧ c < n) :
    ∃ (flat : List Item) (byClass : ℕ → List Item),
      toLabelPredictionWeight part weighted
        (raw ⟨s ++ [1], cs.map fun c : ℤ => (c : ℚ)⟩ ⟨s ++ [n], P.flatten⟩ ⟨ws, [w]⟩) = .ok flat ∧
      (∀ i < n, toLabelPredictionWeight part { weighted with subKey := some ⟨some i, none, none⟩ }
        (raw ⟨s ++ [1], cs.map fun c : ℤ => (c : ℚ)⟩ ⟨s ++ [n], P.flatten⟩ ⟨ws, [w]⟩) = .ok (byClass i)) ∧
      ((List.range n).flatMap byClass).Perm flat := by
  refine ⟨_, fun i => ofClass i w cs P, C55_sparse part s ws n hn cs P.flatten w hcl ?_ hpos hcs, ?_, ?_⟩
  · rw [flatten_length n P hr, hP]
  · intro i hi
    exact C56_sparse part s ws n hn cs P w hcl hP hr hpos i hi
  · have hlen : cs.length = P.length := by omega
    clear hcl hP hpos hcs
    induction cs generalizing P with
    | nil =>
      have : P = [] := List.length_eq_zero_iff.1 hlen.symm
      subst this
      simp [ofClass, pairs]
    | cons c cs ih =>
      cases P with
      | nil => simp at hlen
      | cons r P =>
        have hrl := hr r (by simp)
        rw [List.flatMap_cons, List.flatten_cons, pairs_append _ _ _ _ _ (by rw [(C28_hot_spec n c).1, hrl]),
          hot_cons_zip n c r w hrl]
        refine List.Perm.trans ?_ ((ih P (fun r hr' => hr r (by simp [hr'])) (by simpa using hlen)).append_left _)
        simp only [ofClass, List.zipWith_cons_cons]
        exact (List.map_append_flatMap_perm (List.range n)
          (fun (i : ℕ) => (⟨one (if c = i then 1 else 0), one (r.getD i .nan), one w⟩ : Item))
          (fun (i : ℕ) => List.zipWith (fun (c : ℤ) (r : List Fl) =>
            (⟨one (if c = i then 1 else 0), one (r.getD i .nan), one w⟩ : Item)) cs P)).symm

/-- Two examples of classes 1 and 0. -/
example (part) : toLabelPredictionWeight part { weighted with subKey := some ⟨some 1, none, none⟩ }
    (raw ⟨[2, 1], [1, 0]⟩ ⟨[2, 2], [.fin 1, .fin 2, .fin 3, .fin 4]⟩ ⟨[], [5]⟩) =
    .ok [⟨one 1, one (.fin 2), one 5⟩, ⟨one 0, one (.fin 4), one 5⟩] := by
  have := C56_sparse part [2] [] 2 (by decide) [1, 0] [[.fin 1, .fin 2], [.fin 3, .fin 4]] 5 rfl rfl (by simp)
    (by decide) 1 (by decide)
  simpa [ofClass, pairs] using this

end Inputs
end TFMA
