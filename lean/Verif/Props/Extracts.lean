import Verif.Lemmas.Extracts
import Verif.Lemmas.SparseRagged
import Verif.Props.VarLen

/-!
# C13: splitting and merging batched extracts
-/

namespace TFMA
namespace Extracts

open VarLen Tensors

variable {α : Type}

/-! ### specification -/


/-- A leaf that is a batch of `n` rows: None, an array whose first dimension is `n`, a variable length tensor
from which `n` rows can be read, or a sparse or ragged tensor with `n` rows. -/
def IsBatch (n : ℕ) : Leaf α → Prop
  | .none => True
  | .nd (m :: s) data => m = n ∧ data.length = n * s.prod
  | .nd [] _ => False
  | .varlen t => ∃ rows, denseRows t = .ok rows ∧ rows.length = n
  | .sparse t => ∃ shape, SparseBatch t n shape
  | .ragged t => RaggedBatch t.values t.splits n
  | .object => False

/-- The entries of row `i` of a sparse tensor. -/
def rowEntries (t : Sparse α) (i : ℕ) : List (List ℕ × α) :=
  (t.indices.zip t.values).filterMap fun e => match e.1 with
    | j :: ix => if j = i then some (ix, e.2) else none
    | [] => none

/-- What the `i`-th individual extract is expected to hold for a batched leaf: block `i` of the elements (for a ragged
tensor with several ragged dimensions see also `C13_ragged_rows`). -/
def rowSpec (keep expand : Bool) (i : ℕ) : Leaf α → Option (Leaf α)
  | .none => some .none
  | .nd (_ :: s) data =>
    let shape := if s = [] then (if expand then [1] else []) else s
    some (.nd (if keep then 1 :: shape else shape) ((data.drop (i * s.prod)).take s.prod))
  | .varlen t => match denseRows t with
    | .ok rows => (rows[i]?).map fun r => .nd (if keep then [1, r.length] else [r.length]) r
    | .error _ => none
  | .sparse t => some (.sparse ⟨(rowEntries t i).map Prod.snd, (rowEntries t i).map Prod.fst, t.denseShape.tail⟩)
  | .ragged t => match t.splits with
    | [] => (t.values[i]?).map fun v =>
        let shape := if expand then [1] else []
        .nd (if keep then 1 :: shape else shape) [v]
    | [s] =>
      let r := (t.values.take (s.getD (i + 1) 0)).drop (s.getD i 0)
      some (.nd (if keep then [1, r.length] else [r.length]) r)
    | s :: s' :: rest => some (.ragged (sliceR t.values (s' :: rest) (s.getD i 0) (s.getD (i + 1) 0)))
  | _ => none

/-! ### blocks -/

theorem chunks_length (m n : ℕ) (l : List α) : (chunks m n l).length = n := by
  induction n generalizing l with
  | zero => rfl
  | succ n ih => simp [chunks, ih]

theorem chunks_getElem? (m n : ℕ) (l : List α) (i : ℕ) (hi : i < n) :
    (chunks m n l)[i]? = some ((l.drop (i * m)).take m) := by
  induction n generalizing l i with
  | zero => omega
  | succ n ih =>
    cases i with
    | zero => simp [chunks]
    | succ i =>
      simp only [chunks, List.getElem?_cons_succ]
      rw [ih _ i (by omega), List.drop_drop]
      congr 3
      rw [Nat.succ_mul, Nat.add_comm]

private theorem numel_eq (s : List ℕ) : numel s = s.prod := by
  induction s with
  | nil => rfl
  | cons n s ih => rw [List.prod_cons, ← ih]; rfl

theorem chunks_flatten (m n : ℕ) (l : List α) : (chunks m n l).flatten = l.take (n * m) := by
  induction n generalizing l with
  | zero => simp [chunks]
  | succ n ih =>
    simp only [chunks, List.flatten_cons, ih]
    rw [Nat.succ_mul, Nat.add_comm, List.take_add]

theorem sparseRow_eq (t : Sparse α) (shape : List ℕ) (i : ℕ) (h : ∀ ix ∈ t.indices, ix ≠ []) :
    sparseRow t shape i = ⟨(rowEntries t i).map Prod.snd, (rowEntries t i).map Prod.fst, shape⟩ := by
  have key : ∀ es : List (List ℕ × α), (∀ e ∈ es, e.1 ≠ []) →
      (es.filter fun e => e.1.headD 0 == i).map (fun e => (e.1.tail, e.2)) = es.filterMap fun e => match e.1 with
        | j :: ix => if j = i then some (ix, e.2) else none
        | [] => none := by
    intro es hes
    induction es with
    | nil => rfl
    | cons e es ih =>
      have ih := ih fun e' he' => hes e' (by simp [he'])
      obtain ⟨ix, v⟩ := e
      cases ix with
      | nil => exact absurd rfl (hes ([], v) (by simp))
      | cons j ix =>
        by_cases hj : j = i
        · rw [List.filter_cons_of_pos (by simpa using hj), List.map_cons, ih]
          simp [hj]
        · rw [List.filter_cons_of_neg (by simpa using hj), ih]
          simp [hj]
  have := key (t.indices.zip t.values) (fun e he => h e.1 (List.of_mem_zip he).1)
  unfold sparseRow rowEntries
  rw [← this]
  simp [Function.comp_def]

theorem raggedRows_getElem? (t : Ragged α) (s : List ℕ) (rest : List (List ℕ)) (n i : ℕ) (hs : s.length = n + 1) (hi : i < n) :
    (raggedRows t s rest)[i]? = some (sliceR t.values rest (s.getD i 0) (s.getD (i + 1) 0)) := by
  have hz : (s.zip s.tail)[i]? = some (s.getD i 0, s.getD (i + 1) 0) := by
    rw [List.getElem?_zip_eq_some]
    constructor
    · simp only [List.getD_eq_getElem?_getD]
      rw [List.getElem?_eq_getElem (by omega)]; rfl
    · simp only [List.getD_eq_getElem?_getD, List.getElem?_tail]
      rw [List.getElem?_eq_getElem (by omega)]; rfl
  simp only [raggedRows, List.getElem?_map, hz]
  rfl

theorem raggedRows_length (t : Ragged α) (s : List ℕ) (rest : List (List ℕ)) (n : ℕ) (hs : s.length = n + 1) :
    (raggedRows t s rest).length = n := by
  simp [raggedRows, hs]

theorem rowsOf_ok (keep expand : Bool) (n : ℕ) (v : Leaf α) (hv : IsBatch n v) :
    ∃ rows, rowsOf keep expand v = .ok rows ∧ (v = .none → rows = []) ∧
      (v ≠ .none → rows.length = n ∧ ∀ i < n, rows[i]? = rowSpec keep expand i v) := by
  match v, hv with
  | .none, _ => exact ⟨[], rfl, fun _ => rfl, fun h => absurd rfl h⟩
  | .nd (m :: s) data, ⟨hm, hd⟩ =>
    subst hm
    refine ⟨_, rfl, by simp, fun _ => ⟨by simp [chunks_length], ?_⟩⟩
    intro i hi
    rw [List.getElem?_map, chunks_getElem? _ _ _ i hi, numel_eq]
    rfl
  | .varlen t, ⟨rows, hr, hl⟩ =>
    refine ⟨_, by simp only [rowsOf, hr]; rfl, by simp, fun _ => ⟨by simp [hl], ?_⟩⟩
    intro i hi
    simp [rowSpec, hr, List.getElem?_map]
  | .sparse t, ⟨shape, h⟩ =>
    refine ⟨_, by simp only [rowsOf, splitSparse_ok t n shape h]; rfl, by simp, fun _ => ⟨by simp, ?_⟩⟩
    intro i hi
    simp only [rowSpec, h.dims, List.tail_cons]
    rw [← sparseRow_eq t shape i h.ne]
    simp [hi]
  | .ragged t, h =>
    obtain ⟨v, ss⟩ := t
    have hok := (RaggedBatch.ok h).1
    simp only [rowsOf, hok, Bool.not_true, Bool.false_eq_true, if_false]
    match ss, h with
    | [], h =>
      refine ⟨_, rfl, by simp, fun _ => ⟨by rw [List.length_map]; exact h, ?_⟩⟩
      intro i hi
      simp [rowSpec, List.getElem?_map]
    | [s], ⟨hs, _⟩ =>
      refine ⟨_, rfl, by simp, fun _ => ⟨by simp [raggedRows_length _ s [] n hs], ?_⟩⟩
      intro i hi
      simp only [List.getElem?_map, raggedRows_getElem? _ s [] n i hs hi]
      rfl
    | s :: s' :: rest, ⟨hs, _⟩ =>
      refine ⟨_, rfl, by simp, fun _ => ⟨by simp [raggedRows_length _ s _ n hs], ?_⟩⟩
      intro i hi
      simp only [List.getElem?_map, raggedRows_getElem? _ s _ n i hs hi]
      rfl

theorem foldl_max_eq (n : ℕ) (l : List ℕ) (h : ∀ x ∈ l, x = 0 ∨ x = n) (a : ℕ) (ha : a = 0 ∨ a = n) :
    l.foldl max a = if a = n ∨ n ∈ l then n else 0 := by
  induction l generalizing a with
  | nil =>
    simp only [List.foldl_nil, List.not_mem_nil, or_false]
    split
    · assumption
    · rcases ha with ha | ha
      · exact ha
      · contradiction
  | cons x l ih =>
    simp only [List.foldl_cons]
    have hx := h x (by simp)
    rw [ih (fun y hy => h y (by simp [hy])) (max a x) (by omega)]
    simp only [List.mem_cons]
    have hiff : (max a x = n ∨ n ∈ l) ↔ (a = n ∨ n = x ∨ n ∈ l) := by
      constructor
      · rintro (h1 | h1)
        · rcases ha with ha | ha
          · right; left; omega
          · left; exact ha
        · right; right; exact h1
      · rintro (h1 | h1 | h1)
        · left; omega
        · left; omega
        · right; exact h1
    by_cases hc : max a x = n ∨ n ∈ l
    · rw [if_pos hc, if_pos (hiff.mp hc)]
    · rw [if_neg hc, if_neg (fun hh => hc (hiff.mpr hh))]

/-! ### C13: splitting -/

theorem splitExtracts_full (keep expand : Bool) (t : Forest (Leaf α)) (ht : t.WF) (n : ℕ)
    (hb : ∀ p v, (Tree.node t).leafAt p = some v → IsBatch n v)
    (hne : ∃ p v, (Tree.node t).leafAt p = some v ∧ v ≠ .none) :
    ∃ xs, splitExtracts keep expand t = .ok xs ∧ xs.length = n ∧
      (∀ f ∈ xs, Sub (.node f) (.node t) ∧ f.WF) ∧
      ∀ i < n, ∀ p, rowLeaf xs i p = ((Tree.node t).leafAt p).bind (rowSpec keep expand i) := by
  classical
  set ls := forestLeaves [] t with hls
  have hmem : ∀ q v, (q, v) ∈ ls ↔ (Tree.node t).leafAt q = some v := by
    intro q v
    rw [hls, forestLeaves_mem [] t ht q v]
    simp
  -- the rows of the leaf at a path
  let rows : Path → List (Leaf α) := fun q => match (Tree.node t).leafAt q with
    | some v => (match rowsOf keep expand v with | .ok r => r | .error _ => [])
    | none => []
  have hrows : ∀ q v, (Tree.node t).leafAt q = some v → rowsOf keep expand v = .ok (rows q) ∧
      (v = .none → rows q = []) ∧
      (v ≠ .none → (rows q).length = n ∧ ∀ i < n, (rows q)[i]? = rowSpec keep expand i v) := by
    intro q v hv
    obtain ⟨r, h1, h2, h3⟩ := rowsOf_ok keep expand n v (hb q v hv)
    have : rows q = r := by simp only [rows, hv, h1]
    rw [this]
    exact ⟨h1, h2, h3⟩
  obtain ⟨rs, e1, s1, l1, c1⟩ := addAll_ok keep expand t rows ls
    (fun q v hq => ⟨(hmem q v).mp hq, (hrows q v ((hmem q v).mp hq)).1⟩) [] (by simp)
  have w1 : ∀ f ∈ rs, f.WF := addAll_wf keep expand ls [] rs (by simp) e1
  have hlen : rs.length = n := by
    rw [l1, foldl_max_eq n]
    · rw [if_pos]
      right
      obtain ⟨p, v, hp, hv⟩ := hne
      rw [List.mem_map]
      exact ⟨(p, v), (hmem p v).mpr hp, ((hrows p v hp).2.2 hv).1⟩
    · intro x hx
      rw [List.mem_map] at hx
      obtain ⟨⟨q, v⟩, hq, rfl⟩ := hx
      have hq' := (hmem q v).mp hq
      by_cases hv : v = .none
      · left; simp [(hrows q v hq').2.1 hv]
      · right; exact ((hrows q v hq').2.2 hv).1
    · left; rfl
  set ps := (ls.filter fun l => isNone l.2).map Prod.fst with hps
  have hpsm : ∀ q, q ∈ ps ↔ (Tree.node t).leafAt q = some .none := by
    intro q
    rw [hps, List.mem_map]
    constructor
    · rintro ⟨⟨q', v⟩, hq, rfl⟩
      rw [List.mem_filter] at hq
      have := (hmem q' v).mp hq.1
      cases v <;> simp [isNone] at hq
      exact this
    · intro hq
      exact ⟨(q, .none), by rw [List.mem_filter]; exact ⟨(hmem q _).mpr hq, rfl⟩, rfl⟩
  have hE : ∀ f ∈ rs, ∃ f', addEmpty ps f = .ok f' := fun f hf => by
    obtain ⟨f', h1, _⟩ := addEmpty_ok t ps (fun p hp => ⟨_, (hpsm p).mp hp⟩) f (s1 f hf)
    exact ⟨f', h1⟩
  obtain ⟨xs, e2, l2, g2⟩ := mapE_ok (addEmpty ps) rs hE
  refine ⟨xs, ?_, by rw [l2, hlen], ?_, ?_⟩
  · unfold splitExtracts
    simp only
    rw [← hls, e1]
    exact e2
  · intro f hf
    obtain ⟨i, hi, hfi⟩ := List.getElem_of_mem hf
    obtain ⟨y, hy, hg⟩ := g2 i (rs[i]'(by omega)) (by simp)
    have : y = f := by
      rw [List.getElem?_eq_getElem hi, hfi] at hy
      cases hy; rfl
    subst this
    have hm : rs[i]'(by omega) ∈ rs := List.getElem_mem _
    obtain ⟨f', h1, h2, _⟩ := addEmpty_ok t ps (fun p hp => ⟨_, (hpsm p).mp hp⟩) _ (s1 _ hm)
    rw [hg] at h1; cases h1
    exact ⟨h2, addEmpty_wf ps _ _ (w1 _ hm) hg⟩
  · intro i hi p
    obtain ⟨y, hy, hg⟩ := g2 i (rs[i]'(by omega)) (by simp)
    have hm : rs[i]'(by omega) ∈ rs := List.getElem_mem _
    obtain ⟨f', h1, _, h3⟩ := addEmpty_ok t ps (fun p hp => ⟨_, (hpsm p).mp hp⟩) _ (s1 _ hm)
    rw [hg] at h1; cases h1
    have hr : rowLeaf rs i p = (Tree.node (rs[i]'(by omega))).leafAt p := by
      simp [rowLeaf, hlen, hi]
    have hx : rowLeaf xs i p = (Tree.node y).leafAt p := by
      simp [rowLeaf, hy]
    rw [hx, h3 p, ← hr, c1 i p]
    cases hlf : (Tree.node t).leafAt p with
    | none =>
      rw [if_neg (by rw [hpsm, hlf]; simp), if_neg]
      · simp [rowLeaf]
      · rintro ⟨hm2, _⟩
        rw [List.mem_map] at hm2
        obtain ⟨⟨q, v⟩, hq, rfl⟩ := hm2
        rw [(hmem q v).mp hq] at hlf; cases hlf
    | some v =>
      by_cases hv : v = .none
      · subst hv
        rw [if_pos ((hpsm p).mpr hlf)]; rfl
      · rw [if_neg (by rw [hpsm, hlf]; simpa using hv)]
        obtain ⟨hl, hget⟩ := (hrows p v hlf).2.2 hv
        rw [if_pos ⟨by rw [List.mem_map]; exact ⟨(p, v), (hmem p v).mpr hlf, rfl⟩, by omega⟩, hget i hi]
        rfl

/-- **C13** (splitting): a batch of `n` rows with at least one leaf that is not None is split into exactly `n`
extracts; at every path the `i`-th one holds the `i`-th row of the leaf at that path, and nothing anywhere
else. -/
theorem C13_split (keep expand : Bool) (t : Forest (Leaf α)) (ht : t.WF) (n : ℕ)
    (hb : ∀ p v, (Tree.node t).leafAt p = some v → IsBatch n v)
    (hne : ∃ p v, (Tree.node t).leafAt p = some v ∧ v ≠ .none) :
    ∃ xs, splitExtracts keep expand t = .ok xs ∧ xs.length = n ∧
      ∀ i < n, ∀ p, rowLeaf xs i p = ((Tree.node t).leafAt p).bind (rowSpec keep expand i) := by
  obtain ⟨xs, h1, h2, _, h3⟩ := splitExtracts_full keep expand t ht n hb hne
  exact ⟨xs, h1, h2, h3⟩

/-- **C13 fails when every leaf is None**: no individual extract is produced, whatever the batch size was. -/
theorem C13_all_none_lost (keep expand : Bool) (t : Forest (Leaf α)) (ht : t.WF)
    (hn : ∀ p v, (Tree.node t).leafAt p = some v → v = .none) : splitExtracts keep expand t = .ok [] := by
  have : ∀ ls : List (Path × Leaf α), (∀ l ∈ ls, l.2 = Leaf.none) → addAll keep expand [] ls = .ok [] := by
    intro ls
    induction ls with
    | nil => intro _; rfl
    | cons l ls ih =>
      intro h
      obtain ⟨p, v⟩ := l
      have hv : v = .none := h (p, v) (by simp)
      subst hv
      unfold addAll
      simp only [rowsOf]
      exact ih fun l hl => h l (by simp [hl])
  unfold splitExtracts
  simp only
  rw [this]
  · rfl
  · rintro ⟨q, v⟩ hl
    obtain ⟨p, _, hp⟩ := (forestLeaves_mem [] t ht q v).mp hl
    exact hn p v hp

/-! ### C13: round trip -/

/-- A leaf that is restored by merging: None, an array, a variable length tensor made from rows of at least
two different lengths, a sparse tensor with its entries in row-major order, or a ragged tensor with several ragged
dimensions. -/
def Mergeable : Leaf α → Prop
  | .none => True
  | .nd _ _ => True
  | .varlen t => ∃ rows : List (List α), fromDenseRows (rows.map (Row.mk 1)) = .ok t ∧
      ∃ r ∈ rows, ∃ r' ∈ rows, r.length ≠ r'.length
  | .sparse t => t.indices.Pairwise RowMajor
  | .ragged t => 2 ≤ t.splits.length
  | .object => False

/-- The documented change of shape: with squeeze_two_dim_vector arrays of shape (n, 1) become (n,); without it
but with expand_zero_dims arrays of shape (n,) become (n, 1). -/
def reshaped (expand squeeze : Bool) : Leaf α → Leaf α
  | .nd [n, 1] d => if squeeze then .nd [n] d else .nd [n, 1] d
  | .nd [n] d => if expand && !squeeze then .nd [n, 1] d else .nd [n] d
  | v => v

theorem allNd?_map_nd (shape : List α → List ℕ) (rows : List (List α)) :
    allNd? (rows.map fun r => Leaf.nd (shape r) r) = some (rows.map fun r => (shape r, r)) := by
  induction rows with
  | nil => rfl
  | cons r rows ih => simp [allNd?, asNd?, ih]

theorem fromLoop_congr (i : ℕ) (a b : List (Row α)) (ha : ∀ r ∈ a, r.ndim ≤ 1) (hb : ∀ r ∈ b, r.ndim ≤ 1)
    (hd : a.map Row.data = b.map Row.data) : fromLoop i a = fromLoop i b := by
  induction a generalizing i b with
  | nil =>
    cases b with
    | nil => rfl
    | cons _ _ => simp at hd
  | cons x a ih =>
    cases b with
    | nil => simp at hd
    | cons y b =>
      simp only [List.map_cons, List.cons.injEq] at hd
      unfold fromLoop
      have hx := ha x (by simp)
      have hy := hb y (by simp)
      rw [if_neg (by omega), if_neg (by omega),
        ih (i + 1) b (fun r hr => ha r (by simp [hr])) (fun r hr => hb r (by simp [hr])) hd.2, hd.1]

/-- neither a sparse nor a ragged tensor. -/
def isPlain : Leaf α → Bool
  | .sparse _ => false
  | .ragged _ => false
  | _ => true

theorem mergeLeaf_plain (sq : Bool) (l : List (Leaf α)) (h : ∀ v ∈ l, isPlain v = true) : mergeLeaf sq l = mergePlain sq l := by
  unfold mergeLeaf
  rw [if_neg, if_neg]
  · simp only [List.any_eq_true, not_exists]
    rintro v ⟨hv, h1⟩
    have := h v hv
    cases v <;> simp_all [isPlain, asRagged?]
  · cases l with
    | nil => simp
    | cons v l =>
      have := h v (by simp)
      cases v <;> simp_all [isPlain]

theorem allSome_map {β γ : Type} (f : β → Option γ) (g : γ → β) (l : List γ) (h : ∀ x, f (g x) = some x) :
    allSome f (l.map g) = some l := by
  induction l with
  | nil => rfl
  | cons x l ih => simp [allSome, h, ih]

theorem mergeLeaf_sparse (sq : Bool) (l : List (Sparse α)) (hl : l ≠ []) :
    mergeLeaf sq (l.map Leaf.sparse) = (match mergeSparse l with
      | .error e => .error e
      | .ok t => .ok (.sparse t)) := by
  unfold mergeLeaf
  cases l with
  | nil => exact absurd rfl hl
  | cons x l =>
    rw [if_pos (by simp), allSome_map asSparse? Leaf.sparse (x :: l) (fun _ => rfl)]
    rfl

theorem mergeLeaf_raggeds (sq : Bool) (l : List (Ragged α)) (hl : l ≠ []) :
    mergeLeaf sq (l.map Leaf.ragged) = (match mergeRagged l with
      | .error e => .error e
      | .ok t => .ok (.ragged t)) := by
  unfold mergeLeaf
  cases l with
  | nil => exact absurd rfl hl
  | cons x l =>
    rw [if_neg (by simp), if_pos (by simp [asRagged?]), allSome_map asRagged? Leaf.ragged (x :: l) (fun _ => rfl)]
    rfl

theorem mergeLeaf_nd (sq : Bool) (s : List ℕ) (rows : List (List α)) (hne : rows ≠ []) :
    mergeLeaf sq (rows.map fun r => Leaf.nd s r) =
      .ok (if sq && decide (s = [1]) then .nd [rows.length] rows.flatten
        else .nd (rows.length :: s) rows.flatten) := by
  rw [mergeLeaf_plain sq _ (by
    intro v hv
    obtain ⟨r, _, rfl⟩ := List.mem_map.mp hv
    rfl)]
  unfold mergePlain
  rw [allNd?_map_nd (fun _ => s)]
  cases rows with
  | nil => exact absurd rfl hne
  | cons r rows =>
    simp only [List.map_cons, List.length_map]
    rw [if_neg]
    · have : ((s, r) :: rows.map fun r => (s, r)).map Prod.snd = r :: rows := by
        simp [Function.comp_def]
      simp only [List.map_cons] at this
      rw [this]
      simp only [List.length_cons]
      split <;> rfl
    · simp

theorem mergeLeaf_restores (expand squeeze : Bool) (n : ℕ) (hn : 0 < n) (v : Leaf α) (hb : IsBatch n v)
    (hm : Mergeable v) (l : List (Leaf α)) (hl : l.length = n)
    (hget : ∀ j < n, l[j]? = rowSpec false expand j v) :
    mergeLeaf squeeze l = .ok (reshaped expand squeeze v) := by
  match v, hb with
  | .none, _ =>
    have : l = List.replicate n .none := by
      apply List.ext_getElem?
      intro j
      by_cases hj : j < n
      · rw [hget j hj]; simp [rowSpec, hj]
      · rw [List.getElem?_eq_none (by omega), List.getElem?_eq_none (by simp; omega)]
    subst this
    obtain ⟨m, rfl⟩ : ∃ m, n = m + 1 := ⟨n - 1, by omega⟩
    rw [mergeLeaf_plain squeeze _ (by
      intro v hv
      rw [List.eq_of_mem_replicate hv]
      rfl)]
    unfold mergePlain
    simp only [List.replicate_succ, allNd?, asNd?]
    rw [if_pos (by simp [isNone])]
    rfl
  | .nd (m :: s) data, ⟨hmn, hd⟩ =>
    subst hmn
    set shape := if s = [] then (if expand then [1] else []) else s with hshape
    have : l = (chunks (numel s) m data).map fun r => Leaf.nd shape r := by
      apply List.ext_getElem?
      intro j
      by_cases hj : j < m
      · rw [hget j hj, List.getElem?_map, chunks_getElem? _ _ _ j hj, numel_eq]; rfl
      · rw [List.getElem?_eq_none (by omega), List.getElem?_eq_none (by simp [chunks_length]; omega)]
    subst this
    rw [mergeLeaf_nd _ _ _ (by
      intro e
      have := chunks_length (numel s) m data
      rw [e] at this; simp at this; omega)]
    rw [chunks_length, chunks_flatten, numel_eq, List.take_of_length_le (by omega)]
    congr 1
    by_cases hs0 : s = []
    · subst hs0
      rw [if_pos rfl] at hshape
      rw [hshape]
      cases expand <;> cases squeeze <;> simp [reshaped]
    · rw [if_neg hs0] at hshape
      rw [hshape]
      by_cases hs1 : s = [1]
      · subst hs1
        cases squeeze <;> simp [reshaped]
      · have : reshaped expand squeeze (.nd (m :: s) data) = .nd (m :: s) data := by
          unfold reshaped
          split
          · rename_i h; cases h; exact absurd rfl hs1
          · rename_i h; cases h; exact absurd rfl hs0
          · rfl
        rw [this]
        simp [hs1]
  | .varlen t, ⟨rows', hr', hl'⟩ =>
    obtain ⟨rows, ht, r, hr, r', hrr, hdiff⟩ := hm
    have hrt : denseRows t = .ok rows := by
      obtain ⟨t', e1, e2⟩ := C14_round_trip_partial (rows.map (Row.mk 1)) (by
        intro x hx
        rw [List.mem_map] at hx
        obtain ⟨y, _, rfl⟩ := hx
        right; exact Nat.le_refl _) (by
        by_cases h0 : r = []
        · refine ⟨Row.mk 1 r', List.mem_map_of_mem hrr, ?_⟩
          intro h1; simp only at h1; subst h1; subst h0; exact hdiff rfl
        · exact ⟨Row.mk 1 r, List.mem_map_of_mem hr, h0⟩)
      rw [ht] at e1; cases e1
      rw [e2]
      simp [Function.comp_def]
    have heq : rows' = rows := by rw [hrt] at hr'; cases hr'; rfl
    rw [heq] at hl'
    have : l = rows.map fun r => Leaf.nd [r.length] r := by
      apply List.ext_getElem?
      intro j
      by_cases hj : j < n
      · rw [hget j hj, List.getElem?_map]; simp [rowSpec, hrt]
      · rw [List.getElem?_eq_none (by omega), List.getElem?_eq_none (by simp; omega)]
    subst this
    rw [mergeLeaf_plain squeeze _ (by
      intro v hv
      obtain ⟨r, _, rfl⟩ := List.mem_map.mp hv
      rfl)]
    unfold mergePlain
    rw [allNd?_map_nd (fun r => [r.length])]
    cases rows with
    | nil => cases hr
    | cons r0 rest =>
      simp only [List.map_cons]
      rw [if_pos]
      · have hsame : fromDenseRows ((([r0.length], r0) :: rest.map fun r => ([r.length], r)).map squeezeRow) =
            fromDenseRows ((r0 :: rest).map (Row.mk 1)) := by
          unfold fromDenseRows
          rw [fromLoop_congr 0 _ ((r0 :: rest).map (Row.mk 1))]
          · intro x hx
            have hx' : x ∈ ((r0 :: rest).map fun r => (([r.length], r) : List ℕ × List α)).map squeezeRow := by
              simpa using hx
            rw [List.map_map, List.mem_map] at hx'
            obtain ⟨y, _, rfl⟩ := hx'
            simp only [Function.comp, squeezeRow]
            refine Nat.le_trans (List.length_filter_le _ _) ?_
            simp
          · intro x hx
            rw [List.mem_map] at hx
            obtain ⟨y, _, rfl⟩ := hx
            exact Nat.le_refl _
          · simp [squeezeRow, Function.comp_def]
        simp only [List.map_cons] at hsame ht
        rw [hsame, ht]
        rfl
      · rw [List.any_eq_true]
        by_contra hcon
        have hall : ∀ x ∈ r0 :: rest, x.length = r0.length := by
          intro x hx
          simp only [List.mem_cons] at hx
          rcases hx with rfl | hx
          · rfl
          · by_contra hne
            exact hcon ⟨([x.length], x), List.mem_map_of_mem hx, by simpa using hne⟩
        exact hdiff (by rw [hall r hr, hall r' hrr])
  | .sparse t, ⟨shape, h⟩ =>
    have : l = ((List.range n).map (sparseRow t shape)).map Leaf.sparse := by
      apply List.ext_getElem?
      intro j
      by_cases hj : j < n
      · rw [hget j hj]
        simp only [rowSpec, h.dims, List.tail_cons]
        rw [← sparseRow_eq t shape j h.ne]
        simp [hj]
      · rw [List.getElem?_eq_none (by omega), List.getElem?_eq_none (by simp; omega)]
    rw [this, mergeLeaf_sparse squeeze _ (by
      intro e
      have := congrArg List.length e
      simp at this; omega), mergeSparse_same t n shape h hn (hm.imp fun hab => (lexLe_iff _ _).mpr hab)]
    rfl
  | .ragged t, h =>
    obtain ⟨v, ss⟩ := t
    have hok := (RaggedBatch.ok h).1
    match ss, h, hm with
    | s :: s' :: rest, ⟨hs, _⟩, _ =>
      have : l = (raggedRows ⟨v, s :: s' :: rest⟩ s (s' :: rest)).map Leaf.ragged := by
        apply List.ext_getElem?
        intro j
        by_cases hj : j < n
        · rw [hget j hj, List.getElem?_map, raggedRows_getElem? _ s _ n j hs hj]
          rfl
        · rw [List.getElem?_eq_none (by omega), List.getElem?_eq_none (by simp [raggedRows_length _ s _ n hs]; omega)]
      rw [this, mergeLeaf_raggeds squeeze _ (by
        intro e
        have := congrArg List.length e
        rw [raggedRows_length _ s _ n hs] at this
        simp at this; omega), mergeRagged_rows v s (s' :: rest) (by simp) hok (by omega)]
      rfl

/-- **C13** (round trip).  For every batch of `n ≥ 1` rows with at least one leaf that is not None, splitting and
merging succeeds and gives at every path the original leaf, up to the documented change of shape; with
expand_zero_dims=False and squeeze_two_dim_vector=False nothing changes at all (`reshaped_false_false`).
`_partial`: batches of size 0, batches whose leaves are all None, and variable length leaves whose rows all
have the same length are not restored. -/
theorem C13_round_trip_partial (expand squeeze : Bool) (t : Forest (Leaf α)) (ht : t.WF) (n : ℕ) (hn : 0 < n)
    (hb : ∀ p v, (Tree.node t).leafAt p = some v → IsBatch n v ∧ Mergeable v)
    (hne : ∃ p v, (Tree.node t).leafAt p = some v ∧ v ≠ .none) :
    ∃ xs r, splitExtracts false expand t = .ok xs ∧ mergeExtracts squeeze xs = .ok r ∧
      ∀ p, (Tree.node r).leafAt p = ((Tree.node t).leafAt p).map (reshaped expand squeeze) := by
  obtain ⟨xs, h1, h2, h3, h4⟩ := splitExtracts_full false expand t ht n (fun p v h => (hb p v h).1) hne
  obtain ⟨target, e1, s1, c1⟩ := mergeAll_ok xs.length t xs h3 0 .nil (Sub_nil t)
  have hw := mergeAll_wf xs.length 0 .nil target (by unfold Forest.WF; trivial) xs e1
  -- rows hold a value exactly where the batch does
  have hrow : ∀ v : Leaf α, IsBatch n v → ∀ i < n, ∃ w, rowSpec false expand i v = some w := by
    intro v hv i hi
    match v, hv with
    | .none, _ => exact ⟨_, rfl⟩
    | .nd (m :: s) data, _ => exact ⟨_, rfl⟩
    | .varlen t, ⟨rows, hr, hl⟩ =>
      simp only [rowSpec, hr]
      rw [List.getElem?_eq_getElem (by omega)]
      exact ⟨_, rfl⟩
    | .sparse t, _ => exact ⟨_, rfl⟩
    | .ragged ⟨v, []⟩, h =>
      have hl : v.length = n := h
      simp only [rowSpec]
      rw [List.getElem?_eq_getElem (by omega)]
      exact ⟨_, rfl⟩
    | .ragged ⟨v, [s]⟩, _ => exact ⟨_, rfl⟩
    | .ragged ⟨v, s :: s' :: rest⟩, _ => exact ⟨_, rfl⟩
  have hlists : ∀ p v, (Tree.node t).leafAt p = some v → ∃ l, (Tree.node target).leafAt p = some l ∧
      mergeLeaf squeeze l = .ok (reshaped expand squeeze v) := by
    intro p v hp
    obtain ⟨w, hw0⟩ := hrow v (hb p v hp).1 0 hn
    have hx0 : ∃ f ∈ xs, ∃ v, (Tree.node f).leafAt p = some v := by
      have h40 := h4 0 hn p
      rw [hp] at h40
      refine ⟨xs[0]'(by omega), List.getElem_mem _, w, ?_⟩
      have : rowLeaf xs 0 p = (Tree.node (xs[0]'(by omega))).leafAt p := by
        simp [rowLeaf, h2, hn]
      rw [← this, h40]; exact hw0
    obtain ⟨l, hl1, hl2, hl3⟩ := c1 p (Or.inr hx0) (by
      intro l hl
      cases p with
      | nil => simp [Tree.leafAt_nil_node] at hl
      | cons k p => simp [Tree.leafAt_cons_node, Forest.find?] at hl) (by omega)
    refine ⟨l, hl1, mergeLeaf_restores expand squeeze n hn v (hb p v hp).1 (hb p v hp).2 l (by omega) ?_⟩
    intro j hj
    rw [hl3 j (by omega), if_pos ⟨by omega, by omega⟩, Nat.sub_zero, h4 j hj p, hp]
    obtain ⟨w', hw'⟩ := hrow v (hb p v hp).1 j hj
    simp only [Option.bind_some, hw']
  have hnone : ∀ p, (Tree.node t).leafAt p = none → (Tree.node target).leafAt p = none := by
    intro p hp
    cases e : (Tree.node target).leafAt p with
    | none => rfl
    | some l =>
      exfalso
      unfold Tree.leafAt at e
      split at e
      · rename_i a ha
        obtain ⟨y, hy, hyl⟩ := s1 p _ ha
        cases y with
        | node g => simp [Tree.isLeaf] at hyl
        | leaf b =>
          unfold Tree.leafAt at hp
          rw [hy] at hp
          cases hp
      · cases e
  obtain ⟨r, e2, c2⟩ := mergeListsItems_ok squeeze target hw (by
    intro k x hx q l hl
    have hl' : (Tree.node target).leafAt (k :: q) = some l := by
      rw [Tree.leafAt_cons_node, hx]; exact hl
    cases e : (Tree.node t).leafAt (k :: q) with
    | none => rw [hnone _ e] at hl'; cases hl'
    | some v =>
      obtain ⟨l2, h5, h6⟩ := hlists _ v e
      rw [hl'] at h5; cases h5
      exact ⟨_, h6⟩)
  refine ⟨xs, r, h1, ?_, ?_⟩
  · unfold mergeExtracts
    rw [e1]; exact e2
  · intro p
    cases p with
    | nil => rfl
    | cons k p =>
      rw [c2 k p]
      cases e : (Tree.node t).leafAt (k :: p) with
      | none => simp [hnone _ e]
      | some v =>
        obtain ⟨l2, h5, h6⟩ := hlists _ v e
        simp [h5, h6]

/-- With expand_zero_dims=False and squeeze_two_dim_vector=False the round trip is exact. -/
theorem reshaped_false_false (v : Leaf α) : reshaped false false v = v := by
  unfold reshaped
  split <;> simp

/-! ### concrete cases -/

/-- `{"f": {"x": array of shape (2,), "m": array of shape (2, 1), "v": rows [1], [2, 3]}, "w": None}` -/
def demoBatch : Forest (Leaf ℕ) :=
  .cons "f" (.node (.cons "x" (.leaf (.nd [2] [7, 8])) (.cons "m" (.leaf (.nd [2, 1] [5, 6]))
    (.cons "v" (.leaf (.varlen ⟨[1, 2, 3], [(0, 0), (1, 0), (1, 1)], [2, 2]⟩)) .nil))))
    (.cons "w" (.leaf .none) .nil)

example : splitExtracts false false demoBatch = .ok
    [.cons "f" (.node (.cons "x" (.leaf (.nd [] [7])) (.cons "m" (.leaf (.nd [1] [5]))
      (.cons "v" (.leaf (.nd [1] [1])) .nil)))) (.cons "w" (.leaf .none) .nil),
     .cons "f" (.node (.cons "x" (.leaf (.nd [] [8])) (.cons "m" (.leaf (.nd [1] [6]))
      (.cons "v" (.leaf (.nd [2] [2, 3])) .nil)))) (.cons "w" (.leaf .none) .nil)] := by
  rfl

/-- it comes back unchanged (the order of the keys is also the same here). -/
example : ∃ xs, splitExtracts false false demoBatch = .ok xs ∧ mergeExtracts false xs = .ok demoBatch :=
  ⟨_, rfl, rfl⟩

/-- with the default options the array of shape (2, 1) is flattened. -/
example : ∃ xs r, splitExtracts false true demoBatch = .ok xs ∧ mergeExtracts true xs = .ok r ∧
    (Tree.node r).leafAt ["f", "m"] = some (.nd [2] [5, 6]) := ⟨_, _, rfl, rfl, rfl⟩

/-- **C13 fails for a variable length leaf whose rows have equal lengths**: it comes back as a dense array. -/
theorem C13_equal_length_rows_become_dense :
    ∃ (t : Forest (Leaf ℕ)) (xs : List (Forest (Leaf ℕ))) (r : Forest (Leaf ℕ)),
      splitExtracts false false t = .ok xs ∧ mergeExtracts false xs = .ok r ∧
      (Tree.node t).leafAt ["v"] = some (.varlen ⟨[1, 2], [(0, 0), (1, 0)], [2, 1]⟩) ∧
      (Tree.node r).leafAt ["v"] = some (.nd [2, 1] [1, 2]) :=
  ⟨.cons "v" (.leaf (.varlen ⟨[1, 2], [(0, 0), (1, 0)], [2, 1]⟩)) .nil, _, _, rfl, rfl, rfl, rfl⟩

/-- **C13 fails for a variable length leaf without values** next to other leaves: the leaf disappears. -/
theorem C13_empty_rows_lost :
    ∃ (t : Forest (Leaf ℕ)) (xs : List (Forest (Leaf ℕ))),
      splitExtracts false false t = .ok xs ∧ xs.length = 2 ∧
      (Tree.node t).leafAt ["v"] = some (.varlen ⟨[], [], [2, 0]⟩) ∧
      (∀ i < 2, rowLeaf xs i ["v"] = none) ∧ (∀ i < 2, (rowLeaf xs i ["x"]).isSome) := by
  refine ⟨.cons "v" (.leaf (.varlen ⟨[], [], [2, 0]⟩)) (.cons "x" (.leaf (.nd [2] [7, 8])) .nil), _, rfl, rfl, rfl,
    ?_, ?_⟩
  all_goals
    intro i hi
    have : i = 0 ∨ i = 1 := by omega
    rcases this with rfl | rfl <;> rfl

/-! ### sparse and ragged leaves -/

/-- A ragged tensor read as nested lists. -/
inductive Nested (α : Type) where
  | cell (a : α)
  | list (l : List (Nested α))

/-- The rows of a ragged tensor as nested lists. -/
def nested (v : List α) : List (List ℕ) → List (Nested α)
  | [] => v.map .cell
  | s :: rest => (List.range (s.length - 1)).map fun i =>
      .list (((nested v rest).take (s.getD (i + 1) 0)).drop (s.getD i 0))

theorem nested_length (v : List α) (ss : List (List ℕ)) : (nested v ss).length = nrows v ss := by
  cases ss with
  | nil => simp [nested, nrows]
  | cons s rest => simp [nested, nrows]

theorem nested_slice (v : List α) (ss : List (List ℕ)) (a b : ℕ) (hab : a ≤ b) (hb : b ≤ nrows v ss)
    (hok : raggedOk v ss = true) :
    nested (sliceR v ss a b).values (sliceR v ss a b).splits = ((nested v ss).take b).drop a := by
  induction ss generalizing a b with
  | nil => simp [sliceR, nested, List.map_take, List.map_drop]
  | cons s rest ih =>
    obtain ⟨hs, hr⟩ := (raggedOk_cons v s rest).mp hok
    have hp := hs.pos
    have hb' : b ≤ s.length - 1 := hb
    have hbl : b < s.length := by omega
    have hm := hs.mono a b hab hbl
    have hl := hs.le b hbl
    simp only [sliceR, nested]
    rw [ih _ _ hm hl hr]
    have hlen : (((s.take (b + 1)).drop a).map (· - s.getD a 0)).length - 1 = b - a := by
      simp only [List.length_map, List.length_drop, List.length_take]; omega
    rw [hlen]
    apply List.ext_getElem?
    intro i
    by_cases hi : i < b - a
    · rw [List.getElem?_drop, List.getElem?_take_of_lt (by omega)]
      simp only [List.getElem?_map]
      rw [List.getElem?_range hi, List.getElem?_range (by omega)]
      simp only [Option.map_some, Option.some.injEq, Nested.list.injEq]
      rw [getD_slice s a b _ (i + 1) hbl (by omega), getD_slice s a b _ i hbl (by omega)]
      have h1 := hs.mono a (a + i) (by omega) (by omega)
      have h2 := hs.mono (a + i) (a + (i + 1)) (by omega) (by omega)
      have h3 := hs.mono (a + (i + 1)) b (by omega) (by omega)
      rw [show a + i + 1 = a + (i + 1) by omega]
      generalize nested v rest = L
      generalize s.getD a 0 = x at *
      generalize s.getD b 0 = y at *
      generalize s.getD (a + i) 0 = p at *
      generalize s.getD (a + (i + 1)) 0 = q at *
      apply List.ext_getElem?
      intro k
      simp only [List.getElem?_drop, List.getElem?_take]
      by_cases hk : p + k < q
      · rw [if_pos (by omega), if_pos (by omega), if_pos hk]
        congr 1; omega
      · rw [if_neg (by omega), if_neg hk]
    · rw [List.getElem?_eq_none (by simp; omega), List.getElem?_eq_none (by simp; omega)]

/-- **C13** (ragged rows).  For every ragged batch with several ragged dimensions, row `i` is stored as a ragged tensor whose
nested lists are those of item `i` of the batch. -/
theorem C13_ragged_rows (keep expand : Bool) (t : Ragged α) (n i : ℕ) (ht : RaggedBatch t.values t.splits n) (hi : i < n)
    (hd : 2 ≤ t.splits.length) :
    ∃ r, rowSpec keep expand i (.ragged t) = some (.ragged r) ∧
      (nested t.values t.splits)[i]? = some (.list (nested r.values r.splits)) := by
  obtain ⟨v, ss⟩ := t
  match ss, ht, hd with
  | s :: s' :: rest, ⟨hs, m, h1, h2⟩, _ =>
    refine ⟨_, rfl, ?_⟩
    obtain ⟨hok, hm⟩ := h2.ok
    rw [nested_slice v (s' :: rest) _ _ (h1.mono i (i + 1) (by omega) (by omega)) (by
      rw [hm]; exact h1.le (i + 1) (by omega)) hok]
    simp only [nested, List.getElem?_map]
    rw [List.getElem?_range (by omega)]
    rfl

/-- **C13** (order of sparse entries).  Splitting and merging a sparse batch whose entries are in any order gives the same
entries and the same shape, with the entries in row-major order. -/
theorem C13_sparse_any_order (keep expand squeeze : Bool) (t : Sparse α) (n : ℕ) (shape : List ℕ) (ht : SparseBatch t n shape)
    (hn : 0 < n) :
    ∃ rows r, rowsOf keep expand (.sparse t) = .ok rows ∧ mergeLeaf squeeze rows = .ok (.sparse r) ∧
      r.denseShape = t.denseShape ∧ r.indices.length = r.values.length ∧
      (r.indices.zip r.values).Perm (t.indices.zip t.values) ∧ r.indices.Pairwise RowMajor := by
  obtain ⟨r, h1, h2, h3, h4, h5⟩ := mergeSparse_perm t n shape ht hn
  refine ⟨((List.range n).map (sparseRow t shape)).map Leaf.sparse, r, ?_, ?_, h2, h4, h3, h5.imp fun hab => (lexLe_iff _ _).mp hab⟩
  · simp only [rowsOf, splitSparse_ok t n shape ht]
  · rw [mergeLeaf_sparse squeeze _ (by
      intro e
      have := congrArg List.length e
      simp at this; omega), h1]

/-- **C13 fails for sparse values that some examples lack**, in a way that depends on the order of the examples: the batch cannot
be merged if the first example has the value, and the value becomes an array of objects if the first example lacks it. -/
theorem C13_sparse_missing (squeeze : Bool) (t : Sparse α) (k : String) :
    mergeExtracts squeeze [.cons k (.leaf (.sparse t)) .nil, .nil] = .error .runtimeError ∧
    mergeExtracts squeeze [.nil, .cons k (.leaf (.sparse t)) .nil] = .ok (.cons k (.leaf .object) .nil) := by
  constructor <;> simp [mergeExtracts, mergeAll, mergeItems, mergeTree, Forest.find?, Forest.set, mergeListsItems, mergeListsTree,
    mergeLeaf, mergePlain, allSome, asSparse?, asRagged?, allNd?, asNd?, isNone]

/-- a sparse batch of two rows of shape (2, 3) and a ragged batch `[[[1], []], [[2, 3]]]`. -/
def demoTensors : Forest (Leaf ℕ) :=
  .cons "s" (.leaf (.sparse ⟨[10, 20, 30], [[0, 0, 2], [1, 0, 0], [1, 1, 1]], [2, 2, 3]⟩))
    (.cons "r" (.leaf (.ragged ⟨[1, 2, 3], [[0, 2, 3], [0, 1, 1, 3]]⟩)) .nil)

example : splitExtracts true true demoTensors = .ok
    [.cons "s" (.leaf (.sparse ⟨[10], [[0, 2]], [2, 3]⟩)) (.cons "r" (.leaf (.ragged ⟨[1], [[0, 1, 1]]⟩)) .nil),
     .cons "s" (.leaf (.sparse ⟨[20, 30], [[0, 0], [1, 1]], [2, 3]⟩)) (.cons "r" (.leaf (.ragged ⟨[2, 3], [[0, 2]]⟩)) .nil)] := by
  rfl

example : ∃ xs, splitExtracts false true demoTensors = .ok xs ∧ mergeExtracts true xs = .ok demoTensors := ⟨_, rfl, rfl⟩

example : IsBatch 2 (.sparse (⟨[10, 20, 30], [[0, 0, 2], [1, 0, 0], [1, 1, 1]], [2, 2, 3]⟩ : Sparse ℕ)) :=
  ⟨[2, 3], rfl, rfl, by decide, by decide⟩

example : IsBatch 2 (.ragged (⟨[1, 2, 3], [[0, 2, 3], [0, 1, 1, 3]]⟩ : Ragged ℕ)) :=
  ⟨rfl, 3, (splitsOk_iff _ _).mp rfl, rfl, 3, (splitsOk_iff _ _).mp rfl, rfl⟩

/-- **C13 fails for a sparse tensor whose entries are not in row-major order**: they are sorted. -/
theorem C13_sparse_sorted :
    ∃ (t : Forest (Leaf ℕ)) (xs : List (Forest (Leaf ℕ))) (r : Forest (Leaf ℕ)),
      splitExtracts false false t = .ok xs ∧ mergeExtracts false xs = .ok r ∧
      (Tree.node t).leafAt ["s"] = some (.sparse ⟨[7, 8], [[1, 0], [0, 0]], [2, 1]⟩) ∧
      (Tree.node r).leafAt ["s"] = some (.sparse ⟨[8, 7], [[0, 0], [1, 0]], [2, 1]⟩) :=
  ⟨.cons "s" (.leaf (.sparse ⟨[7, 8], [[1, 0], [0, 0]], [2, 1]⟩)) .nil, _, _, rfl, rfl, rfl, rfl⟩

end Extracts
end TFMA
