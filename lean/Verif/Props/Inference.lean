import Verif.Model.Extraction
import Verif.Props.Extracts
import Verif.Py.DictLemmas

/-!
# C99: predicting a batch at once or row by row, and C100: unbatching
-/

namespace TFMA
namespace Extraction

open Extracts (Leaf IsBatch rowSpec rowLeaf splitExtracts)

variable {α : Type}

/-! ### Batch sizes -/

/-- A batch of `n` rows that is None, an array or a variable length tensor. -/
def ArrayBatch (n : ℕ) : Leaf α → Prop
  | .none => True
  | .nd (m :: s) data => m = n ∧ data.length = n * s.prod
  | .varlen t => ∃ rows, VarLen.denseRows t = .ok rows ∧ rows.length = n
  | _ => False

theorem ArrayBatch.batch {n : ℕ} {v : Leaf α} (h : ArrayBatch n v) : IsBatch n v := by
  match v, h with
  | .none, _ => trivial
  | .nd (_ :: _) _, h => exact h
  | .varlen _, h => exact h

theorem leafSize_batch {n : ℕ} (hn : 0 < n) (v : Leaf α) (h : ArrayBatch n v) (hv : v ≠ .none) : leafSize v = some n := by
  match v, h with
  | .none, _ => exact absurd rfl hv
  | .nd (m :: s) data, h => simp [leafSize, h.1]
  | .varlen t, ⟨rows, hr, hl⟩ =>
    unfold VarLen.denseRows at hr
    split at hr
    · cases hr
      simp at hl
      omega
    · have hlen : ∀ k o rs, VarLen.denseRowsFrom t o k = .ok rs → rs.length = k := by
        intro k
        induction k with
        | zero => intro o rs h; cases h; rfl
        | succ k ih =>
          intro o rs h
          unfold VarLen.denseRowsFrom at h
          cases h1 : VarLen.denseRow t o with
          | error e => rw [h1] at h; cases h
          | ok r =>
            rw [h1] at h
            cases h2 : VarLen.denseRowsFrom t (o + 1) k with
            | error e => rw [h2] at h; cases h
            | ok rs' =>
              rw [h2] at h
              cases h
              simp [ih _ _ h2]
      have := hlen _ _ _ hr
      show some (t.denseShape.headD 0) = some n
      rw [← this, hl]

mutual
theorem batchSize_batch {n : ℕ} (hn : 0 < n) (t : Tree (Leaf α)) (hw : t.WF)
    (hb : ∀ p v, t.leafAt p = some v → ArrayBatch n v) :
    ∃ r, batchSize t = .ok r ∧ (r = none ∨ r = some n) ∧ ((∃ p v, t.leafAt p = some v ∧ v ≠ .none) → r = some n) := by
  match t with
  | .leaf v =>
    by_cases hv : v = .none
    · refine ⟨none, by simp [batchSize, leafSize, hv], Or.inl rfl, ?_⟩
      rintro ⟨p, w, hp, hw⟩
      cases p with
      | nil => cases hp; exact absurd hv hw
      | cons k p => cases hp
    · exact ⟨some n, by simp [batchSize, leafSize_batch hn v (hb [] v rfl) hv], Or.inr rfl, fun _ => rfl⟩
  | .node f =>
    obtain ⟨r, h1, h2, h3⟩ := batchSizes_batch hn f hw hb none (Or.inl rfl)
    exact ⟨r, by simpa [batchSize] using h1, h2, fun h => h3 (Or.inr h)⟩

theorem batchSizes_batch {n : ℕ} (hn : 0 < n) (f : Forest (Leaf α)) (hw : f.WF)
    (hb : ∀ p v, (Tree.node f).leafAt p = some v → ArrayBatch n v) (acc : Option ℕ) (ha : acc = none ∨ acc = some n) :
    ∃ r, batchSizes f acc = .ok r ∧ (r = none ∨ r = some n) ∧
      (acc = some n ∨ (∃ p v, (Tree.node f).leafAt p = some v ∧ v ≠ .none) → r = some n) := by
  match f with
  | .nil =>
    refine ⟨acc, rfl, ha, ?_⟩
    rintro (h | ⟨p, v, h, _⟩)
    · exact h
    · cases p <;> simp [Tree.leafAt, Tree.at?, Forest.find?] at h
  | .cons k t rest =>
    obtain ⟨hk, hwt, hwr⟩ := hw
    have hrest : ∀ p v, (Tree.node rest).leafAt p = some v → (Tree.node (.cons k t rest)).leafAt p = some v := by
      intro p v h
      cases p with
      | nil => cases h
      | cons k2 p =>
        have hne : k ≠ k2 := by
          rintro rfl
          rw [Tree.leafAt_cons_node, (Forest.find?_eq_none_iff _ _).mpr hk] at h
          cases h
        rw [Tree.leafAt_cons_node] at h ⊢
        simpa [Forest.find?, hne] using h
    have hthis : ∀ p v, t.leafAt p = some v → (Tree.node (.cons k t rest)).leafAt (k :: p) = some v := by
      intro p v h
      rw [Tree.leafAt_cons_node]
      simpa [Forest.find?] using h
    obtain ⟨r, h1, h2, h3⟩ := batchSize_batch hn t hwt (fun p v h => hb _ v (hthis p v h))
    have hc : ∃ r', combineSizes acc r = .ok r' ∧ (r' = none ∨ r' = some n) ∧ (acc = some n ∨ r = some n → r' = some n) := by
      rcases ha with rfl | rfl <;> rcases h2 with rfl | rfl
      · exact ⟨none, rfl, Or.inl rfl, by simp⟩
      · exact ⟨some n, rfl, Or.inr rfl, by simp⟩
      · exact ⟨some n, rfl, Or.inr rfl, by simp⟩
      · exact ⟨some n, by simp [combineSizes], Or.inr rfl, by simp⟩
    obtain ⟨r', hr', h4, h5⟩ := hc
    obtain ⟨r2, h6, h7, h8⟩ := batchSizes_batch hn rest hwr (fun p v h => hb p v (hrest p v h)) r' h4
    refine ⟨r2, by simp [batchSizes, h1, hr', h6], h7, ?_⟩
    rintro (h | ⟨p, v, hp, hv⟩)
    · exact h8 (Or.inl (h5 (Or.inl h)))
    · cases p with
      | nil => cases hp
      | cons k2 p =>
        by_cases hk2 : k = k2
        · subst hk2
          rw [Tree.leafAt_cons_node] at hp
          exact h8 (Or.inl (h5 (Or.inr (h3 ⟨p, v, by simpa [Forest.find?] using hp, hv⟩))))
        · refine h8 (Or.inr ⟨k2 :: p, v, ?_, hv⟩)
          rw [Tree.leafAt_cons_node] at hp ⊢
          simpa [Forest.find?, hk2] using hp
end

/-! ### C99 -/

/-- A model that treats every row on its own: the output for row `i` alone, and row `i` of the output for a batch (if
there is one with as many rows), is `row i`, an array of shape `s`. -/
structure RowWise (call : Forest (Leaf α) → Except Err (Leaf α)) (t : Forest (Leaf α)) (n : ℕ) (s : List ℕ)
    (row : ℕ → List α) : Prop where
  length : ∀ i < n, (row i).length = s.prod
  batch : ∀ s' data, call t = .ok (.nd (n :: s') data) → s' = s ∧ data = ((List.range n).map row).flatten
  single : ∀ xs, splitExtracts true true t = .ok xs → ∀ i x, xs[i]? = some x → call x = .ok (.nd (1 :: s) (row i))

/-- Individual extracts of several batches, one batch after the other. -/
def unbatchAll : List (Forest (Leaf α)) → Except Err (List (Forest (Leaf α)))
  | [] => .ok []
  | b :: bs => match splitExtracts false true b with
    | .error e => .error e
    | .ok xs => match unbatchAll bs with
      | .error e => .error e
      | .ok ys => .ok (xs ++ ys)

private theorem block_of_flatten (row : ℕ → List α) (m n : ℕ) (h : ∀ i < n, (row i).length = m) (i : ℕ) (hi : i < n) :
    ((((List.range n).map row).flatten).drop (i * m)).take m = row i := by
  induction n generalizing i row with
  | zero => omega
  | succ n ih =>
    rw [List.range_succ_eq_map, List.map_cons, List.map_map, List.flatten_cons]
    have h0 := h 0 (by omega)
    cases i with
    | zero =>
      rw [Nat.zero_mul, List.drop_zero]
      rw [List.take_append_of_le_length (by omega), List.take_of_length_le (by omega)]
    | succ i =>
      have : (i + 1) * m = (row 0).length + i * m := by rw [h0, Nat.succ_mul, Nat.add_comm]
      rw [this, List.drop_append, List.drop_of_length_le (by omega), List.nil_append, Nat.add_sub_cancel_left]
      exact ih (row ∘ Nat.succ) (fun j hj => h (j + 1) (by omega)) i (by omega)

private theorem length_flatten (row : ℕ → List α) (m n : ℕ) (h : ∀ i < n, (row i).length = m) :
    (((List.range n).map row).flatten).length = n * m := by
  induction n with
  | zero => simp
  | succ n ih =>
    rw [List.range_succ, List.map_append, List.flatten_append, List.length_append, ih fun i hi => h i (by omega)]
    simp [h n (by omega), Nat.succ_mul]

private theorem leafAt_setLeaf (t : Forest (Leaf α)) (key : String) (v : Leaf α) (p : Path) :
    (Tree.node (t.set key (.leaf v))).leafAt p =
      if p = [key] then some v else if p.head? = some key then none else (Tree.node t).leafAt p := by
  cases p with
  | nil => simp [Tree.leafAt_nil_node]
  | cons k q =>
    rw [leafAt_set]
    by_cases hk : key = k
    · subst hk
      cases q with
      | nil => simp [Tree.leafAt_nil_leaf]
      | cons k2 q => simp [Tree.leafAt_cons_leaf]
    · rw [if_neg hk, if_neg (by simp only [List.cons.injEq, not_and]; intro h; exact absurd h.symm hk),
        if_neg (by simpa using fun h : k = key => hk h.symm)]

/-- the `i`-th row of the `i`-th row. -/
private theorem rowSpec_row (n i : ℕ) (hi : i < n) (v : Leaf α) (hv : ArrayBatch n v) :
    ∃ w, rowSpec true true i v = some w ∧ ArrayBatch 1 w ∧ rowSpec false true 0 w = rowSpec false true i v := by
  match v, hv with
  | .none, _ => exact ⟨.none, rfl, trivial, rfl⟩
  | .nd (m :: s) data, ⟨hm, hd⟩ =>
    subst hm
    have hlen : ((data.drop (i * s.prod)).take s.prod).length = s.prod := by
      rw [List.length_take, List.length_drop, hd]
      have : i * s.prod + s.prod ≤ m * s.prod := by
        rw [← Nat.succ_mul]; exact Nat.mul_le_mul_right _ hi
      omega
    refine ⟨_, rfl, ?_, ?_⟩
    · refine ⟨rfl, ?_⟩
      rw [hlen]
      by_cases hs : s = [] <;> simp [hs]
    · by_cases hs : s = []
      · subst hs
        simp only [List.prod_nil] at hlen
        simp [rowSpec]
      · simp only [rowSpec, hs, if_false, if_true]
        rw [Nat.zero_mul, List.drop_zero, List.take_take, Nat.min_self]
  | .varlen t, ⟨rows, hr, hl⟩ =>
    have : i < rows.length := by omega
    refine ⟨.nd [1, rows[i].length] rows[i], ?_, ?_, ?_⟩
    · simp [rowSpec, hr, this]
    · exact ⟨rfl, by simp⟩
    · simp [rowSpec, hr, this]

private theorem split_set (t : Forest (Leaf α)) (hw : t.WF) (n : ℕ)
    (hb : ∀ p v, (Tree.node t).leafAt p = some v → ArrayBatch n v) (key : String) (s : List ℕ) (data : List α)
    (hd : data.length = n * s.prod) :
    ∃ ys, splitExtracts false true (t.set key (.leaf (.nd (n :: s) data))) = .ok ys ∧ ys.length = n ∧
      ∀ i < n, ∀ p, rowLeaf ys i p = if p = [key] then
          some (.nd (if s = [] then [1] else s) ((data.drop (i * s.prod)).take s.prod))
        else if p.head? = some key then none else ((Tree.node t).leafAt p).bind (rowSpec false true i) := by
  obtain ⟨ys, h1, h2, h3⟩ := Extracts.C13_split false true (t.set key (.leaf (.nd (n :: s) data)))
    (Forest.WF_set hw (by trivial)) n
    (by
      intro p v h
      rw [leafAt_setLeaf] at h
      split at h
      · cases h; exact ⟨rfl, hd⟩
      · split at h
        · cases h
        · exact (hb p v h).batch)
    ⟨[key], .nd (n :: s) data, by rw [leafAt_setLeaf, if_pos rfl], by simp⟩
  refine ⟨ys, h1, h2, fun i hi p => ?_⟩
  rw [h3 i hi p, leafAt_setLeaf]
  by_cases hp : p = [key]
  · rw [if_pos hp, if_pos hp]
    simp [rowSpec]
  · rw [if_neg hp, if_neg hp]
    by_cases hp2 : p.head? = some key
    · rw [if_pos hp2, if_pos hp2]; rfl
    · rw [if_neg hp2, if_neg hp2]

/-- The expected individual extract `i`: the row of every value, and the prediction for that row. -/
def predicted (t : Forest (Leaf α)) (key : String) (s : List ℕ) (row : ℕ → List α) (i : ℕ) (p : Path) : Option (Leaf α) :=
  if p = [key] then some (.nd (if s = [] then [1] else s) (row i))
  else if p.head? = some key then none else ((Tree.node t).leafAt p).bind (rowSpec false true i)

private theorem serially_unbatch (f : Forest (Leaf α) → Except Err (Forest (Leaf α))) (xs : List (Forest (Leaf α)))
    (want : ℕ → Path → Option (Leaf α)) (o : ℕ)
    (h : ∀ i x, xs[i]? = some x → ∃ y z, f x = .ok y ∧ splitExtracts false true y = .ok [z] ∧
      ∀ p, (Tree.node z).leafAt p = want (o + i) p) :
    ∃ rs ys, serially f xs = .ok rs ∧ unbatchAll rs = .ok ys ∧ ys.length = xs.length ∧
      ∀ i < xs.length, ∀ p, rowLeaf ys i p = want (o + i) p := by
  induction xs generalizing o with
  | nil => exact ⟨[], [], rfl, rfl, rfl, by simp⟩
  | cons x xs ih =>
    obtain ⟨y, z, h1, h2, h3⟩ := h 0 x rfl
    obtain ⟨rs, ys, h4, h5, h6, h7⟩ := ih (o + 1) (fun i x hx => by
      obtain ⟨y, z, h1, h2, h3⟩ := h (i + 1) x (by simpa using hx)
      exact ⟨y, z, h1, h2, by intro p; rw [h3 p]; congr 1; omega⟩)
    refine ⟨y :: rs, z :: ys, by simp [serially, h1, h4], by simp [unbatchAll, h2, h5], by simp [h6], ?_⟩
    intro i hi p
    cases i with
    | zero => simpa [rowLeaf] using h3 p
    | succ i =>
      have := h7 i (by simpa using hi) p
      simp only [rowLeaf, List.getElem?_cons_succ] at this ⊢
      rw [this]; congr 1; omega

private theorem serial_rows (call : Forest (Leaf α) → Except Err (Leaf α)) (key : String) (t : Forest (Leaf α))
    (hw : t.WF) (n : ℕ) (hn : 0 < n) (hb : ∀ p v, (Tree.node t).leafAt p = some v → ArrayBatch n v)
    (hne : ∃ p v, (Tree.node t).leafAt p = some v ∧ v ≠ .none) (s : List ℕ) (row : ℕ → List α)
    (hr : RowWise call t n s row) (xs : List (Forest (Leaf α))) (hxs : splitExtracts true true t = .ok xs) :
    ∃ rs ys, serially (predictWith call key) xs = .ok rs ∧ unbatchAll rs = .ok ys ∧ ys.length = n ∧
      ∀ i < n, ∀ p, rowLeaf ys i p = predicted t key s row i p := by
  obtain ⟨xs', h1, h2, h3, h4⟩ := Extracts.splitExtracts_full true true t hw n (fun p v h => (hb p v h).batch) hne
  obtain rfl : xs' = xs := by rw [hxs] at h1; cases h1; rfl
  obtain ⟨rs', ys, h5, h6, h7, h8⟩ := serially_unbatch (predictWith call key) xs' (predicted t key s row) 0 (by
      intro i x hx
      have hi : i < n := by
        rw [← h2]
        exact (List.getElem?_eq_some_iff.mp hx).1
      have hleaf : ∀ p, (Tree.node x).leafAt p = ((Tree.node t).leafAt p).bind (rowSpec true true i) := by
        intro p
        have := h4 i hi p
        rwa [rowLeaf, hx] at this
      have hwx : x.WF := (h3 x (List.mem_of_getElem? hx)).2
      have hb1 : ∀ p v, (Tree.node x).leafAt p = some v → ArrayBatch 1 v := by
        intro p v hv
        rw [hleaf p] at hv
        cases ht : (Tree.node t).leafAt p with
        | none => rw [ht] at hv; cases hv
        | some v' =>
          rw [ht] at hv
          obtain ⟨w, hw1, hw2, _⟩ := rowSpec_row n i hi v' (hb p v' ht)
          have : some w = some v := by rw [← hw1]; exact hv
          cases this
          exact hw2
      have hne1 : ∃ p v, (Tree.node x).leafAt p = some v ∧ v ≠ .none := by
        obtain ⟨p, v, hp, hv⟩ := hne
        have hx := hleaf p
        rw [hp] at hx
        match v, hb p v hp with
        | .none, _ => exact absurd rfl hv
        | .nd (m :: s) data, _ => exact ⟨p, _, hx, by simp⟩
        | .varlen t', ⟨rows, hr1, hl⟩ =>
          have : i < rows.length := by omega
          refine ⟨p, .nd [1, rows[i].length] rows[i], ?_, by simp⟩
          rw [hx]
          simp [rowSpec, hr1, this]
      have hsz1 : batchSize (.node x) = .ok (some 1) := by
        obtain ⟨r, hbs, _, hsome⟩ := batchSize_batch (by omega : 0 < 1) (.node x) hwx hb1
        rw [hbs, hsome hne1]
      have hcall := hr.single xs' h1 i x hx
      obtain ⟨zs, hz1, hz2, hz3⟩ := split_set x hwx 1 hb1 key s (row i) (by rw [hr.length i hi, Nat.one_mul])
      obtain ⟨z, rfl⟩ := List.length_eq_one_iff.mp hz2
      refine ⟨_, z, ?_, hz1, ?_⟩
      · unfold predictWith
        simp [hsz1, hcall, checkShape]
      · intro p
        have := hz3 0 (by omega) p
        simp only [rowLeaf, List.getElem?_cons_zero, Option.bind_some] at this
        rw [this, Nat.zero_mul, List.drop_zero, Nat.zero_add, List.take_of_length_le (by rw [hr.length i hi])]
        unfold predicted
        split
        · rfl
        · split
          · rfl
          · rw [hleaf p]
            cases ht : (Tree.node t).leafAt p with
            | none => rfl
            | some v =>
              obtain ⟨w, hw1, _, hw3⟩ := rowSpec_row n i hi v (hb p v ht)
              simp only [Option.bind_some]
              rw [hw1]
              exact hw3)
  refine ⟨rs', ys, h5, h6, by rw [h7, h2], fun i hi p => ?_⟩
  rw [h8 i (by rw [h2]; exact hi) p, Nat.zero_add]

/-- **C99** Whether a batch is predicted at once or, after a failure, row by row: every example gets the prediction for
its own row and keeps its other values, for models that treat rows on their own. -/
theorem C99_rows (call : Forest (Leaf α) → Except Err (Leaf α)) (key : String) (t : Forest (Leaf α)) (hw : t.WF) (n : ℕ)
    (hn : 0 < n) (hb : ∀ p v, (Tree.node t).leafAt p = some v → ArrayBatch n v)
    (hne : ∃ p v, (Tree.node t).leafAt p = some v ∧ v ≠ .none) (s : List ℕ) (row : ℕ → List α)
    (hr : RowWise call t n s row) (rs : List (Forest (Leaf α))) (h : process (predictWith call key) t = .ok rs) :
    ∃ ys, unbatchAll rs = .ok ys ∧ ys.length = n ∧ ∀ i < n, ∀ p, rowLeaf ys i p = predicted t key s row i p := by
  obtain ⟨r, hbs, _, hsome⟩ := batchSize_batch hn (.node t) hw hb
  have hsz : batchSize (.node t) = .ok (some n) := by rw [hbs, hsome hne]
  unfold process at h
  rw [hsz] at h
  simp only at h
  cases hf : predictWith call key t with
  | ok y =>
    rw [hf] at h
    cases h
    unfold predictWith at hf
    rw [hsz] at hf
    simp only at hf
    cases hc : call t with
    | error e => rw [hc] at hf; cases hf
    | ok out =>
      rw [hc] at hf
      simp only at hf
      cases hck : checkShape (some n) out with
      | error e => rw [hck] at hf; cases hf
      | ok u =>
        rw [hck] at hf
        cases hf
        unfold checkShape at hck
        split at hck
        · rename_i m s' data
          split at hck
          · rename_i hm
            cases hm
            obtain ⟨rfl, rfl⟩ := hr.batch s' data hc
            obtain ⟨ys, h1, h2, h3⟩ := split_set t hw n hb key s' _ (length_flatten row s'.prod n hr.length)
            refine ⟨ys, by simp [unbatchAll, h1], h2, fun i hi p => ?_⟩
            rw [h3 i hi p, block_of_flatten row s'.prod n hr.length i hi]
            rfl
          · cases hck
        · cases hck
  | error e =>
    rw [hf] at h
    simp only at h
    split at h
    · obtain ⟨xs, h1, _⟩ := Extracts.splitExtracts_full true true t hw n (fun p v h => (hb p v h).batch) hne
      rw [h1] at h
      simp only at h
      obtain ⟨rs', ys, h5, h6, h7, h8⟩ := serial_rows call key t hw n hn hb hne s row hr xs h1
      rw [h5] at h
      cases h
      exact ⟨ys, h6, h7, h8⟩
    · cases h

/-- **C99** (no failure is passed on): if the model fails on the batch with an error of TensorFlow or a ValueError, or
returns an array without one row for every example, the rows are predicted one by one and that succeeds. -/
theorem C99_retried (call : Forest (Leaf α) → Except Err (Leaf α)) (key : String) (t : Forest (Leaf α)) (hw : t.WF) (n : ℕ)
    (hn : 0 < n) (hb : ∀ p v, (Tree.node t).leafAt p = some v → ArrayBatch n v)
    (hne : ∃ p v, (Tree.node t).leafAt p = some v ∧ v ≠ .none) (s : List ℕ) (row : ℕ → List α)
    (hr : RowWise call t n s row)
    (hcall : (∃ e, call t = .error e ∧ (e = .valueError ∨ e = .runtimeError)) ∨ ∃ m s' data, call t = .ok (.nd (m :: s') data)) :
    ∃ rs, process (predictWith call key) t = .ok rs := by
  obtain ⟨r, hbs, _, hsome⟩ := batchSize_batch hn (.node t) hw hb
  have hsz : batchSize (.node t) = .ok (some n) := by rw [hbs, hsome hne]
  obtain ⟨xs, h1, _⟩ := Extracts.splitExtracts_full true true t hw n (fun p v h => (hb p v h).batch) hne
  obtain ⟨rs, ys, h2, _⟩ := serial_rows call key t hw n hn hb hne s row hr xs h1
  unfold process
  rw [hsz]
  simp only
  have hretry : ∀ e, predictWith call key t = .error e → retried e = true → ∃ rs, (match predictWith call key t with
      | .ok r => .ok [r]
      | .error e => if retried e then match splitExtracts true true t with
          | .error e => .error e
          | .ok xs => serially (predictWith call key) xs
        else .error e : Except Err (List (Forest (Leaf α)))) = .ok rs := by
    intro e he hre
    exact ⟨rs, by simp [he, hre, h1, h2]⟩
  rcases hcall with ⟨e, hc, he⟩ | ⟨m, s', data, hc⟩
  · refine hretry e (by simp [predictWith, hsz, hc]) ?_
    rcases he with rfl | rfl <;> rfl
  · by_cases hm : n = m
    · subst hm
      exact ⟨[t.set key (.leaf (.nd (n :: s') data))], by simp [predictWith, hsz, hc, checkShape]⟩
    · exact hretry .valueError (by simp [predictWith, hsz, hc, checkShape, hm]) rfl

/-! A case that meets the hypotheses: a model that doubles one feature, for batches of at most two rows. -/

/-- three rows of one feature. -/
def demoRow3 : Forest (Leaf ℕ) := .cons "x" (.leaf (.nd [3, 1] [1, 2, 3])) .nil
/-- the model. -/
def doubler (f : Forest (Leaf ℕ)) : Except Err (Leaf ℕ) :=
  match f.find? "x" with
  | some (.leaf (.nd (n :: s) d)) => if n ≤ 2 then .ok (.nd (n :: s) (d.map (2 * ·))) else .error .runtimeError
  | _ => .error .valueError

example : ∃ rs ys, process (predictWith doubler "predictions") demoRow3 = .ok rs ∧ unbatchAll rs = .ok ys ∧ ys.length = 3 ∧
    rowLeaf ys 1 ["predictions"] = some (.nd [1] [4]) ∧ rowLeaf ys 1 ["x"] = some (.nd [1] [2]) := by
  have hw : demoRow3.WF := by simp [demoRow3, Forest.WF, Forest.keys, Tree.WF]
  have hleaf : ∀ p v, (Tree.node demoRow3).leafAt p = some v → v = .nd [3, 1] [1, 2, 3] := by
    intro p v h
    match p, h with
    | k :: q, h =>
      rw [Tree.leafAt_cons_node] at h
      simp only [demoRow3, Forest.find?] at h
      split at h
      · cases q with
        | nil => cases h; rfl
        | cons => cases h
      · cases h
  have hb : ∀ p v, (Tree.node demoRow3).leafAt p = some v → ArrayBatch 3 v := by
    intro p v h
    rw [hleaf p v h]
    exact ⟨rfl, rfl⟩
  have hne : ∃ p v, (Tree.node demoRow3).leafAt p = some v ∧ v ≠ .none := ⟨["x"], _, rfl, by simp⟩
  have hr : RowWise doubler demoRow3 3 [1] (fun i => [2 * (i + 1)]) := by
    refine ⟨fun i _ => rfl, fun s' data h => by simp [doubler, demoRow3, Forest.find?] at h, ?_⟩
    intro xs h i x hx
    obtain rfl : xs = [Forest.cons "x" (.leaf (.nd [1, 1] [1])) .nil, .cons "x" (.leaf (.nd [1, 1] [2])) .nil,
        .cons "x" (.leaf (.nd [1, 1] [3])) .nil] := by
      cases h; rfl
    match i, hx with
    | 0, hx => cases hx; rfl
    | 1, hx => cases hx; rfl
    | 2, hx => cases hx; rfl
  obtain ⟨rs, h⟩ := C99_retried doubler "predictions" demoRow3 hw 3 (by omega) hb hne [1] _ hr
    (Or.inl ⟨.runtimeError, rfl, Or.inr rfl⟩)
  obtain ⟨ys, h1, h2, h3⟩ := C99_rows doubler "predictions" demoRow3 hw 3 (by omega) hb hne [1] _ hr rs h
  exact ⟨rs, ys, h, h1, h2, by rw [h3 1 (by omega)]; rfl, by rw [h3 1 (by omega)]; rfl⟩

/-- **Row by row, features get another dimension**: a feature with one number per example is an array of one dimension
in a batch of one row, but of two dimensions in the retried row, so a model may see a shape it is never given in a
batch. -/
theorem C99_another_dimension :
    (splitExtracts true true (.cons "x" (.leaf (.nd [2] [1, 2])) .nil : Forest (Leaf ℕ))) =
      .ok [.cons "x" (.leaf (.nd [1, 1] [1])) .nil, .cons "x" (.leaf (.nd [1, 1] [2])) .nil] := rfl

/-- **Arrays of different lengths are not retried**: the batch size is determined outside of the guarded block. -/
theorem C99_sizes_fail (f : Forest (Leaf ℕ) → Except Err (Forest (Leaf ℕ))) :
    process f (.cons "x" (.leaf (.nd [2] [1, 2])) (.cons "y" (.leaf (.nd [1] [1])) .nil)) = .error .valueError := rfl

/-- A batch with a number and a sparse feature of two columns for each of two examples. -/
def demoSparse2 : Forest (Leaf ℕ) :=
  .cons "x" (.leaf (.nd [2] [1, 2])) (.cons "s" (.leaf (.sparse ⟨[5, 6], [[0, 1], [1, 0]], [2, 2]⟩)) .nil)

example : IsBatch 2 (.nd [2] [1, 2] : Leaf ℕ) ∧ IsBatch 2 (.sparse ⟨[5, 6], [[0, 1], [1, 0]], [2, 2]⟩ : Leaf ℕ) :=
  ⟨⟨rfl, rfl⟩, [2], rfl, rfl, by decide, by decide⟩

/-- **Sparse features are not retried**: row by row they lose the dimension of the batch, which arrays keep, so the sizes no longer
agree and the failure of the batch is followed by another one, whatever the model makes of single rows. -/
theorem C99_sparse_fails (call : Forest (Leaf ℕ) → Except Err (Leaf ℕ)) (key : String) (e : Err)
    (h : call demoSparse2 = .error e) (he : e = .valueError ∨ e = .runtimeError) :
    process (predictWith call key) demoSparse2 = .error .valueError := by
  have h1 : batchSize (.node demoSparse2) = .ok (some 2) := rfl
  have h2 : predictWith call key demoSparse2 = .error e := by
    unfold predictWith
    rw [h1]
    simp only [h]
  have h3 : splitExtracts true true demoSparse2 = .ok
      [.cons "x" (.leaf (.nd [1, 1] [1])) (.cons "s" (.leaf (.sparse ⟨[5], [[1]], [2]⟩)) .nil),
       .cons "x" (.leaf (.nd [1, 1] [2])) (.cons "s" (.leaf (.sparse ⟨[6], [[0]], [2]⟩)) .nil)] := rfl
  unfold process
  rw [h1]
  simp only [h2, h3]
  rcases he with rfl | rfl <;> rfl

/-! ### C100 -/

variable {V : Type}

private theorem records_spec (lists : Dict String (List V)) (i n : ℕ) :
    (records lists i n).length = n ∧ ∀ j < n, (records lists i n)[j]? =
      some (lists.filterMap fun kv => (kv.2[i + j]?).map fun v => (kv.1, v)) := by
  induction n generalizing i with
  | zero => exact ⟨rfl, by simp⟩
  | succ n ih =>
    obtain ⟨h1, h2⟩ := ih (i + 1)
    refine ⟨by simp [records, h1], ?_⟩
    intro j hj
    cases j with
    | zero => simp [records]
    | succ j =>
      simp only [records, List.getElem?_cons_succ]
      rw [h2 j (by omega)]
      congr 3
      funext kv
      congr 2
      omega

private theorem get?_filterMap (lists : Dict String (List V)) (hw : Dict.WF lists) (i : ℕ) (k : String) :
    Dict.get? (lists.filterMap fun kv => (kv.2[i]?).map fun v => (kv.1, v)) k = (Dict.get? lists k).bind (·[i]?) := by
  induction lists with
  | nil => rfl
  | cons kv lists ih =>
    obtain ⟨k', l⟩ := kv
    have hw' : k' ∉ Dict.keys lists ∧ Dict.WF lists := by simpa [Dict.WF, Dict.keys] using hw
    rw [Dict.get?_cons]
    by_cases hk : k' = k
    · subst hk
      cases hl : l[i]? with
      | none =>
        simp only [List.filterMap_cons, hl, Option.map_none, if_true]
        rw [ih hw'.2, (Dict.get?_eq_none_iff _ _).mpr hw'.1]
        simp [hl]
      | some v => simp [List.filterMap_cons, hl, Dict.get?_cons]
    · cases hl : l[i]? with
      | none => simp only [List.filterMap_cons, hl, Option.map_none, hk, if_false]; exact ih hw'.2
      | some v =>
        simp only [List.filterMap_cons, hl, Option.map_some, hk, if_false]
        rw [Dict.get?_cons, if_neg hk]
        exact ih hw'.2

/-- **C100** Unbatching `n` rows yields `n` extracts, the `i`-th of which has the `i`-th element of every list and the
`i`-th row of every array, under the same keys. -/
theorem C100_unbatch (lists : Dict String (List V)) (hl : Dict.WF lists) (t : Forest (Leaf α)) (ht : t.WF) (n : ℕ)
    (hn : 0 < n) (hlen : ∀ kv ∈ lists, kv.2.length = n)
    (hb : ∀ p v, (Tree.node t).leafAt p = some v → IsBatch n v)
    (hne : (∃ p v, (Tree.node t).leafAt p = some v ∧ v ≠ .none) ∨ (t = .nil ∧ lists ≠ [])) :
    ∃ ys, unbatch lists t = .ok ys ∧ ys.length = n ∧ ∀ i < n, ∃ y, ys[i]? = some y ∧
      (∀ k, Dict.get? y.legacy k = (Dict.get? lists k).bind (·[i]?)) ∧
      ∀ p, (Tree.node y.extract).leafAt p = ((Tree.node t).leafAt p).bind (rowSpec false true i) := by
  have hleg : lists ≠ [] → ∃ ls, legacyRows lists = .ok ls ∧ ls.length = n ∧ ∀ i < n, ∃ d, ls[i]? = some d ∧
      ∀ k, Dict.get? d k = (Dict.get? lists k).bind (·[i]?) := by
    intro h
    match lists, h with
    | (k0, l) :: rest, _ =>
      have h0 : l.length = n := hlen (k0, l) (by simp)
      have hall : (rest.all fun kv => decide (kv.2.length = l.length)) = true := by
        rw [List.all_eq_true]
        intro kv hkv
        simp [hlen kv (by simp [hkv]), h0]
      obtain ⟨h1, h2⟩ := records_spec ((k0, l) :: rest) 0 l.length
      refine ⟨_, by simp only [legacyRows]; rw [if_pos hall], by rw [h1, h0], fun i hi => ⟨_, h2 i (by omega), fun k => ?_⟩⟩
      rw [Nat.zero_add]
      exact get?_filterMap _ hl i k
  have hsplit : (∃ p v, (Tree.node t).leafAt p = some v ∧ v ≠ .none) → ∃ xs, splitExtracts false true t = .ok xs ∧
      xs.length = n ∧ ∀ i < n, ∃ x, xs[i]? = some x ∧
        ∀ p, (Tree.node x).leafAt p = ((Tree.node t).leafAt p).bind (rowSpec false true i) := by
    intro h
    obtain ⟨xs, h1, h2, h3⟩ := Extracts.C13_split false true t ht n hb h
    refine ⟨xs, h1, h2, fun i hi => ?_⟩
    have hi' : i < xs.length := by omega
    refine ⟨xs[i], by simp [hi'], fun p => ?_⟩
    have := h3 i hi p
    rwa [rowLeaf, List.getElem?_eq_getElem hi'] at this
  have hpos : ∀ {β : Type} (l : List β), l.length = n → l ≠ [] := by
    intro β l h h'
    subst h'
    simp at h
    omega
  rcases hne with hne | ⟨rfl, hl'⟩
  · obtain ⟨xs, h1, h2, h3⟩ := hsplit hne
    by_cases hnil : lists = []
    · subst hnil
      refine ⟨xs.map fun x => ⟨[], x⟩, by simp [unbatch, legacyRows, h1], by simp [h2], fun i hi => ?_⟩
      obtain ⟨x, hx, hx'⟩ := h3 i hi
      exact ⟨⟨[], x⟩, by simp [hx], fun k => rfl, hx'⟩
    · obtain ⟨ls, h4, h5, h6⟩ := hleg hnil
      refine ⟨List.zipWith (fun l x => ⟨l, x⟩) ls xs, ?_, by simp [h2, h5], fun i hi => ?_⟩
      · simp [unbatch, h4, h1, hpos xs h2, hpos ls h5, h2, h5]
      · obtain ⟨x, hx, hx'⟩ := h3 i hi
        obtain ⟨d, hd, hd'⟩ := h6 i hi
        exact ⟨⟨d, x⟩, by simp [List.getElem?_zipWith, hx, hd], hd', hx'⟩
  · obtain ⟨ls, h4, h5, h6⟩ := hleg hl'
    refine ⟨ls.map fun l => ⟨l, .nil⟩, ?_, by simp [h5], fun i hi => ?_⟩
    · have : splitExtracts false true (Forest.nil : Forest (Leaf α)) = .ok [] := rfl
      simp [unbatch, h4, this, hpos ls h5]
    · obtain ⟨d, hd, hd'⟩ := h6 i hi
      refine ⟨⟨d, .nil⟩, by simp [hd], hd', fun p => ?_⟩
      cases p with
      | nil => rfl
      | cons k q => rw [Tree.leafAt_cons_node]; rfl

/-- **C100** (different lengths): lists whose length is not the number of rows are refused. -/
theorem C100_lengths (lists : Dict String (List V)) (t : Forest (Leaf α)) (ht : t.WF) (n : ℕ) (hn : 0 < n)
    (hb : ∀ p v, (Tree.node t).leafAt p = some v → IsBatch n v)
    (hne : ∃ p v, (Tree.node t).leafAt p = some v ∧ v ≠ .none) (kv : String × List V) (hkv : kv ∈ lists)
    (hlen : kv.2.length ≠ n) (hpos : ∀ kv ∈ lists, kv.2 ≠ []) :
    ∃ e, unbatch lists t = .error e := by
  obtain ⟨xs, h1, h2, _⟩ := Extracts.C13_split false true t ht n hb hne
  match lists, hkv, hpos with
  | (k0, l) :: rest, hkv, hpos =>
    by_cases hall : (rest.all fun kv => decide (kv.2.length = l.length)) = true
    · have hl : kv.2.length = l.length := by
        rcases List.mem_cons.mp hkv with rfl | h
        · rfl
        · simpa using List.all_eq_true.mp hall kv h
      refine ⟨.valueError, ?_⟩
      obtain ⟨h3, _⟩ := records_spec ((k0, l) :: rest) 0 l.length
      have hxs : xs ≠ [] := by
        intro h
        subst h
        simp at h2
        omega
      have hls : records ((k0, l) :: rest) 0 l.length ≠ [] := by
        intro h
        rw [h] at h3
        exact hpos (k0, l) (by simp) (List.length_eq_zero_iff.mp h3.symm)
      simp only [unbatch, legacyRows]
      rw [if_pos hall]
      simp only [h1]
      rw [if_pos ⟨hxs, hls⟩, if_pos (by rw [h2, h3]; omega)]
    · exact ⟨.runtimeError, by simp only [unbatch, legacyRows]; rw [if_neg hall]⟩

example : unbatch [("slice_keys", ["a", "b"])] (.cons "x" (.leaf (.nd [2] [7, 8])) .nil : Forest (Leaf ℕ)) =
    .ok [⟨[("slice_keys", "a")], .cons "x" (.leaf (.nd [1] [7])) .nil⟩,
      ⟨[("slice_keys", "b")], .cons "x" (.leaf (.nd [1] [8])) .nil⟩] := rfl

/-- **C100: an empty list is dropped**: unlike other lists of a wrong length it is not refused. -/
theorem C100_empty_list_dropped :
    unbatch [("slice_keys", ([] : List String))] (.cons "x" (.leaf (.nd [2] [7, 8])) .nil : Forest (Leaf ℕ)) =
    .ok [⟨[], .cons "x" (.leaf (.nd [1] [7])) .nil⟩, ⟨[], .cons "x" (.leaf (.nd [1] [8])) .nil⟩] := rfl

end Extraction
end TFMA
