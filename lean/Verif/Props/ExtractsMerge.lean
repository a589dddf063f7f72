import Verif.Props.Extracts

/-!
# C72: merging extracts keeps every row at its own place
-/

namespace TFMA
namespace Extracts

open VarLen Tensors

variable {α β : Type}

/-! ### specification -/

/-- What row `j` contributes at a path: its value, or the empty array if it has no such key. -/
def contribution (xs : List (Forest (Leaf α))) (p : Path) (j : ℕ) : Leaf α :=
  match rowLeaf xs j p with
  | some v => v
  | none => .nd [0] []

/-- `v` is a faithful batch of the rows `rows`.
* it is None exactly if every row is None;
* rows of one length `m` give the array of all the rows in order (of shape `(n,)` if `m` is 1 and squeezing is on);
* rows of several lengths give a variable length tensor from which exactly these rows are read back. -/
structure Faithful (squeeze : Bool) (rows : List (Leaf α)) (v : Leaf α) : Prop where
  none_iff : v = .none ↔ ∀ x ∈ rows, x = .none
  dense : ∀ (ds : List (List α)) (m : ℕ), rows = ds.map (fun d => Leaf.nd [d.length] d) → (∀ d ∈ ds, d.length = m) →
    v = if squeeze = true ∧ m = 1 then .nd [ds.length] ds.flatten else .nd [ds.length, m] ds.flatten
  ragged : ∀ ds : List (List α), rows = ds.map (fun d => Leaf.nd [d.length] d) →
    (∃ d ∈ ds, ∃ d' ∈ ds, d.length ≠ d'.length) → ∃ t, v = .varlen t ∧ denseRows t = .ok ds

/-! ### one leaf -/

theorem mergeLeaf_ragged (sq : Bool) (ds : List (List α)) (h : ∃ d ∈ ds, ∃ d' ∈ ds, d.length ≠ d'.length) :
    ∃ t, mergeLeaf sq (ds.map fun d => Leaf.nd [d.length] d) = .ok (.varlen t) ∧ denseRows t = .ok ds := by
  obtain ⟨d, hd, d', hd', hdiff⟩ := h
  obtain ⟨t, e1, e2⟩ := C14_round_trip_partial (ds.map (Row.mk 1)) (by
    intro x hx
    rw [List.mem_map] at hx
    obtain ⟨y, _, rfl⟩ := hx
    right; exact Nat.le_refl _) (by
    by_cases h0 : d = []
    · refine ⟨Row.mk 1 d', List.mem_map_of_mem hd', ?_⟩
      intro h1; simp only at h1; subst h1; subst h0; exact hdiff rfl
    · exact ⟨Row.mk 1 d, List.mem_map_of_mem hd, h0⟩)
  refine ⟨t, ?_, by rw [e2]; simp [Function.comp_def]⟩
  rw [mergeLeaf_plain sq _ (by
    intro v hv
    obtain ⟨r, _, rfl⟩ := List.mem_map.mp hv
    rfl)]
  unfold mergePlain
  rw [allNd?_map_nd (fun r => [r.length])]
  cases ds with
  | nil => cases hd
  | cons r0 rest =>
    simp only [List.map_cons]
    rw [if_pos]
    · have hsame : fromDenseRows ((([r0.length], r0) :: rest.map fun r => ([r.length], r)).map squeezeRow) =
          fromDenseRows ((r0 :: rest).map (Row.mk 1)) := by
        unfold fromDenseRows
        rw [fromLoop_congr 0 _ ((r0 :: rest).map (Row.mk 1))]
        · intro x hx
          have hx' : x ∈ ((r0 :: rest).map fun r => (([r.length], r) : List ℕ × List α)).map squeezeRow := by
            simpa using hx
          rw [List.map_map, List.mem_map] at hx'
          obtain ⟨y, _, rfl⟩ := hx'
          simp only [Function.comp, squeezeRow]
          refine Nat.le_trans (List.length_filter_le _ _) ?_
          simp
        · intro x hx
          rw [List.mem_map] at hx
          obtain ⟨y, _, rfl⟩ := hx
          exact Nat.le_refl _
        · simp [squeezeRow, Function.comp_def]
      simp only [List.map_cons] at hsame e1
      rw [hsame, e1]
    · rw [List.any_eq_true]
      by_contra hcon
      have hall : ∀ x ∈ r0 :: rest, x.length = r0.length := by
        intro x hx
        simp only [List.mem_cons] at hx
        rcases hx with rfl | hx
        · rfl
        · by_contra hne
          exact hcon ⟨([x.length], x), List.mem_map_of_mem hx, by simpa using hne⟩
      exact hdiff (by rw [hall d hd, hall d' hd'])

theorem allNd?_none_of_mem {l : List (Leaf α)} {x : Leaf α} (hx : x ∈ l) (hn : x = .none) : allNd? l = none := by
  induction l with
  | nil => cases hx
  | cons y l ih =>
    rcases List.mem_cons.1 hx with rfl | hx
    · subst hn; simp [allNd?, asNd?]
    · simp only [allNd?, ih hx]
      cases asNd? y <;> rfl

theorem arrays_of_no_none (l : List (Leaf α)) (h : ∀ x ∈ l, x ≠ .none)
    (hr : ∀ x ∈ l, x = .none ∨ ∃ d : List α, x = .nd [d.length] d) :
    ∃ ds : List (List α), l = ds.map fun d => Leaf.nd [d.length] d := by
  induction l with
  | nil => exact ⟨[], rfl⟩
  | cons x l ih =>
    obtain ⟨ds, hds⟩ := ih (fun y hy => h y (by simp [hy])) (fun y hy => hr y (by simp [hy]))
    rcases hr x (by simp) with e | ⟨d, e⟩
    · exact absurd e (h x (by simp))
    · exact ⟨d :: ds, by simp [e, hds]⟩

theorem map_nd_inj {ds es : List (List α)}
    (h : ds.map (fun d => Leaf.nd [d.length] d) = es.map fun d => Leaf.nd [d.length] d) : ds = es := by
  induction ds generalizing es with
  | nil => cases es <;> simp_all
  | cons d ds ih =>
    cases es with
    | nil => simp at h
    | cons e es =>
      simp only [List.map_cons, List.cons.injEq, Leaf.nd.injEq] at h
      rw [h.1.2, ih h.2]

/-- One leaf: every list of None and one-dimensional arrays has a faithful batch. -/
theorem mergeLeaf_faithful (sq : Bool) (l : List (Leaf α)) (hne : l ≠ [])
    (hr : ∀ x ∈ l, x = .none ∨ ∃ d : List α, x = .nd [d.length] d) :
    ∃ v, mergeLeaf sq l = .ok v ∧ Faithful sq l v := by
  by_cases hnone : ∃ x ∈ l, x = .none
  · obtain ⟨x, hx, hxn⟩ := hnone
    have h1 := allNd?_none_of_mem hx hxn
    have hplain : ∀ v ∈ l, isPlain v = true := by
      intro v hv
      rcases hr v hv with rfl | ⟨d, rfl⟩ <;> rfl
    have hnd : ∀ ds : List (List α), l ≠ ds.map fun d => Leaf.nd [d.length] d := by
      intro ds e
      rw [e, List.mem_map] at hx
      obtain ⟨d, _, hd⟩ := hx
      rw [← hd] at hxn; cases hxn
    by_cases hall : ∀ x ∈ l, x = .none
    · refine ⟨.none, ?_, ⟨by simpa using hall, fun ds m e => absurd e (hnd ds), fun ds e => absurd e (hnd ds)⟩⟩
      rw [mergeLeaf_plain sq l hplain]
      unfold mergePlain
      rw [h1]
      rw [if_pos]
      rw [List.all_eq_true]
      intro x hx
      rw [hall x hx]; rfl
    · refine ⟨.object, ?_, ⟨by simpa using hall, fun ds m e => absurd e (hnd ds), fun ds e => absurd e (hnd ds)⟩⟩
      rw [mergeLeaf_plain sq l hplain]
      unfold mergePlain
      rw [h1]
      simp only
      rw [if_neg, if_neg]
      · rw [List.any_eq_true]
        rintro ⟨x, hx, hv⟩
        rcases hr x hx with rfl | ⟨d, rfl⟩ <;> simp at hv
      · rw [List.all_eq_true]
        intro hc
        refine hall fun x hx => ?_
        rcases hr x hx with e | ⟨d, rfl⟩
        · exact e
        · have := hc _ hx; simp [isNone] at this
  · push Not at hnone
    obtain ⟨ds, rfl⟩ := arrays_of_no_none l hnone hr
    have hds : ds ≠ [] := by rintro rfl; exact hne rfl
    have hnn : ¬ ∀ x ∈ ds.map (fun d => Leaf.nd [d.length] d), x = Leaf.none := by
      intro hc
      cases ds with
      | nil => exact hds rfl
      | cons d ds => have := hc (Leaf.nd [d.length] d) (by simp); cases this
    by_cases hdiff : ∃ d ∈ ds, ∃ d' ∈ ds, d.length ≠ d'.length
    · obtain ⟨t, h1, h2⟩ := mergeLeaf_ragged sq ds hdiff
      refine ⟨.varlen t, h1, ⟨by simpa using hnn, ?_, ?_⟩⟩
      · intro es m he hm
        cases map_nd_inj he
        obtain ⟨d, hd, d', hd', hne'⟩ := hdiff
        exact absurd (by rw [hm d hd, hm d' hd']) hne'
      · intro es he _
        cases map_nd_inj he
        exact ⟨t, rfl, h2⟩
    · push Not at hdiff
      obtain ⟨d0, hd0⟩ := List.exists_mem_of_ne_nil ds hds
      have hsame : ds.map (fun d => Leaf.nd [d.length] d) = ds.map fun d => Leaf.nd [d0.length] d := by
        apply List.map_congr_left
        intro d hd
        rw [hdiff d hd d0 hd0]
      refine ⟨_, by rw [hsame]; exact mergeLeaf_nd sq [d0.length] ds hds, ⟨?_, ?_, ?_⟩⟩
      · constructor
        · intro e; split at e <;> cases e
        · intro e; exact absurd e hnn
      · intro es m he hm
        cases map_nd_inj he
        have : d0.length = m := hm d0 hd0
        subst this
        simp only [Bool.and_eq_true, decide_eq_true_eq, List.cons.injEq, and_true]
      · rintro es he ⟨d, hd, d', hd', hne'⟩
        cases map_nd_inj he
        exact absurd (hdiff d hd d' hd') hne'

/-! ### the theorem -/

/-- **C72.**  Merge any number of extracts `xs` whose keys fit together: `t` is the dictionary of all the keys of
`xs` (a path is a leaf of `t` exactly if some extract has a value there, and no extract has a dictionary where
another one has a value).  If the values are None or one-dimensional arrays then merging succeeds, has exactly the
paths of `t`, and holds at each path a faithful batch of what the extracts hold there in order, an extract without
the key counting as an empty row. -/
theorem C72_merge_partial (squeeze : Bool) (t : Forest β) (xs : List (Forest (Leaf α)))
    (hx : ∀ f ∈ xs, Sub (.node f) (.node t) ∧ f.WF)
    (ht : ∀ p b, (Tree.node t).leafAt p = some b → ∃ f ∈ xs, ∃ v, (Tree.node f).leafAt p = some v)
    (hv : ∀ f ∈ xs, ∀ p v, (Tree.node f).leafAt p = some v → v = .none ∨ ∃ d : List α, v = .nd [d.length] d) :
    ∃ r, mergeExtracts squeeze xs = .ok r ∧
      ∀ p, ((Tree.node t).leafAt p = none → (Tree.node r).leafAt p = none) ∧
        ((Tree.node t).leafAt p ≠ none → ∃ v, (Tree.node r).leafAt p = some v ∧
          Faithful squeeze ((List.range xs.length).map (contribution xs p)) v) := by
  obtain ⟨target, e1, s1, c1⟩ := mergeAll_ok xs.length t xs hx 0 .nil (Sub_nil t)
  have hw := mergeAll_wf xs.length 0 .nil target (by unfold Forest.WF; trivial) xs e1
  have hrow : ∀ p, ∀ x ∈ (List.range xs.length).map (contribution xs p),
      x = .none ∨ ∃ d : List α, x = .nd [d.length] d := by
    intro p x hx
    rw [List.mem_map] at hx
    obtain ⟨j, hj, rfl⟩ := hx
    unfold contribution
    cases e : rowLeaf xs j p with
    | none => exact Or.inr ⟨[], rfl⟩
    | some v =>
      unfold rowLeaf at e
      rw [List.getElem?_eq_getElem (by simpa using hj)] at e
      exact hv _ (List.getElem_mem _) p v e
  have hlists : ∀ p b, (Tree.node t).leafAt p = some b → ∃ v,
      (Tree.node target).leafAt p = some ((List.range xs.length).map (contribution xs p)) ∧
      mergeLeaf squeeze ((List.range xs.length).map (contribution xs p)) = .ok v ∧
      Faithful squeeze ((List.range xs.length).map (contribution xs p)) v := by
    intro p b hp
    obtain ⟨f, hf, v, hfv⟩ := ht p b hp
    have hlen : 0 < xs.length := List.length_pos_of_mem hf
    obtain ⟨l, hl1, hl2, hl3⟩ := c1 p (Or.inr ⟨f, hf, v, hfv⟩) (by
      intro l hl
      cases p with
      | nil => simp [Tree.leafAt_nil_node] at hl
      | cons k p => simp [Tree.leafAt_cons_node, Forest.find?] at hl) (by omega)
    have hempty : (Tree.node (Forest.nil : Forest (List (Leaf α)))).leafAt p = none := by
      cases p with
      | nil => simp [Tree.leafAt_nil_node]
      | cons k p => simp [Tree.leafAt_cons_node, Forest.find?]
    have hleq : l = (List.range xs.length).map (contribution xs p) := by
      apply List.ext_getElem?
      intro j
      by_cases hj : j < xs.length
      · rw [hl3 j hj, if_pos ⟨by omega, by omega⟩, Nat.sub_zero, List.getElem?_map, List.getElem?_range hj, hempty]
        simp only [Option.map_some, contribution]
        cases rowLeaf xs j p with
        | some v => rfl
        | none => simp [hj]
      · rw [List.getElem?_eq_none (by omega), List.getElem?_eq_none (by simp; omega)]
    obtain ⟨v, h1, h2⟩ := mergeLeaf_faithful squeeze ((List.range xs.length).map (contribution xs p)) (by
      intro e
      have := congrArg List.length e
      simp at this
      simp [this] at hlen) (hrow p)
    exact ⟨v, by rw [hl1, hleq], h1, h2⟩
  have hnone : ∀ p, (Tree.node t).leafAt p = none → (Tree.node target).leafAt p = none := by
    intro p hp
    cases e : (Tree.node target).leafAt p with
    | none => rfl
    | some l =>
      exfalso
      unfold Tree.leafAt at e
      split at e
      · rename_i a ha
        obtain ⟨y, hy, hyl⟩ := s1 p _ ha
        cases y with
        | node g => simp [Tree.isLeaf] at hyl
        | leaf b =>
          unfold Tree.leafAt at hp
          rw [hy] at hp
          cases hp
      · cases e
  obtain ⟨r, e2, c2⟩ := mergeListsItems_ok squeeze target hw (by
    intro k x hx q l hl
    have hl' : (Tree.node target).leafAt (k :: q) = some l := by
      rw [Tree.leafAt_cons_node, hx]; exact hl
    cases e : (Tree.node t).leafAt (k :: q) with
    | none => rw [hnone _ e] at hl'; cases hl'
    | some b =>
      obtain ⟨v, h5, h6, _⟩ := hlists _ b e
      rw [hl'] at h5; cases h5
      exact ⟨_, h6⟩)
  refine ⟨r, by unfold mergeExtracts; rw [e1]; exact e2, ?_⟩
  intro p
  cases p with
  | nil => exact ⟨fun _ => rfl, fun h => absurd rfl h⟩
  | cons k p =>
    refine ⟨fun h => by rw [c2 k p, hnone _ h], fun h => ?_⟩
    cases e : (Tree.node t).leafAt (k :: p) with
    | none => exact absurd e h
    | some b =>
      obtain ⟨v, h5, h6, h7⟩ := hlists _ b e
      exact ⟨v, by rw [c2 k p, h5]; simp [h6], h7⟩

/-- **C72 fails for values of two or more dimensions**: a key missing from one extract makes the merge fail, although
the other extracts agree on its shape. -/
theorem C72_missing_matrix_fails :
    mergeExtracts true [(.cons "m" (.leaf (.nd [2, 2] [1, 2, 3, 4])) (.cons "x" (.leaf (.nd [1] [7])) .nil) :
        Forest (Leaf ℕ)), .cons "x" (.leaf (.nd [1] [8])) .nil] = .error .runtimeError := by
  rfl

/-! ### a concrete case -/

/-- three extracts, the second without "v", the third with a longer "v"; "w" is None in the first only. -/
def demoRows : List (Forest (Leaf ℕ)) :=
  [.cons "v" (.leaf (.nd [1] [1])) (.cons "w" (.leaf .none) .nil),
   .cons "w" (.leaf (.nd [1] [5])) .nil,
   .cons "v" (.leaf (.nd [2] [2, 3])) (.cons "w" (.leaf (.nd [1] [6])) .nil)]

example : ∃ r t, mergeExtracts true demoRows = .ok r ∧ (Tree.node r).leafAt ["v"] = some (.varlen t) ∧
    denseRows t = .ok [[1], [], [2, 3]] ∧ (Tree.node r).leafAt ["w"] = some .object :=
  ⟨_, _, rfl, rfl, rfl, rfl⟩

example : (List.range 3).map (contribution demoRows ["v"]) = [.nd [1] [1], .nd [0] [], .nd [2] [2, 3]] := rfl

/-- the hypotheses of `C72_merge_partial` are met. -/
example : ∃ r, mergeExtracts true demoRows = .ok r ∧ ∃ v, (Tree.node r).leafAt ["v"] = some v ∧
    Faithful true ((List.range 3).map (contribution demoRows ["v"])) v := by
  obtain ⟨r, h1, h2⟩ := C72_merge_partial (α := ℕ) true
    (.cons "v" (.leaf ()) (.cons "w" (.leaf ()) .nil) : Forest Unit) demoRows (by
      intro f hf
      simp only [demoRows, List.mem_cons, List.not_mem_nil, or_false] at hf
      refine ⟨?_, ?_⟩
      · intro p x hpx
        match p with
        | [] => rcases hf with rfl | rfl | rfl <;> (simp [Tree.at?] at hpx; subst hpx; exact ⟨_, rfl, rfl⟩)
        | [k] =>
          rcases hf with rfl | rfl | rfl <;>
          · rw [at?_cons_node] at hpx
            simp only [Forest.find?] at hpx
            by_cases hk : "v" = k
            · subst hk; simp [Tree.at?] at hpx <;> exact ⟨.leaf (), rfl, by subst hpx; rfl⟩
            · by_cases hk2 : "w" = k
              · subst hk2; simp [Tree.at?] at hpx <;> exact ⟨.leaf (), rfl, by subst hpx; rfl⟩
              · simp [hk, hk2] at hpx
        | k :: k2 :: p =>
          exfalso
          rcases hf with rfl | rfl | rfl <;>
          · rw [at?_cons_node] at hpx
            simp only [Forest.find?] at hpx
            by_cases hk : "v" = k
            · subst hk; simp [Tree.at?] at hpx
            · by_cases hk2 : "w" = k
              · subst hk2; simp [Tree.at?] at hpx
              · simp [hk, hk2] at hpx
      · rcases hf with rfl | rfl | rfl <;> simp [Forest.WF, Tree.WF, Forest.keys]) (by
      intro p b hp
      match p with
      | [] => cases hp
      | k :: p =>
        rw [Tree.leafAt_cons_node] at hp
        simp only [Forest.find?] at hp
        by_cases hk : "v" = k
        · subst hk
          cases p with
          | nil => exact ⟨_, List.mem_cons_self .., .nd [1] [1], rfl⟩
          | cons _ _ => simp [Tree.leafAt_cons_leaf] at hp
        · by_cases hk2 : "w" = k
          · subst hk2
            cases p with
            | nil => exact ⟨_, List.mem_cons_self .., .none, rfl⟩
            | cons _ _ => simp [Tree.leafAt_cons_leaf] at hp
          · simp [hk, hk2] at hp) (by
      intro f hf p v hp
      simp only [demoRows, List.mem_cons, List.not_mem_nil, or_false] at hf
      match p with
      | [] => cases hp
      | k :: p =>
        rcases hf with rfl | rfl | rfl <;>
        · rw [Tree.leafAt_cons_node] at hp
          simp only [Forest.find?] at hp
          by_cases hk : "v" = k
          · subst hk
            cases p with
            | nil =>
              simp [Tree.leafAt_nil_leaf] at hp <;> (subst hp; first | exact Or.inr ⟨[1], rfl⟩ | exact Or.inr ⟨[2, 3], rfl⟩)
            | cons _ _ => simp [Tree.leafAt_cons_leaf] at hp
          · by_cases hk2 : "w" = k
            · subst hk2
              cases p with
              | nil =>
                simp [Tree.leafAt_nil_leaf] at hp <;>
                  (subst hp; first | exact Or.inl rfl | exact Or.inr ⟨[5], rfl⟩ | exact Or.inr ⟨[6], rfl⟩)
              | cons _ _ => simp [Tree.leafAt_cons_leaf] at hp
            · simp [hk, hk2] at hp)
  obtain ⟨v, h3, h4⟩ := (h2 ["v"]).2 (by intro e; cases e)
  exact ⟨r, h1, v, h3, h4⟩

/-! ### C13: one ragged dimension -/

/-- **C13** (one ragged dimension).  The rows of a ragged batch with one ragged dimension are arrays, so the batch comes back as a
variable length tensor with the same rows, or as an array if the rows have the same length. -/
theorem C13_one_ragged_dimension (expand squeeze : Bool) (v : List α) (s : List ℕ) (n : ℕ) (hn : 0 < n)
    (h : RaggedBatch v [s] n) :
    ∃ (ds : List (List α)) (rows : List (Leaf α)) (w : Leaf α), ds.length = n ∧ ds.flatten = v ∧
      (∀ i < n, ds[i]? = some ((v.take (s.getD (i + 1) 0)).drop (s.getD i 0))) ∧
      rowsOf false expand (.ragged ⟨v, [s]⟩) = .ok rows ∧ mergeLeaf squeeze rows = .ok w ∧
      ((∃ d ∈ ds, ∃ d' ∈ ds, d.length ≠ d'.length) → ∃ t, w = .varlen t ∧ denseRows t = .ok ds) ∧
      ∀ m, (∀ d ∈ ds, d.length = m) → w = if squeeze = true ∧ m = 1 then .nd [n] v else .nd [n, m] v := by
  have hok := (RaggedBatch.ok h).1
  obtain ⟨hs, m, hm, hv⟩ := h
  have hv : v.length = m := hv
  set ds := (raggedRows ⟨v, [s]⟩ s []).map Ragged.values with hds
  have hlen : ds.length = n := by rw [hds, List.length_map, raggedRows_length _ s _ n hs]
  have hget : ∀ i < n, ds[i]? = some ((v.take (s.getD (i + 1) 0)).drop (s.getD i 0)) := by
    intro i hi
    rw [hds, List.getElem?_map, raggedRows_getElem? _ s _ n i hs hi]
    rfl
  have hflat : ds.flatten = v := by
    have key : ∀ k ≤ n, (ds.take k).flatten = v.take (s.getD k 0) := by
      intro k hk
      induction k with
      | zero => simp only [List.take_zero, List.flatten_nil, hm.zero]
      | succ k ih =>
        have ih := ih (by omega)
        have hk' : k < ds.length := by omega
        have hd : ds[k] = (v.take (s.getD (k + 1) 0)).drop (s.getD k 0) := by
          have := hget k (by omega)
          rw [List.getElem?_eq_getElem hk'] at this
          simpa using this
        rw [List.take_succ_eq_append_getElem hk', List.flatten_append, ih, hd]
        have hmono := hm.mono k (k + 1) (by omega) (by omega)
        simp only [List.flatten_cons, List.flatten_nil, List.append_nil]
        conv_rhs => rw [← List.take_append_drop (s.getD k 0) (v.take (s.getD (k + 1) 0))]
        rw [List.take_take, Nat.min_eq_left hmono]
    have := key n (Nat.le_refl _)
    rw [List.take_of_length_le (by omega)] at this
    rw [this]
    have hf := hm.final
    rw [hs] at hf
    simp only [Nat.add_sub_cancel] at hf
    rw [hf, List.take_of_length_le (by omega)]
  have hrows : rowsOf false expand (.ragged ⟨v, [s]⟩) = .ok (ds.map fun d => Leaf.nd [d.length] d) := by
    simp only [rowsOf, hok, Bool.not_true, Bool.false_eq_true, if_false]
    rw [hds, List.map_map]
    rfl
  obtain ⟨w, hw, hf⟩ := mergeLeaf_faithful squeeze (ds.map fun d => Leaf.nd [d.length] d) (by
    intro e
    have := congrArg List.length e
    rw [List.length_map, hlen] at this
    simp at this; omega) (by
    intro x hx
    obtain ⟨d, _, rfl⟩ := List.mem_map.mp hx
    exact .inr ⟨d, rfl⟩)
  refine ⟨ds, _, w, hlen, hflat, hget, hrows, hw, hf.ragged ds rfl, ?_⟩
  intro k hk
  rw [hf.dense ds k rfl hk, hlen, hflat]

example : ∃ rows t, rowsOf false true (.ragged (⟨[1, 2, 3], [[0, 1, 3]]⟩ : Ragged ℕ)) = .ok rows ∧
    mergeLeaf true rows = .ok (.varlen t) ∧ denseRows t = .ok [[1], [2, 3]] := ⟨_, _, rfl, rfl, rfl⟩

end Extracts
end TFMA
