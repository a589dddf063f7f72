import Verif.Props.Boxes

/-!
# C67, C69: labels and predictions from boxes
-/

namespace TFMA
namespace Boxes

private theorem select_map {R : Type} (rows : List R) (f : R → Bool) : select rows (rows.map f) = rows.filter f := by
  unfold select
  induction rows with
  | nil => rfl
  | cons r rows ih =>
    simp only [List.map_cons, List.zip_cons_cons, List.filter_cons]
    cases h : f r <;> simp [ih]

/-- The detections that are kept: those of the class, sorted by confidence, at most the given number. -/
structure KeptDetections (p : Params) (pred dets : List Detection) : Prop where
  /-- in descending order of confidence -/
  sorted : dets.Pairwise fun a b => b.confidence ≤ a.confidence
  /-- the others of the class have at most the confidence of the kept ones -/
  best : ∃ rest, (dets ++ rest).Perm (pred.filter fun d => decide (d.cls = (p.classId : ℚ))) ∧
    ∀ a ∈ dets, ∀ b ∈ rest, b.confidence ≤ a.confidence
  /-- nothing is dropped without a limit, and no more than necessary with one -/
  number : dets.length = match p.maxNumDetections with
    | none => (pred.filter fun d => decide (d.cls = (p.classId : ℚ))).length
    | some n => min n.toNat (pred.filter fun d => decide (d.cls = (p.classId : ℚ))).length
  /-- equal confidences keep their order -/
  stable : ∀ c, (dets.filter fun d => decide (d.confidence = c)) <+:
    pred.filter fun d => decide (d.cls = (p.classId : ℚ)) && decide (d.confidence = c)

private theorem sort_perm (l : List Detection) : (sortByConfidence l).Perm l := List.perm_insertionSort _ _

private theorem sort_sorted (l : List Detection) :
    (sortByConfidence l).Pairwise fun a b => b.confidence ≤ a.confidence := by
  have : Std.Total (fun a b : Detection => a.confidence ≥ b.confidence) := ⟨fun a b => le_total b.confidence a.confidence⟩
  have : IsTrans Detection (fun a b => a.confidence ≥ b.confidence) := ⟨fun a b c h1 h2 => le_trans h2 h1⟩
  exact List.pairwise_insertionSort (fun a b : Detection => a.confidence ≥ b.confidence) l

private theorem sort_stable (l : List Detection) (c : ℚ) :
    (sortByConfidence l).filter (fun d => decide (d.confidence = c)) = l.filter fun d => decide (d.confidence = c) := by
  have : Std.Total (fun a b : Detection => a.confidence ≥ b.confidence) := ⟨fun a b => le_total b.confidence a.confidence⟩
  have : IsTrans Detection (fun a b => a.confidence ≥ b.confidence) := ⟨fun a b c h1 h2 => le_trans h2 h1⟩
  have h1 : (l.filter fun d => decide (d.confidence = c)).Sublist (sortByConfidence l) := by
    refine List.sublist_insertionSort ?_ List.filter_sublist
    refine List.pairwise_of_forall_mem_list fun a ha b hb => ?_
    have ha := (List.mem_filter.1 ha).2
    have hb := (List.mem_filter.1 hb).2
    simp only [decide_eq_true_eq] at ha hb
    rw [ha, hb]
  have h2 := h1.filter fun d => decide (d.confidence = c)
  rw [List.filter_filter] at h2
  simp only [Bool.and_self] at h2
  refine (h2.eq_of_length ?_).symm
  exact ((sort_perm l).filter _).length_eq.symm

private theorem limit_eq (n : Option ℤ) (hn : n.any (fun n => decide (n ≤ 0)) = false) (l : List Detection) :
    limit n l = (n.map fun n => l.take n.toNat).getD l := by
  cases n with
  | none => rfl
  | some n =>
    simp only [Option.any_some, decide_eq_false_iff_not, not_le] at hn
    unfold limit
    simp only [Option.map_some, Option.getD_some]
    split_ifs with h
    · rfl
    · rw [List.take_of_length_le]
      omega

private theorem kept_detections (p : Params) (pred : List Detection)
    (hn : p.maxNumDetections.any (fun n => decide (n ≤ 0)) = false) :
    KeptDetections p pred (limit p.maxNumDetections (sortByConfidence (ofClass Detection.cls p.classId pred))) := by
  have hkey : ∀ n : ℕ, (sortByConfidence (ofClass Detection.cls p.classId pred)).take n ++
      (sortByConfidence (ofClass Detection.cls p.classId pred)).drop n =
      sortByConfidence (ofClass Detection.cls p.classId pred) := fun n => List.take_append_drop _ _
  have hsorted := sort_sorted (ofClass Detection.cls p.classId pred)
  have hperm := sort_perm (ofClass Detection.cls p.classId pred)
  have hstab := sort_stable (ofClass Detection.cls p.classId pred)
  have hfil : ∀ c, (ofClass Detection.cls p.classId pred).filter (fun d => decide (d.confidence = c)) =
      pred.filter fun d => decide (d.cls = (p.classId : ℚ)) && decide (d.confidence = c) := by
    intro c
    unfold ofClass
    rw [List.filter_filter]
    refine List.filter_congr fun d _ => ?_
    rw [Bool.and_comm]
  rw [limit_eq _ hn]
  generalize sortByConfidence (ofClass Detection.cls p.classId pred) = s at *
  cases hm : p.maxNumDetections with
  | none =>
    refine ⟨hsorted, ⟨[], by simpa [ofClass] using hperm, by simp⟩, ?_, ?_⟩
    · rw [hm]; exact hperm.length_eq
    · intro c
      simp only [Option.map_none, Option.getD_none]
      rw [← hfil, hstab]
  | some n =>
    simp only [Option.map_some, Option.getD_some]
    refine ⟨hsorted.sublist (List.take_sublist _ _), ⟨s.drop n.toNat, by rw [hkey]; exact hperm, ?_⟩, ?_, ?_⟩
    · rw [← hkey n.toNat] at hsorted
      exact fun a ha b hb => (List.pairwise_append.1 hsorted).2.2 a ha b hb
    · rw [hm]
      simp only [List.length_take]
      rw [hperm.length_eq]; rfl
    · intro c
      rw [← hfil, ← hstab]
      exact (List.take_prefix _ _).filter _

/-- Whether an area lies between the bounds, both included. -/
def Within (r : AreaRange) (area : ℚ) : Prop :=
  (r.lower = .ninf ∨ ∃ q, r.lower = .fin q ∧ q ≤ area) ∧ (r.upper = .pinf ∨ ∃ q, r.upper = .fin q ∧ area ≤ q)

private theorem contains_iff (r : AreaRange) (a : ℚ) : r.contains a = true ↔ Within r a := by
  unfold AreaRange.contains Within
  cases h1 : r.lower <;> cases h2 : r.upper <;> simp [Fl.le]

open Classical in
/-- The ground truths that are kept: those of the class with an area in the range. -/
noncomputable def keptTruths (p : Params) (gt : List Truth) : List Truth :=
  gt.filter fun t => decide (t.cls = (p.classId : ℚ)) && decide (Within p.areaRange t.box.area)

/-- The pairs for a matching: every ground truth has label 1 and the confidence of its detection, or 0 without one; every
detection with an area in the range that is not matched has label 0 and its confidence. -/
def expectedPairs (numGt : ℕ) (dets : List Detection) (r : AreaRange) (gts preds : List (Option ℕ)) : List (ℚ × ℚ) :=
  (List.range numGt).map (fun j => (1, match gts[j]? with
    | some (some i) => ((dets[i]?).map Detection.confidence).getD 0
    | _ => 0)) ++
  ((dets.zip preds).filter fun q => q.2.isNone && r.contains q.1.box.area).map fun q => (0, q.1.confidence)

private theorem areas_ok {l : List Box} {as : List ℚ} (h : areas l = .ok as) : as = l.map Box.area := by
  unfold areas at h
  split_ifs at h
  cases h; rfl

private theorem inRange_ok {l : List Box} {r : AreaRange} {m : List Bool} (h : inRange l r = .ok m) :
    m = l.map fun b => r.contains b.area := by
  unfold inRange at h
  split_ifs at h
  cases ha : areas l with
  | error e => rw [ha] at h; cases h
  | ok as =>
    rw [ha] at h
    cases h
    rw [areas_ok ha, List.map_map]
    rfl

private theorem zip_rep {α : Type} (a : ℚ) : ∀ (l : List α) (n : ℕ), n = l.length → (List.replicate n a).zip l = l.map fun x => (a, x)
  | [], _, h => by subst h; rfl
  | x :: l, n, h => by
    subst h
    simp only [List.length_cons, List.replicate_succ, List.zip_cons_cons, List.map_cons]
    rw [zip_rep a l _ rfl]

private theorem fm_len : ∀ gts : List (Option ℕ), (gts.filterMap id).length + gts.count none = gts.length
  | [] => rfl
  | some i :: gts => by
    have ih := fm_len gts
    show (i :: gts.filterMap id).length + _ = _
    rw [List.count_cons_of_ne (by simp)]
    simp only [List.length_cons]
    omega
  | none :: gts => by
    have ih := fm_len gts
    show (gts.filterMap id).length + _ = _
    rw [List.count_cons_self]
    simp only [List.length_cons]
    omega

private theorem first_part (f : ℕ → ℚ) : ∀ (gts : List (Option ℕ)),
    (((gts.filterMap id).map fun i => ((1 : ℚ), f i)) ++ List.replicate (gts.count none) (1, 0)).Perm
      (gts.map fun o => (1, match o with
        | some i => f i
        | none => 0))
  | [] => .refl _
  | some i :: gts => by
    have := first_part f gts
    simpa using this.cons ((1 : ℚ), f i)
  | none :: gts => by
    have ih := first_part f gts
    simp only [List.filterMap_cons, id, List.count_cons, List.map_cons, beq_self_eq_true, if_true]
    rw [List.replicate_succ]
    exact List.perm_middle.trans (ih.cons _)

private theorem map_range (gts : List (Option ℕ)) (f : ℕ → ℚ) :
    (gts.map fun o => ((1 : ℚ), match o with
        | some i => f i
        | none => 0)) =
    (List.range gts.length).map (fun j => (1, match gts[j]? with
      | some (some i) => f i
      | _ => 0)) := by
  refine List.ext_getElem (by simp) fun j h1 h2 => ?_
  simp only [List.length_map] at h1
  simp only [List.getElem_map, List.getElem_range, List.getElem?_eq_getElem h1]
  cases gts[j] <;> rfl

private theorem second_part : ∀ (dets : List Detection) (preds : List (Option ℕ)) (r : AreaRange), dets.length = preds.length →
    select dets (((dets.map fun d => r.contains d.box.area).zip preds).map fun p => p.1 && p.2.isNone) =
      ((dets.zip preds).filter fun q => q.2.isNone && r.contains q.1.box.area).map Prod.fst ∧
    (((dets.map fun d => r.contains d.box.area).zip preds).map fun p => p.1 && p.2.isNone).count true =
      ((dets.zip preds).filter fun q => q.2.isNone && r.contains q.1.box.area).length
  | [], [], r, _ => ⟨rfl, rfl⟩
  | [], _ :: _, r, h => by simp at h
  | _ :: _, [], r, h => by simp at h
  | d :: dets, q :: preds, r, h => by
    obtain ⟨h1, h2⟩ := second_part dets preds r (by simpa using h)
    unfold select at h1 ⊢
    simp only [List.map_cons, List.zip_cons_cons, List.filter_cons, List.count_cons]
    cases hc : r.contains d.box.area <;> cases hq : q.isNone <;> simp [h1, h2]

/-- C67: the pairs are those of the greedy matching (`C47_greedy`) of the detections that are kept with the ground truths that
are kept, up to order; there are as many labels, predictions and weights, and every weight is the product of the example weight
and the class weight. -/
theorem C67_pairs (p : Params) (gt : List Truth) (pred : List Detection) (r : Pairs) (h : toPairs p gt pred = .ok r) :
    ∃ dets gts preds, KeptDetections p pred dets ∧
      matchBoxes (dets.map fun d => (keptTruths p gt).map fun t => iou d.box t.box) (keptTruths p gt).length p.iouThreshold =
        .ok (gts, preds) ∧
      (r.labels.zip r.predictions).Perm (expectedPairs (keptTruths p gt).length dets p.areaRange gts preds) ∧
      r.labels.length = r.predictions.length ∧ r.weights.length = r.labels.length ∧
      ∀ w ∈ r.weights, w = p.weight.getD 1 * p.classWeight.getD 1 := by
  unfold toPairs at h
  split_ifs at h with h1 h2 h3
  have hn : p.maxNumDetections.any (fun n => decide (n ≤ 0)) = false := by simpa using h1
  cases hk : kept p gt pred with
  | error e => rw [hk] at h; cases h
  | ok gd =>
    obtain ⟨g, dets⟩ := gd
    rw [hk] at h
    simp only at h
    have hg : g = keptTruths p gt ∧ dets = limit p.maxNumDetections (sortByConfidence (ofClass Detection.cls p.classId pred)) := by
      unfold kept at hk
      simp only at hk
      cases hr : inRange ((ofClass Truth.cls p.classId gt).map Truth.box) p.areaRange with
      | error e => rw [hr] at hk; cases hk
      | ok mask =>
        rw [hr] at hk
        cases hk
        refine ⟨?_, rfl⟩
        rw [inRange_ok hr, List.map_map, select_map]
        unfold ofClass keptTruths
        rw [List.filter_filter]
        refine List.filter_congr fun t _ => ?_
        rw [Bool.and_comm]
        congr 1
        rw [Bool.eq_iff_iff]
        simp only [Function.comp_apply, decide_eq_true_eq]
        exact contains_iff _ _
    obtain ⟨rfl, hd⟩ := hg
    cases hi : ious (dets.map Detection.box) ((keptTruths p gt).map Truth.box) with
    | error e => rw [hi] at h; cases h
    | ok rows =>
      rw [hi] at h
      simp only at h
      have hrows : rows = dets.map fun d => (keptTruths p gt).map fun t => iou d.box t.box := by
        unfold ious at hi
        cases ha : areas (dets.map Detection.box) with
        | error e => rw [ha] at hi; cases hi
        | ok _ =>
          rw [ha] at hi
          cases hb : areas ((keptTruths p gt).map Truth.box) with
          | error e => rw [hb] at hi; cases hi
          | ok _ =>
            rw [hb] at hi
            cases hi
            simp [List.map_map, Function.comp_def]
      cases hm : matchBoxes rows (keptTruths p gt).length p.iouThreshold with
      | error e => rw [hm] at h; cases h
      | ok m =>
        obtain ⟨gts, preds⟩ := m
        rw [hm] at h
        simp only at h
        cases ht : inRange (dets.map Detection.box) p.areaRange with
        | error e => rw [ht] at h; cases h
        | ok tags =>
          rw [ht] at h
          simp only [Except.ok.injEq] at h
          obtain ⟨hl1, hl2, _⟩ := C47_inverse rows (keptTruths p gt).length p.iouThreshold
            (by rw [hrows]; intro row hrow; obtain ⟨d, _, rfl⟩ := List.mem_map.1 hrow; simp) gts preds hm
          have hl2' : dets.length = preds.length := by rw [hl2, hrows]; simp
          have htags : tags = dets.map fun d => p.areaRange.contains d.box.area := by
            rw [inRange_ok ht, List.map_map]; rfl
          obtain ⟨s1, s2⟩ := second_part dets preds p.areaRange hl2'
          have hfm := fm_len gts
          refine ⟨dets, gts, preds, hd ▸ kept_detections p pred hn, by rw [← hrows]; exact hm, ?_, ?_, ?_, ?_⟩
          · rw [← h]
            unfold pairs expectedPairs
            simp only
            rw [htags, s1, s2]
            have hA : (keptTruths p gt).length = ((gts.filterMap id).map (fun i => ((dets[i]?).map Detection.confidence).getD 0) ++
                List.replicate (gts.count none) 0).length := by
              simp only [List.length_append, List.length_map, List.length_replicate]
              omega
            rw [List.zip_append (by rw [List.length_replicate]; exact hA)]
            rw [zip_rep _ _ _ hA, zip_rep _ _ _ (by simp)]
            refine List.Perm.append ?_ ?_
            · rw [← hl1, ← map_range gts fun i => ((dets[i]?).map Detection.confidence).getD 0]
              refine List.Perm.trans ?_ (first_part _ gts)
              refine List.Perm.of_eq ?_
              simp
            · simp [Function.comp_def]
          · rw [← h]
            unfold pairs
            simp only [List.length_append, List.length_map, List.length_replicate]
            rw [htags, s1, s2]
            simp only [List.length_map]
            omega
          · rw [← h]
            simp [pairs]
          · rw [← h]
            intro w hw
            obtain ⟨_, _, rfl⟩ := List.mem_map.1 hw
            ring

/-- C67: the only error is ValueError. -/
theorem C67_error (p : Params) (gt : List Truth) (pred : List Detection) (e : Err) (h : toPairs p gt pred = .error e) :
    e = .valueError := by
  have ha : ∀ l e, areas l = .error e → e = .valueError := by
    intro l e h
    unfold areas at h
    split_ifs at h <;> cases h <;> rfl
  have hr : ∀ l r e, inRange l r = .error e → e = .valueError := by
    intro l r e h
    unfold inRange at h
    split_ifs at h
    · cases h; rfl
    · cases hq : areas l with
      | error e' => rw [hq] at h; cases h; exact ha l _ hq
      | ok _ => rw [hq] at h; cases h
  unfold toPairs at h
  by_cases h1 : p.maxNumDetections.any (fun n => decide (n ≤ 0)) = true
  · rw [if_pos h1] at h; cases h; rfl
  rw [if_neg h1] at h
  by_cases h2 : p.classId < 0
  · rw [if_pos h2] at h; cases h; rfl
  rw [if_neg h2] at h
  by_cases h3 : p.classWeight.any (fun w => decide (w < 0)) = true
  · rw [if_pos h3] at h; cases h; rfl
  rw [if_neg h3] at h
  cases hk : kept p gt pred with
  | error e' =>
    rw [hk] at h; cases h
    unfold kept at hk
    simp only at hk
    cases hq : inRange ((ofClass Truth.cls p.classId gt).map Truth.box) p.areaRange with
    | error e' => rw [hq] at hk; cases hk; exact hr _ _ _ hq
    | ok _ => rw [hq] at hk; cases hk
  | ok gd =>
    obtain ⟨g, dets⟩ := gd
    rw [hk] at h
    simp only at h
    cases hi : ious (dets.map Detection.box) (g.map Truth.box) with
    | error e' =>
      rw [hi] at h; cases h
      unfold ious at hi
      cases h5 : areas (dets.map Detection.box) with
      | error e' => rw [h5] at hi; cases hi; exact ha _ _ h5
      | ok _ =>
        rw [h5] at hi
        cases h6 : areas (g.map Truth.box) with
        | error e' => rw [h6] at hi; cases hi; exact ha _ _ h6
        | ok _ => rw [h6] at hi; cases hi
    | ok rows =>
      rw [hi] at h
      simp only at h
      cases hm : matchBoxes rows g.length p.iouThreshold with
      | error e' =>
        rw [hm] at h; cases h
        unfold matchBoxes at hm
        split_ifs at hm
        cases hm; rfl
      | ok m =>
        rw [hm] at h
        simp only at h
        cases ht : inRange (dets.map Detection.box) p.areaRange with
        | error e' => rw [ht] at h; cases h; exact hr _ _ _ ht
        | ok _ => rw [ht] at h; cases h

/-- C67: the numbers of the confusion matrix for any way to say which predictions are positive: the positive pairs with label 1
are the positive matched detections, as long as 0 is not positive, the pairs with label 1 are the ground truths, and the positive
pairs with label 0 are the positive detections in the range that are not matched. -/
theorem C67_counts_by (numGt : ℕ) (dets : List Detection) (r : AreaRange) (gts preds : List (Option ℕ)) (labels predictions : List ℚ)
    (h : (labels.zip predictions).Perm (expectedPairs numGt dets r gts preds)) (hg : gts.length = numGt)
    (hlen : preds.length = dets.length) (hinv : ∀ i j : ℕ, gts[j]? = some (some i) ↔ preds[i]? = some (some j)) (S : ℚ → Bool) :
    (S 0 = false → (labels.zip predictions).countP (fun q => decide (q.1 = 1) && S q.2) =
      (dets.zip preds).countP (fun q => q.2.isSome && S q.1.confidence)) ∧
    (labels.zip predictions).countP (fun q => decide (q.1 = 1)) = numGt ∧
    (labels.zip predictions).countP (fun q => decide (q.1 = 0) && S q.2) =
      (dets.zip preds).countP (fun q => q.2.isNone && r.contains q.1.box.area && S q.1.confidence) := by
  have hcard : ∀ (n : ℕ) (f : ℕ → Bool), (List.range n).countP f = ((Finset.range n).filter fun i => f i = true).card := by
    intro n f
    rw [List.countP_eq_length_filter]
    simp [Finset.card, Finset.filter, Finset.range, Multiset.range]
  have hzip : ∀ f : Detection × Option ℕ → Bool, (dets.zip preds).countP f =
      (List.range dets.length).countP (fun i => ((dets[i]?).bind fun d => (preds[i]?).map fun q => f (d, q)).getD false) := by
    intro f
    have : (dets.zip preds).map f =
        (List.range dets.length).map (fun i => ((dets[i]?).bind fun d => (preds[i]?).map fun q => f (d, q)).getD false) := by
      refine List.ext_getElem (by simp [hlen]) fun i h1 h2 => ?_
      simp only [List.length_map, List.length_zip, hlen, min_self, List.length_range] at h1 h2
      simp [List.getElem?_eq_getElem h2, List.getElem?_eq_getElem (hlen ▸ h2)]
    have h1 : (dets.zip preds).countP f = ((dets.zip preds).map f).countP id := by rw [List.countP_map]; rfl
    rw [h1, this, List.countP_map]
    rfl
  refine ⟨fun hS => ?_, ?_, ?_⟩
  · rw [h.countP_eq, expectedPairs, List.countP_append, List.countP_map, List.countP_map, hzip]
    have h0 : ((dets.zip preds).filter fun q => q.2.isNone && r.contains q.1.box.area).countP
        ((fun q : ℚ × ℚ => decide (q.1 = 1) && S q.2) ∘ fun q => (0, q.1.confidence)) = 0 := by
      rw [List.countP_eq_zero]; simp
    rw [h0, Nat.add_zero, hcard, hcard]
    have hdet : ∀ i j : ℕ, preds[i]? = some (some j) → ∃ d, dets[i]? = some d := by
      intro i j hi
      have : i < dets.length := hlen ▸ (List.getElem?_eq_some_iff.1 hi).1
      exact ⟨_, List.getElem?_eq_getElem this⟩
    refine Finset.card_bij' (fun j _ => match gts[j]? with
        | some (some i) => i
        | _ => 0) (fun i _ => match preds[i]? with
        | some (some j) => j
        | _ => 0) ?_ ?_ ?_ ?_
    all_goals
      intro k hk
      simp only [Finset.mem_filter, Finset.mem_range, Function.comp_apply] at hk ⊢
      obtain ⟨hk1, hk2⟩ := hk
    · rcases hgk : gts[k]? with _ | (_ | i)
      · simp [hgk, hS] at hk2
      · simp [hgk, hS] at hk2
      · have hp := (hinv i k).1 hgk
        obtain ⟨d, hd⟩ := hdet i k hp
        simp only [hgk, hd, Option.map_some, Option.getD_some] at hk2
        refine ⟨(List.getElem?_eq_some_iff.1 hd).1, ?_⟩
        simpa [hd, hp] using hk2
    · rcases hpk : preds[k]? with _ | (_ | j)
      · simp [hpk] at hk2
      · cases hdk : dets[k]? <;> simp [hpk, hdk] at hk2
      · have hgj := (hinv k j).2 hpk
        obtain ⟨d, hd⟩ := hdet k j hpk
        refine ⟨hg ▸ (List.getElem?_eq_some_iff.1 hgj).1, ?_⟩
        simpa [hpk, hgj, hd] using hk2
    · rcases hgk : gts[k]? with _ | (_ | i)
      · simp [hgk, hS] at hk2
      · simp [hgk, hS] at hk2
      · simp only [(hinv i k).1 hgk]
    · rcases hpk : preds[k]? with _ | (_ | j)
      · simp [hpk] at hk2
      · cases hdk : dets[k]? <;> simp [hpk, hdk] at hk2
      · simp only [(hinv k j).2 hpk]
  · rw [h.countP_eq, expectedPairs, List.countP_append, List.countP_map, List.countP_map]
    have h0 : ((dets.zip preds).filter fun q => q.2.isNone && r.contains q.1.box.area).countP
        ((fun q : ℚ × ℚ => decide (q.1 = 1)) ∘ fun q => (0, q.1.confidence)) = 0 := by
      rw [List.countP_eq_zero]; simp
    have h1 : (List.range numGt).countP ((fun q : ℚ × ℚ => decide (q.1 = 1)) ∘ fun j => (1, match gts[j]? with
        | some (some i) => ((dets[i]?).map Detection.confidence).getD 0
        | _ => 0)) = (List.range numGt).length := by
      rw [List.countP_eq_length]; simp
    rw [h0, h1]; simp
  · rw [h.countP_eq, expectedPairs, List.countP_append, List.countP_map, List.countP_map]
    have h1 : (List.range numGt).countP ((fun q : ℚ × ℚ => decide (q.1 = 0) && S q.2) ∘ fun j => (1, match gts[j]? with
        | some (some i) => ((dets[i]?).map Detection.confidence).getD 0
        | _ => 0)) = 0 := by
      rw [List.countP_eq_zero]; simp
    rw [h1, Nat.zero_add, List.countP_filter]
    refine List.countP_congr fun q _ => ?_
    simp only [Function.comp_apply, true_and, Bool.and_eq_true, decide_eq_true_eq]
    tauto

/-- C67: the numbers of the confusion matrix at a threshold `t`: the pairs with label 1 above the threshold are the matched
detections above it, the pairs with label 1 are the ground truths, and the pairs with label 0 are the detections in the range
that are not matched. -/
theorem C67_counts (numGt : ℕ) (dets : List Detection) (r : AreaRange) (gts preds : List (Option ℕ)) (labels predictions : List ℚ)
    (h : (labels.zip predictions).Perm (expectedPairs numGt dets r gts preds)) (hg : gts.length = numGt)
    (hlen : preds.length = dets.length) (hinv : ∀ i j : ℕ, gts[j]? = some (some i) ↔ preds[i]? = some (some j)) (t : ℚ) (ht : 0 ≤ t) :
    (labels.zip predictions).countP (fun q => decide (q.1 = 1 ∧ t < q.2)) =
      (dets.zip preds).countP (fun q => q.2.isSome && decide (t < q.1.confidence)) ∧
    (labels.zip predictions).countP (fun q => decide (q.1 = 1)) = numGt ∧
    (labels.zip predictions).countP (fun q => decide (q.1 = 0 ∧ t < q.2)) =
      (dets.zip preds).countP (fun q => q.2.isNone && r.contains q.1.box.area && decide (t < q.1.confidence)) := by
  have := C67_counts_by numGt dets r gts preds labels predictions h hg hlen hinv (fun q => decide (t < q))
  simp only [Bool.decide_and]
  exact ⟨this.1 (by simpa using ht), this.2⟩

/-- A matched detection, an unmatched one and an unmatched ground truth. -/
example : toPairs { classId := 1, iouThreshold := 1 / 2, areaRange := ⟨.fin 0, .pinf⟩, weight := some (1 / 2) }
      [⟨⟨0, 0, 2, 2⟩, 1⟩, ⟨⟨5, 5, 6, 6⟩, 1⟩] [⟨⟨8, 8, 9, 9⟩, 1, 3 / 10⟩, ⟨⟨0, 0, 2, 2⟩, 1, 9 / 10⟩, ⟨⟨5, 5, 6, 6⟩, 2, 1⟩] =
    .ok { labels := [1, 1, 0], predictions := [9 / 10, 0, 3 / 10], weights := [1 / 2, 1 / 2, 1 / 2] } := by
  decide +kernel

/-! ## Truncation -/

/-- C69, the part that holds: the array is cut to the given positive number of rows. Missing: a number of rows that is 0
(`C69_zero_rows`). -/
theorem C69_truncate_partial {R : Type} (n : ℕ) (hn : 0 < n) (rows : List R) : truncate (some n) rows = rows.take n := by
  unfold truncate
  simp only
  split_ifs with h
  · simp
  · rw [List.take_of_length_le]
    omega

/-- C69 does not hold in full: if the model reports that there are no detections, all rows (which are padding) are kept. -/
theorem C69_zero_rows {R : Type} (rows : List R) : truncate (some 0) rows = rows := by
  unfold truncate
  simp

/-- C69: a negative number of rows, or none, leaves the array as it is. -/
theorem C69_no_rows {R : Type} (rows : List R) : truncate none rows = rows ∧ ∀ n : ℤ, n < 0 → truncate (some n) rows = rows := by
  refine ⟨rfl, fun n hn => ?_⟩
  unfold truncate
  simp only
  rw [if_neg]
  omega

example : truncate (some 2) [10, 20, 30] = [10, 20] := by decide

example : truncate (some (-1)) [10, 20, 30] = [10, 20, 30] := by decide

end Boxes
end TFMA
