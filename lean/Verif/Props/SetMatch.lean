import Verif.Model.SetMatch
import Verif.Py.DictLemmas
import Mathlib.Data.List.Dedup

/-!
# C68: matching sets of labels and predictions
-/

namespace TFMA
namespace SetMatch

variable {C : Type} [DecidableEq C]

/-- The last value listed for a key. -/
def lastValue (l : List (C × ℚ)) (c : C) : Option ℚ := ((l.filter fun p => decide (p.1 = c)).getLast?).map Prod.snd

private theorem lastValue_cons (p : C × ℚ) (l : List (C × ℚ)) (c : C) :
    lastValue (p :: l) c = (lastValue l c).or (if p.1 = c then some p.2 else none) := by
  unfold lastValue
  by_cases h : p.1 = c
  · rw [List.filter_cons_of_pos (by simpa using h), if_pos h]
    cases hl : l.filter fun p => decide (p.1 = c) with
    | nil => simp
    | cons q l' => simp [List.getLast?_cons]
  · rw [List.filter_cons_of_neg (by simpa using h), if_neg h]
    simp

private theorem get?_update (l : List (C × ℚ)) : ∀ (d : Dict C ℚ) (c : C),
    Dict.get? (Dict.update d l) c = (lastValue l c).or (Dict.get? d c) := by
  unfold Dict.update
  induction l with
  | nil => intro d c; simp [lastValue]
  | cons p l ih =>
    intro d c
    rw [List.foldl_cons, ih, lastValue_cons, Dict.get?_set]
    by_cases h : p.1 = c
    · simp [h, Option.or_assoc]
    · simp [h]

private theorem get?_dictZip (ks : List C) (vs : List ℚ) (c : C) : Dict.get? (dictZip ks vs) c = lastValue (ks.zip vs) c := by
  unfold dictZip
  rw [get?_update]
  simp

/-- The predictions that are looked at: all or the first `topK`. -/
def considered (predictions : List (C × ℚ)) : Option ℕ → List (C × ℚ)
  | none => predictions
  | some k => predictions.take k

/-- The weight that an item should have: the example weight times the weight of its class, both 1 if they are not given. -/
def fullWeight (exampleWeight : Option ℚ) (classWeights : Option (List (C × ℚ))) (c : C) : ℚ :=
  exampleWeight.getD 1 * ((classWeights.bind fun l => lastValue l c)).getD 1

/-- The label and prediction of a class. -/
def item (labels : List C) (predictions : List (C × ℚ)) (c : C) : ℚ × Fl :=
  (if c ∈ labels then 1 else 0, match lastValue predictions c with
    | some s => .fin s
    | none => .ninf)

/-- The classes occurring as label or prediction. -/
def classes (labels : List C) (predictions : List (C × ℚ)) : List C :=
  (labels ++ predictions.map Prod.fst).dedup

private theorem lastValue_isSome (l : List (C × ℚ)) (c : C) : (lastValue l c).isSome = true ↔ c ∈ l.map Prod.fst := by
  unfold lastValue
  rw [Option.isSome_map, List.getLast?_isSome]
  simp only [ne_eq, List.filter_eq_nil_iff, decide_eq_true_eq, not_forall, not_not, List.mem_map, exists_prop]

/-- The weights as they are passed on: without example weight (or with example weight 0) and class weights there are none. -/
theorem C68_weight (exampleWeight : Option ℚ) (classWeights : Option (List (C × ℚ))) (h : exampleWeight ≠ some 0) (c : C) :
    (weight exampleWeight (classWeights.map fun l => Dict.update [] l) c).getD 1 = fullWeight exampleWeight classWeights c := by
  unfold weight fullWeight
  have hget : ∀ l : List (C × ℚ), Dict.get? (Dict.update [] l) c = lastValue l c := by
    intro l; rw [get?_update]; simp
  have hempty : ∀ l : List (C × ℚ), (Dict.update ([] : Dict C ℚ) l).isEmpty = true → lastValue l c = none := by
    intro l hl
    rw [← hget l, List.isEmpty_iff.1 hl]
    rfl
  cases exampleWeight with
  | none =>
    cases classWeights with
    | none => simp
    | some l =>
      simp only [Option.any_none, Bool.not_false, Bool.true_and, Option.map_some, Option.any_some, Option.getD_some,
        Option.getD_none, Option.bind_some, Bool.not_not, one_mul, Bool.false_eq_true, if_false]
      by_cases he : (Dict.update ([] : Dict C ℚ) l).isEmpty = true
      · rw [if_pos he, hempty l he]
      · rw [if_neg he]
        simp only [Bool.not_eq_true] at he
        simp only [he, Bool.not_false, if_true, hget]
        cases lastValue l c <;> simp
  | some w =>
    have hw : w ≠ 0 := fun hh => h (by rw [hh])
    cases classWeights with
    | none => simp [hw]
    | some l =>
      simp only [Option.any_some, ne_eq, hw, not_false_eq_true, decide_true, Bool.not_true, Bool.false_and, if_true,
        Option.map_some, Option.getD_some, Option.bind_some, one_mul, Bool.false_eq_true, if_false]
      by_cases he : (Dict.update ([] : Dict C ℚ) l).isEmpty = true
      · simp [he, hempty l he]
      · simp only [Bool.not_eq_true] at he
        simp only [he, Bool.not_false, if_true, hget]
        cases lastValue l c <;> simp

private def cut {α : Type} (l : List α) : Option ℕ → List α
  | some k => l.take (min k l.length)
  | none => l

/-- C68: for each class that is a label or one of the considered predictions exactly one item is yielded: label 1 if the class
is a label and 0 otherwise, and as prediction its (last) score, or minus infinity if it is not predicted. -/
theorem C68_items (labels predClasses : List C) (scores : List ℚ) (hs : predClasses.length = scores.length) (topK : Option ℕ)
    (exampleWeight : Option ℚ) (classWeights : Option (List C × List ℚ))
    (hc : ∀ p, classWeights = some p → p.1.length = p.2.length) :
    ∃ items, process labels predClasses (some scores) topK exampleWeight classWeights = .ok items ∧
      items.Perm ((classes labels (considered (predClasses.zip scores) topK)).map fun c =>
        ⟨(item labels (considered (predClasses.zip scores) topK) c).1,
          (item labels (considered (predClasses.zip scores) topK) c).2,
          weight exampleWeight (classWeights.map fun p => Dict.update [] (p.1.zip p.2)) c⟩) := by
  obtain ⟨pc, hpc⟩ : ∃ pc, pc = cut predClasses topK := ⟨_, rfl⟩
  obtain ⟨sc, hsc⟩ : ∃ sc, sc = cut scores topK := ⟨_, rfl⟩
  have hlen : pc.length = sc.length := by
    rw [hpc, hsc]; cases topK <;> simp [cut, hs]
  have hcons : considered (predClasses.zip scores) topK = pc.zip sc := by
    rw [hpc, hsc]
    cases topK with
    | none => rfl
    | some k =>
      simp only [considered, cut]
      rw [List.zip_eq_zipWith, List.take_zipWith, ← List.zip_eq_zipWith]
      rw [hs]
      have h1 : ∀ {α : Type} (l : List α), l.length = scores.length → l.take (min k scores.length) = l.take k := by
        intro α l hl
        rw [← hl]
        exact List.take_eq_take_min.symm
      rw [h1 _ hs, h1 _ rfl]
  have hproc : process labels predClasses (some scores) topK exampleWeight classWeights =
      .ok (((labels.dedup.filter fun c => decide (c ∈ pc.dedup)).map fun c =>
          (⟨1, .fin ((Dict.get? (dictZip pc sc) c).getD 0), weight exampleWeight (classWeights.map fun p => dictZip p.1 p.2) c⟩ : Item)) ++
        ((labels.dedup.filter fun c => !decide (c ∈ pc.dedup)).map fun c =>
          ⟨1, .ninf, weight exampleWeight (classWeights.map fun p => dictZip p.1 p.2) c⟩) ++
        ((pc.dedup.filter fun c => !decide (c ∈ labels.dedup)).map fun c =>
          ⟨0, .fin ((Dict.get? (dictZip pc sc) c).getD 0), weight exampleWeight (classWeights.map fun p => dictZip p.1 p.2) c⟩)) := by
    unfold process
    rw [if_neg, if_neg]
    · rw [hpc, hsc]; cases topK <;> rfl
    · simp [hs]
    · intro h
      cases classWeights with
      | none => simp at h
      | some p => simp [hc p rfl] at h
  refine ⟨_, hproc, ?_⟩
  have hmem : ∀ c, c ∈ (pc.zip sc).map Prod.fst ↔ c ∈ pc := by
    intro c
    rw [List.map_fst_zip (by omega)]
  have hlast : ∀ c, c ∈ pc → ∃ s, lastValue (pc.zip sc) c = some s := by
    intro c h
    exact Option.isSome_iff_exists.1 ((lastValue_isSome _ c).2 ((hmem c).2 h))
  have hnone : ∀ c, c ∉ pc → lastValue (pc.zip sc) c = none := by
    intro c h
    cases hl : lastValue (pc.zip sc) c with
    | none => rfl
    | some s => exact absurd ((hmem c).1 ((lastValue_isSome _ c).1 (by rw [hl]; rfl))) h
  obtain ⟨g, hg⟩ : ∃ g : C → Item, g = fun c => ⟨(item labels (pc.zip sc) c).1, (item labels (pc.zip sc) c).2,
      weight exampleWeight (classWeights.map fun p => dictZip p.1 p.2) c⟩ := ⟨_, rfl⟩
  have hgoal : ((classes labels (considered (predClasses.zip scores) topK)).map fun c =>
        (⟨(item labels (considered (predClasses.zip scores) topK) c).1,
          (item labels (considered (predClasses.zip scores) topK) c).2,
          weight exampleWeight (classWeights.map fun p => Dict.update [] (p.1.zip p.2)) c⟩ : Item)) =
      (classes labels (pc.zip sc)).map g := by rw [hcons, hg]; rfl
  rw [hgoal]
  have e1 : ((labels.dedup.filter fun c => decide (c ∈ pc.dedup)).map fun c =>
      (⟨1, .fin ((Dict.get? (dictZip pc sc) c).getD 0), weight exampleWeight (classWeights.map fun p => dictZip p.1 p.2) c⟩ : Item)) =
      (labels.dedup.filter fun c => decide (c ∈ pc.dedup)).map g := by
    refine List.map_congr_left fun c hc' => ?_
    obtain ⟨h1, h2⟩ := List.mem_filter.1 hc'
    simp only [List.mem_dedup, decide_eq_true_eq] at h1 h2
    obtain ⟨s, hs⟩ := hlast c h2
    rw [hg]
    simp [item, h1, hs, get?_dictZip]
  have e2 : ((labels.dedup.filter fun c => !decide (c ∈ pc.dedup)).map fun c =>
      (⟨1, .ninf, weight exampleWeight (classWeights.map fun p => dictZip p.1 p.2) c⟩ : Item)) =
      (labels.dedup.filter fun c => !decide (c ∈ pc.dedup)).map g := by
    refine List.map_congr_left fun c hc' => ?_
    obtain ⟨h1, h2⟩ := List.mem_filter.1 hc'
    simp only [List.mem_dedup, Bool.not_eq_true', decide_eq_false_iff_not] at h1 h2
    rw [hg]
    simp [item, h1, hnone c h2]
  have e3 : ((pc.dedup.filter fun c => !decide (c ∈ labels.dedup)).map fun c =>
      (⟨0, .fin ((Dict.get? (dictZip pc sc) c).getD 0), weight exampleWeight (classWeights.map fun p => dictZip p.1 p.2) c⟩ : Item)) =
      (pc.dedup.filter fun c => !decide (c ∈ labels.dedup)).map g := by
    refine List.map_congr_left fun c hc' => ?_
    obtain ⟨h1, h2⟩ := List.mem_filter.1 hc'
    simp only [List.mem_dedup, Bool.not_eq_true', decide_eq_false_iff_not] at h1 h2
    obtain ⟨s, hs⟩ := hlast c h1
    rw [hg]
    simp [item, h2, hs, get?_dictZip]
  rw [e1, e2, e3, ← List.map_append, ← List.map_append]
  refine List.Perm.map g ?_
  refine (List.perm_ext_iff_of_nodup ?_ (List.nodup_dedup _)).2 ?_
  · refine List.nodup_append.2 ⟨List.nodup_append.2 ⟨?_, ?_, ?_⟩, ?_, ?_⟩
    · exact (List.nodup_dedup _).filter _
    · exact (List.nodup_dedup _).filter _
    · intro a ha b hb hab
      subst hab
      have h1 := (List.mem_filter.1 ha).2
      have h2 := (List.mem_filter.1 hb).2
      rw [h1] at h2; cases h2
    · exact (List.nodup_dedup _).filter _
    · intro a ha b hb hab
      subst hab
      have h1 := (List.mem_filter.1 hb).2
      rcases List.mem_append.1 ha with h2 | h2 <;> simp [(List.mem_filter.1 h2).1] at h1 <;>
        exact h1 (by simpa using (List.mem_filter.1 h2).1)
  · intro c
    simp only [List.mem_append, List.mem_filter, List.mem_dedup, decide_eq_true_eq, Bool.not_eq_true', decide_eq_false_iff_not,
      hmem]
    tauto

/-- C68, the part that holds: the items have the label, score and weight of their class, if the example weight is not 0.
Missing: an example weight of 0 (`C68_zero_weight`). -/
theorem C68_weighted_partial (labels predClasses : List C) (scores : List ℚ) (hs : predClasses.length = scores.length)
    (topK : Option ℕ) (exampleWeight : Option ℚ) (h0 : exampleWeight ≠ some 0) (classWeights : Option (List C × List ℚ))
    (hc : ∀ p, classWeights = some p → p.1.length = p.2.length) :
    ∃ items, process labels predClasses (some scores) topK exampleWeight classWeights = .ok items ∧
      (items.map fun i => (i.label, i.prediction, i.weight.getD 1)).Perm
        ((classes labels (considered (predClasses.zip scores) topK)).map fun c =>
          ((item labels (considered (predClasses.zip scores) topK) c).1,
            (item labels (considered (predClasses.zip scores) topK) c).2,
            fullWeight exampleWeight (classWeights.map fun p => p.1.zip p.2) c)) := by
  obtain ⟨items, h1, h2⟩ := C68_items labels predClasses scores hs topK exampleWeight classWeights hc
  refine ⟨items, h1, ?_⟩
  refine (h2.map _).trans (List.Perm.of_eq ?_)
  rw [List.map_map]
  refine List.map_congr_left fun c _ => ?_
  have := C68_weight exampleWeight (classWeights.map fun p => p.1.zip p.2) h0 c
  rw [Option.map_map] at this
  simp only [Function.comp_def] at this ⊢
  rw [this]

/-- C68 does not hold in full: an example with weight 0 has no weight, which counts as 1. -/
theorem C68_zero_weight : ∃ items, process ["sun"] ["sun", "sea"] (some [1, 7 / 10]) none (some 0) none = .ok items ∧
    ∀ i ∈ items, i.weight = none :=
  ⟨_, rfl, by decide +kernel⟩

/-- C68: with an empty score key there are no scores and every example raises, although the code checks for the key. -/
theorem C68_no_scores (labels predClasses : List C) (topK : Option ℕ) (exampleWeight : Option ℚ)
    (classWeights : Option (List C × List ℚ)) : ∃ e, process labels predClasses none topK exampleWeight classWeights = .error e := by
  unfold process
  split_ifs with h1 h2
  · exact ⟨_, rfl⟩
  · exact ⟨_, rfl⟩
  · cases topK <;> exact ⟨_, rfl⟩

/-- The example of the documentation. -/
example : process ["sun", "moon"] ["sun", "sea", "light"] (some [1, 7 / 10, 3 / 10]) none (some (1 / 10))
      (some (["sun", "moon"], [3 / 10, 4 / 10])) =
    .ok [⟨1, .fin 1, some (3 / 100)⟩, ⟨1, .ninf, some (4 / 100)⟩, ⟨0, .fin (7 / 10), some (1 / 10)⟩,
      ⟨0, .fin (3 / 10), some (1 / 10)⟩] := by decide +kernel

end SetMatch
end TFMA
