import Verif.Props.InputsFlow

/-!
# C79: which label, prediction and weight a metric sees
-/

namespace TFMA
namespace Inputs

variable (part : ℕ → List Fl → List ℕ)

/-! ### Weights -/

private theorem optional_leaf {β : Type} (x : β) (name : String) : optionalKey (.leaf x) name = .leaf x := rfl

/-- What `byName` returns does not depend on the weights except in the weights. -/
private theorem byName_weight (name : String) (l : Tree (Option (Arr ℚ))) (p : Tree (Option (Arr Fl))) (w w' : Tree (Option (Arr ℚ))) :
    (∃ e, byName name ⟨l, p, w⟩ = .error e ∧ byName name ⟨l, p, w'⟩ = .error e) ∨
    ∃ l' p', byName name ⟨l, p, w⟩ = .ok ⟨l', p', if name = "" then w else optionalKey w name⟩ ∧
      byName name ⟨l, p, w'⟩ = .ok ⟨l', p', if name = "" then w' else optionalKey w' name⟩ := by
  unfold byName
  by_cases hn : name = ""
  · right
    exact ⟨l, p, by simp [hn], by simp [hn]⟩
  · rw [if_neg hn, if_neg hn]
    by_cases h0 : isNoneLeaf p = true
    · right
      exact ⟨optionalKey l name, p, by simp [h0, hn, bind, Except.bind, pure, Except.pure],
        by simp [h0, hn, bind, Except.bind, pure, Except.pure]⟩
    · cases hr : requireKey p name with
      | error e => left; exact ⟨e, by simp [h0, hr, bind, Except.bind], by simp [h0, hr, bind, Except.bind]⟩
      | ok q =>
        right
        exact ⟨optionalKey l name, q, by simp [h0, hr, hn, bind, Except.bind, pure, Except.pure],
          by simp [h0, hr, hn, bind, Except.bind, pure, Except.pure]⟩

/-- The scalar weight 1. -/
def weightOne : Tree (Option (Arr ℚ)) := .leaf (some ⟨[], [1]⟩)

private theorem find_unweighted (a : Args) (h : a.exampleWeighted = false) (l : Tree (Option (Arr ℚ)))
    (p : Tree (Option (Arr Fl))) (w : Tree (Option (Arr ℚ))) :
    find a ⟨l, p, w⟩ = find { a with exampleWeighted := true } ⟨l, p, weightOne⟩ := by
  unfold find
  simp only
  generalize (specKeys a.specs a.model) = sk
  obtain ⟨pk, lk⟩ := sk
  simp only
  generalize (if lk = "" then l else optionalKey l lk) = l1
  rcases byName_weight a.model l1 p w weightOne with ⟨e, h1, h2⟩ | ⟨l2, p2, h1, h2⟩
  · rw [h1, h2]; rfl
  · rw [h1, h2]
    have e1 : (if a.model = "" then weightOne else optionalKey weightOne a.model) = weightOne := by
      split <;> rfl
    rw [e1]
    simp only [bind, Except.bind]
    rcases byName_weight a.output l2 p2 (if a.model = "" then w else optionalKey w a.model) weightOne with
      ⟨e, h1, h2⟩ | ⟨l3, p3, h1, h2⟩
    · rw [h1, h2]
    · rw [h1, h2]
      have e1 : (if a.output = "" then weightOne else optionalKey weightOne a.output) = weightOne := by
        split <;> rfl
      rw [e1]
      simp [h, weightOne, isNoneLeaf]

/-- **C79** (unweighted metrics): a metric that is not example weighted sees what an example weighted one sees when every
example has weight 1, whatever the weights are. -/
theorem C79_unweighted (a : Args) (h : a.exampleWeighted = false) (l : Tree (Option (Arr ℚ)))
    (p : Tree (Option (Arr Fl))) (w : Tree (Option (Arr ℚ))) :
    toLabelPredictionWeight part a ⟨l, p, w⟩ =
      toLabelPredictionWeight part { a with exampleWeighted := true } ⟨l, p, weightOne⟩ := by
  unfold toLabelPredictionWeight
  rw [find_unweighted a h l p w]
  rfl

/-- Missing weights count as 1. -/
theorem C79_no_weights (a : Args) (hm : a.model = "") (ho : a.output = "") (l : Tree (Option (Arr ℚ)))
    (p : Tree (Option (Arr Fl))) :
    toLabelPredictionWeight part a ⟨l, p, .leaf none⟩ = toLabelPredictionWeight part a ⟨l, p, weightOne⟩ := by
  unfold toLabelPredictionWeight find
  simp [hm, ho, byName, isNoneLeaf, weightOne, bind, Except.bind]

/-- Non-vacuous: weight 5 is ignored by an unweighted metric and used by a weighted one. -/
example : toLabelPredictionWeight part {} (raw ⟨[], [1]⟩ ⟨[], [.fin 2]⟩ ⟨[], [5]⟩) = .ok [⟨one 1, one (.fin 2), one 1⟩] ∧
    toLabelPredictionWeight part { exampleWeighted := true } (raw ⟨[], [1]⟩ ⟨[], [.fin 2]⟩ ⟨[], [5]⟩) =
      .ok [⟨one 1, one (.fin 2), one 5⟩] := ⟨rfl, rfl⟩

/-- **C79** (single weight): a metric that needs one weight per example raises ValueError when the weights of the example differ,
and otherwise sees their common value. -/
theorem C79_single_weight (a : Args) (hs : a.specs = []) (hm : a.model = "") (ho : a.output = "")
    (he : a.exampleWeighted = true) (hw : a.singleWeight = true) (l : Arr ℚ) (p : Arr Fl) (s : List ℕ) (x : ℚ) (xs : List ℚ) :
    ((∃ y ∈ xs, y ≠ x) → toLabelPredictionWeight part a (raw l p ⟨s, x :: xs⟩) = .error .valueError) ∧
    ((∀ y ∈ xs, y = x) → xs ≠ [] →
      toLabelPredictionWeight part a (raw l p ⟨s, x :: xs⟩) = toLabelPredictionWeight part a (raw l p ⟨[], [x]⟩)) := by
  have hc : ∀ w, checkNone a ⟨some l, some p, w⟩ = .ok () := by
    intro w; unfold checkNone; split <;> simp
  constructor
  · rintro ⟨y, hy, hne⟩
    rw [toLPW_raw part a hs hm ho he]
    unfold process
    rw [hc]
    have : singleWeight a ⟨s, x :: xs⟩ = .error .valueError := by
      unfold singleWeight
      have hlen : 0 < xs.length := List.length_pos_of_mem hy
      have h1 : (a.singleWeight && decide (Arr.size (⟨s, x :: xs⟩ : Arr ℚ) > 1)) = true := by
        simp [hw, Arr.size, hlen]
      rw [if_pos h1]
      simp only
      rw [if_neg]
      simp only [List.all_eq_true, decide_eq_true_eq, not_forall]
      exact ⟨y, hy, hne⟩
    simp [this, bind, Except.bind]
  · intro hall hne
    rw [toLPW_raw part a hs hm ho he, toLPW_raw part a hs hm ho he]
    unfold process
    rw [hc, hc]
    have e1 : singleWeight a ⟨s, x :: xs⟩ = .ok ⟨[], [x]⟩ := by
      unfold singleWeight
      have hlen : 0 < xs.length := List.length_pos_iff.2 hne
      have h1 : (a.singleWeight && decide (Arr.size (⟨s, x :: xs⟩ : Arr ℚ) > 1)) = true := by
        simp [hw, Arr.size, hlen]
      rw [if_pos h1]
      simp only
      rw [if_pos]
      simp only [List.all_eq_true, decide_eq_true_eq]
      exact hall
    have e2 : singleWeight a ⟨[], [x]⟩ = .ok ⟨[], [x]⟩ := by
      unfold singleWeight
      rw [if_neg]
      simp [Arr.size]
    rw [e1, e2]
    rfl

/-! ### Missing values -/

/-- **C79** (missing values): without a label or without a prediction the metric raises ValueError, unless it allows missing
values. -/
theorem C79_missing (a : Args) (hs : a.specs = []) (hm : a.model = "") (ho : a.output = "") (hn : a.allowNone = false)
    (l : Option (Arr ℚ)) (p : Option (Arr Fl)) (w : Option (Arr ℚ)) (h : l = none ∨ p = none) :
    toLabelPredictionWeight part a ⟨.leaf l, .leaf p, .leaf w⟩ = .error .valueError := by
  have hf : ∃ w', find a ⟨.leaf l, .leaf p, .leaf w⟩ = .ok ⟨l, p, w'⟩ := by
    unfold find
    simp only [hs, hm, ho, specKeys, byName, List.find?_nil, if_true, bind, Except.bind, requireLeaf, preparePrediction, pure,
      Except.pure]
    cases a.exampleWeighted <;> cases w <;> exact ⟨_, rfl⟩
  obtain ⟨w', hf⟩ := hf
  unfold toLabelPredictionWeight
  rw [hf]
  have : checkNone a ⟨l, p, w'⟩ = .error .valueError := by
    unfold checkNone
    rw [if_neg (by simp [hn])]
    rw [if_pos]
    rcases h with rfl | rfl <;> simp
  simp [process, this, bind, Except.bind]

/-- With missing values allowed, the missing side is an empty array. -/
example : toLabelPredictionWeight part { allowNone := true } ⟨.leaf none, .leaf (some ⟨[], [.fin 2]⟩), .leaf none⟩ =
    .ok [⟨⟨[0], []⟩, one (.fin 2), one 1⟩] := rfl

/-- **C79** (missing predictions): if the metric allows missing values, missing predictions are not looked up by the names of model and
output, they stay missing. -/
theorem C79_missing_prediction (a : Args) (hs : a.specs = []) (l w : Option (Arr ℚ)) :
    toLabelPredictionWeight part a ⟨.leaf l, .leaf none, .leaf w⟩ =
      toLabelPredictionWeight part { a with model := "", output := "" } ⟨.leaf l, .leaf none, .leaf w⟩ := by
  unfold toLabelPredictionWeight
  have : find a ⟨.leaf l, .leaf none, .leaf w⟩ = find { a with model := "", output := "" } ⟨.leaf l, .leaf none, .leaf w⟩ := by
    unfold find
    by_cases h1 : a.model = "" <;> by_cases h2 : a.output = "" <;>
      simp [hs, h1, h2, specKeys, byName, isNoneLeaf, optionalKey, bind, Except.bind, pure, Except.pure]
  rw [this]
  rfl

/-- Non-vacuous. -/
example : toLabelPredictionWeight part { allowNone := true, model := "m", output := "o" }
      ⟨.leaf (some (one 2)), .leaf none, .leaf none⟩ = .ok [⟨one 2, ⟨[0], []⟩, one 1⟩] := rfl

/-- **C79** (plain predictions): for a named model or output the predictions must be a dictionary with its name; an array, as yielded
by the preprocessors for boxes (object_detection_preprocessors.py 189–194) and sets (set_match_preprocessors.py 235–260), is
rejected. -/
theorem C79_plain_prediction (a : Args) (hn : a.model ≠ "" ∨ a.output ≠ "") (l w : Tree (Option (Arr ℚ))) (p : Arr Fl) :
    toLabelPredictionWeight part a ⟨l, .leaf (some p), w⟩ = .error .valueError := by
  unfold toLabelPredictionWeight find
  by_cases hm : a.model = ""
  · have ho : a.output ≠ "" := hn.resolve_left (not_not.2 hm)
    simp [byName, hm, ho, isNoneLeaf, requireKey, bind, Except.bind]
  · simp [byName, hm, isNoneLeaf, requireKey, bind, Except.bind]

/-- Non-vacuous. -/
example : ({ model := "candidate" } : Args).model ≠ "" ∨ ({ model := "candidate" } : Args).output ≠ "" := by decide

/-! ### Model specs -/

private theorem require_ok {β : Type} {f : Forest β} {k : String} {x : β} (h : f.find? k = some (.leaf x)) :
    optionalKey (.node f) k = .leaf x := by
  simp [optionalKey, getByKey, h, isEmptyNode]

/-- **C79** (single model): with one model spec its label key and prediction key are used, whatever its name is. -/
theorem C79_single_spec (a : Args) (s : ModelSpec) (hs : a.specs = [s]) (hm : a.model = "") (ho : a.output = "")
    (L : Forest (Option (Arr ℚ))) (P : Forest (Option (Arr Fl))) (l : Option (Arr ℚ)) (p : Option (Arr Fl))
    (w : Tree (Option (Arr ℚ))) (hl : s.labelKey ≠ "") (hp : s.predictionKey ≠ "")
    (hL : L.find? s.labelKey = some (.leaf l)) (hP : P.find? s.predictionKey = some (.leaf p)) :
    toLabelPredictionWeight part a ⟨.node L, .node P, w⟩ =
      toLabelPredictionWeight part { a with specs := [] } ⟨.leaf l, .leaf p, w⟩ := by
  unfold toLabelPredictionWeight
  have : find a ⟨.node L, .node P, w⟩ = find { a with specs := [] } ⟨.leaf l, .leaf p, w⟩ := by
    unfold find
    simp [hs, hm, ho, specKeys, byName, hl, require_ok hL, preparePrediction, hp, hP, bind, Except.bind]
  rw [this]
  rfl

/-- **C79** (several models): with several model specs of different names, a metric of a model uses the label key and prediction
key of that model's spec; its predictions are those under the model's name. -/
theorem C79_multi_spec (a : Args) (s : ModelSpec) (hs : s ∈ a.specs) (hnd : (a.specs.map ModelSpec.name).Nodup)
    (hlen : 1 < a.specs.length) (hm : a.model = s.name) (hname : s.name ≠ "") (ho : a.output = "")
    (L : Forest (Option (Arr ℚ))) (M P : Forest (Option (Arr Fl))) (l : Option (Arr ℚ)) (p : Option (Arr Fl))
    (w : Option (Arr ℚ)) (hl : s.labelKey ≠ "") (hp : s.predictionKey ≠ "")
    (hL : L.find? s.labelKey = some (.leaf l)) (hM : M.find? s.name = some (.node P))
    (hP : P.find? s.predictionKey = some (.leaf p)) :
    toLabelPredictionWeight part a ⟨.node L, .node M, .leaf w⟩ =
      toLabelPredictionWeight part { a with specs := [], model := "" } ⟨.leaf l, .leaf p, .leaf w⟩ := by
  have hfind : a.specs.find? (fun x => (if a.specs.length > 1 then x.name else "") == a.model) = some s := by
    have : (fun x : ModelSpec => (if a.specs.length > 1 then x.name else "") == a.model) = fun x => x.name == s.name := by
      funext x
      rw [if_pos hlen, hm]
    rw [this]
    clear hlen hm this
    generalize a.specs = specs at hs hnd
    induction specs with
    | nil => cases hs
    | cons x xs ih =>
      rw [List.map_cons, List.nodup_cons] at hnd
      rcases List.mem_cons.1 hs with rfl | hs'
      · simp
      · have hne : x.name ≠ s.name := by
          intro e
          exact hnd.1 (by rw [e]; exact List.mem_map_of_mem hs')
        rw [List.find?_cons_of_neg (by simpa using hne)]
        exact ih hs' hnd.2
  have hemp : isEmptyNode (Tree.node P) = false := by
    cases P with
    | nil => cases hP
    | cons k t r => rfl
  have hmne : a.model ≠ "" := by rw [hm]; exact hname
  unfold toLabelPredictionWeight
  have : find a ⟨.node L, .node M, .leaf w⟩ = find { a with specs := [], model := "" } ⟨.leaf l, .leaf p, .leaf w⟩ := by
    unfold find specKeys
    rw [hfind]
    have hM' : requireKey (.node M) a.model = .ok (.node P) := by
      simp [requireKey, getByKey, hm, hM, hemp]
    simp [ho, byName, hl, hmne, require_ok hL, hM', isNoneLeaf, preparePrediction, hp, hP, bind, Except.bind, pure, Except.pure,
      optional_leaf]
  rw [this]
  rfl

/-- Non-vacuous: two specs with different label keys. -/
example : toLabelPredictionWeight part
      { specs := [⟨"a", "p", "la"⟩, ⟨"b", "q", "lb"⟩], model := "b" }
      ⟨.node (.cons "la" (.leaf (some (one 1))) (.cons "lb" (.leaf (some (one 2))) .nil)),
        .node (.cons "b" (.node (.cons "q" (.leaf (some (one (.fin 7)))) .nil)) .nil), .leaf none⟩ =
    .ok [⟨one 2, one (.fin 7), one 1⟩] := by rfl

/-- **C79** (common keys): a dictionary of predictions without a prediction key is replaced by its entry under the first of the
keys scores, outputs, predictions, logistic, probabilities and logits that it has. -/
theorem C79_common_key (a : Args) (hs : a.specs = []) (hm : a.model = "") (ho : a.output = "") (l w : Option (Arr ℚ))
    (P : Forest (Option (Arr Fl))) (p : Option (Arr Fl)) (pre post : List String) (k : String)
    (hk : ["scores", "outputs", "predictions", "logistic", "probabilities", "logits"] = pre ++ k :: post)
    (hpre : ∀ j ∈ pre, P.find? j = none) (hP : P.find? k = some (.leaf p)) :
    toLabelPredictionWeight part a ⟨.leaf l, .node P, .leaf w⟩ = toLabelPredictionWeight part a ⟨.leaf l, .leaf p, .leaf w⟩ := by
  have hf : commonKeys.findSome? P.find? = some (.leaf p) := by
    rw [List.findSome?_eq_some_iff]
    exact ⟨pre, k, post, hk, hP, hpre⟩
  unfold toLabelPredictionWeight
  have : find a ⟨.leaf l, .node P, .leaf w⟩ = find a ⟨.leaf l, .leaf p, .leaf w⟩ := by
    unfold find
    simp [hs, hm, ho, specKeys, byName, preparePrediction, hf, bind, Except.bind, requireLeaf]
  rw [this]

/-- Non-vacuous: the probabilities are preferred to the logits. -/
example : toLabelPredictionWeight part {} ⟨.leaf (some (one 1)),
      .node (.cons "logits" (.leaf (some (one (.fin 7)))) (.cons "probabilities" (.leaf (some (one (.fin 8)))) .nil)), .leaf none⟩ =
    .ok [⟨one 1, one (.fin 8), one 1⟩] := by rfl

/-- **C79** (outputs without values): predictions that are an empty dictionary for the metric's output raise ValueError. -/
theorem C79_empty_output (a : Args) (hs : a.specs = []) (hm : a.model = "") (ho : a.output ≠ "") (l w : Option (Arr ℚ))
    (P : Forest (Option (Arr Fl))) (hP : P.find? a.output = some (.node .nil)) :
    toLabelPredictionWeight part a ⟨.leaf l, .node P, .leaf w⟩ = .error .valueError := by
  unfold toLabelPredictionWeight
  have : find a ⟨.leaf l, .node P, .leaf w⟩ = .error .valueError := by
    unfold find
    simp [hs, hm, ho, specKeys, byName, isNoneLeaf, requireKey, getByKey, hP, isEmptyNode, bind, Except.bind]
  rw [this]
  rfl

/-- **C79** (empty labels): an empty dictionary under the label key is treated as if the label key was not given. -/
theorem C79_empty_labels (a : Args) (s : ModelSpec) (hs : a.specs = [s]) (hm : a.model = "")
    (L : Forest (Option (Arr ℚ))) (p : Tree (Option (Arr Fl))) (w : Tree (Option (Arr ℚ)))
    (hL : L.find? s.labelKey = some (.node .nil)) :
    toLabelPredictionWeight part a ⟨.node L, p, w⟩ =
      toLabelPredictionWeight part { a with specs := [{ s with labelKey := "" }] } ⟨.node L, p, w⟩ := by
  unfold toLabelPredictionWeight
  have : find a ⟨.node L, p, w⟩ = find { a with specs := [{ s with labelKey := "" }] } ⟨.node L, p, w⟩ := by
    unfold find
    simp [hs, hm, specKeys, optionalKey, getByKey, hL, isEmptyNode]
  rw [this]
  rfl

/-- Non-vacuous: the label of the output is used. -/
example : toLabelPredictionWeight part { specs := [⟨"", "", "l"⟩], output := "o" }
      ⟨.node (.cons "l" (.node .nil) (.cons "o" (.leaf (some (one 1))) .nil)),
        .node (.cons "o" (.leaf (some (one (.fin 8)))) .nil), .leaf none⟩ =
    .ok [⟨one 1, one (.fin 8), one 1⟩] := by rfl

end Inputs
end TFMA
