import Verif.Model.SetMatchMetrics
import Verif.Props.SetMatch
import Verif.Lemmas.MatrixItems
import Verif.Props.FractionalFlow
import Verif.Props.ConfusionMatrices
import Verif.Props.HistogramMatrices

/-!
# C108: set match precision and recall
-/

namespace TFMA
namespace SetMatch

open Beam MatrixSetup

variable {C : Type} [DecidableEq C]

/-! ### Specification -/

/-- The classes and scores of an example, and the example is well-formed: as many scores as classes, as many weights as weighted
classes, and no example weight of 0 (see `C68_zero_weight`) if weights are used. -/
structure Ex.Ok (weighted : Bool) (x : Ex C) : Prop where
  scores : ∃ s, x.scores = some s ∧ x.predClasses.length = s.length
  classWeights : ∀ p, x.classWeights = some p → p.1.length = p.2.length
  exampleWeight : weighted = true → x.exampleWeight ≠ some 0

/-- The predictions that count: all or the first `topK`. -/
def Ex.predictions (topK : Option ℕ) (x : Ex C) : List (C × ℚ) := considered (x.predClasses.zip (x.scores.getD [])) topK

/-- The (last) score of a class, if it is predicted. -/
def Ex.score (topK : Option ℕ) (x : Ex C) (c : C) : Option ℚ := lastValue (x.predictions topK) c

/-- The weight of a class of an example. -/
def Ex.weight (weighted : Bool) (x : Ex C) (c : C) : ℚ :=
  if weighted then fullWeight x.exampleWeight (x.classWeights.map fun p => p.1.zip p.2) c else 1

/-- The classes that are a label or predicted. -/
def Ex.classes (topK : Option ℕ) (x : Ex C) : List C := SetMatch.classes x.labels (x.predictions topK)

/-- The weight of all classes of all examples with a property. -/
def total (weighted : Bool) (topK : Option ℕ) (xs : List (Ex C)) (P : Ex C → C → Bool) : ℚ :=
  (xs.map fun x => (((x.classes topK).filter (P x)).map (x.weight weighted)).sum).sum

/-- The class is predicted with a score above the threshold. -/
def Above (topK : Option ℕ) (t : Fl) (x : Ex C) (c : C) : Bool := match x.score topK c with
  | some s => Fl.lt t (.fin s)
  | none => false

/-- The class is predicted. -/
def Predicted (topK : Option ℕ) (x : Ex C) (c : C) : Bool := (x.score topK c).isSome

/-- The class is a label. -/
def IsLabel (x : Ex C) (c : C) : Bool := decide (c ∈ x.labels)

/-- A quotient, NaN if there is nothing to divide by. -/
def share (n d : ℚ) : Fl := if 0 < d then .fin (n / d) else .nan

/-- One value for one threshold, an array for several. -/
def perThreshold (ts : List Fl) (g : Fl → Fl) : Bcm.Value Fl := match ts with
  | [t] => .scalar (g t)
  | ts => .array (ts.map g)

/-- The triples of an example. -/
private def exTriples (b : Bool) (topK : Option ℕ) (x : Ex C) : List (ℚ × Fl × ℚ) :=
  (x.classes topK).map fun c => ((item x.labels (x.predictions topK) c).1, (item x.labels (x.predictions topK) c).2, x.weight b c)

private theorem items_perm (b : Bool) (topK : Option ℕ) (xs : List (Ex C)) (h : ∀ x ∈ xs, x.Ok b) :
    ∃ items, allItems topK xs = .ok items ∧ (items.map (triple b)).Perm (xs.flatMap (exTriples b topK)) ∧
      ∀ i ∈ items, i.label = 0 ∨ i.label = 1 := by
  induction xs with
  | nil => exact ⟨[], rfl, by simp, by simp⟩
  | cons x xs ih =>
    obtain ⟨js, h1, h2, h3⟩ := ih fun y hy => h y (by simp [hy])
    obtain ⟨⟨s, hs, hlen⟩, hc, hw⟩ := h x (by simp)
    obtain ⟨is, k1, k2⟩ := C68_items x.labels x.predClasses s hlen topK x.exampleWeight x.classWeights hc
    refine ⟨is ++ js, ?_, ?_, ?_⟩
    · simp only [allItems, hs, k1, h1]
    · rw [List.map_append, List.flatMap_cons]
      refine List.Perm.append ?_ h2
      refine (k2.map _).trans (List.Perm.of_eq ?_)
      unfold exTriples Ex.classes Ex.predictions
      rw [hs, List.map_map]
      refine List.map_congr_left fun c _ => ?_
      simp only [Function.comp_apply, triple, Option.getD_some, Prod.mk.injEq, true_and]
      unfold itemWeight Ex.weight
      cases b with
      | false => rfl
      | true =>
        have := C68_weight x.exampleWeight (x.classWeights.map fun p => p.1.zip p.2) (hw rfl) c
        rw [Option.map_map] at this
        simpa [Function.comp_def] using this
    · intro i hi
      rcases List.mem_append.1 hi with hi | hi
      · obtain ⟨c, _, rfl⟩ := List.mem_map.1 (k2.subset hi)
        simp only [item]
        split_ifs <;> simp
      · exact h3 i hi

/-! ### Counting -/

private theorem sumIf_total (b : Bool) (topK : Option ℕ) (xs : List (Ex C)) (P : ℚ × Fl × ℚ → Bool) (Q : Ex C → C → Bool)
    (h : ∀ x ∈ xs, ∀ c ∈ x.classes topK,
      P ((item x.labels (x.predictions topK) c).1, (item x.labels (x.predictions topK) c).2, x.weight b c) = Q x c) :
    sumIf P (xs.flatMap (exTriples b topK)) = total b topK xs Q := by
  unfold total
  induction xs with
  | nil => rfl
  | cons x xs ih =>
    rw [List.flatMap_cons, sumIf_append, ih fun y hy => h y (by simp [hy]), List.map_cons, List.sum_cons]
    congr 1
    unfold sumIf exTriples
    rw [List.filter_map, List.map_map]
    have e : (x.classes topK).filter (P ∘ fun c => ((item x.labels (x.predictions topK) c).1,
        (item x.labels (x.predictions topK) c).2, x.weight b c)) = (x.classes topK).filter (Q x) :=
      List.filter_congr fun c hc => h x (by simp) c hc
    rw [e]
    rfl

/-- The item of a class has label 1 exactly if the class is a label. -/
private theorem item_label (x : Ex C) (topK : Option ℕ) (c : C) :
    decide ((item x.labels (x.predictions topK) c).1 = 1) = IsLabel x c := by
  unfold item IsLabel
  by_cases h : c ∈ x.labels <;> simp [h]

private theorem item_above (x : Ex C) (topK : Option ℕ) (t : Fl) (c : C) :
    Fl.lt t (item x.labels (x.predictions topK) c).2 = Above topK t x c := by
  unfold item Above Ex.score
  cases lastValue (x.predictions topK) c with
  | none => cases t <;> rfl
  | some s => rfl

/-- The confusion matrix that is expected. -/
def expected (b : Bool) (topK : Option ℕ) (xs : List (Ex C)) (pos : Ex C → C → Bool) : Bcm.Matrix :=
  ⟨total b topK xs fun x c => IsLabel x c && pos x c, total b topK xs fun x c => !IsLabel x c && !pos x c,
    total b topK xs fun x c => !IsLabel x c && pos x c, total b topK xs fun x c => IsLabel x c && !pos x c⟩

private theorem matrix_items (b : Bool) (topK : Option ℕ) (xs : List (Ex C)) (items : List Item)
    (hp : (items.map (triple b)).Perm (xs.flatMap (exTriples b topK))) (hl : ∀ i ∈ items, i.label = 0 ∨ i.label = 1) (t : Fl) :
    Bcm.matrixOf true t (items.map (itemRows b)).flatten = expected b topK xs (Above topK t) := by
  have hpos : ∀ q : ℚ, Bcm.LabelPos true t (.fin q) ↔ q = 1 := by intro q; simp [Bcm.LabelPos]
  unfold Bcm.matrixOf expected
  congr 1 <;> rw [weight_rows b items hl, sumIf_perm _ hp] <;> refine sumIf_total b topK xs _ _ fun x _ c _ => ?_ <;>
    simp only [hpos, ← item_label x topK c, ← item_above x topK t c, Bool.decide_and, Bool.decide_eq_true] <;>
    simp

/-! ### Thresholds -/

/-- The thresholds are counted exactly: they are distinct, at least one, not a single negative one and not the ones generated for a
number of thresholds. -/
structure Counted (ts : List Fl) : Prop where
  nodup : ts.Nodup
  ne : ts ≠ []
  single : ∀ t, ts = [t] → Fl.lt t (.fin 0) = false
  given : ts ≠ interpolated ts.length

private theorem matrices_eq (part) (sp : List Inputs.ModelSpec) (b : Bool) (topK : Option ℕ) (xs : List (Ex C)) (items : List Item)
    (hp : (items.map (triple b)).Perm (xs.flatMap (exTriples b topK))) (hl : ∀ i ∈ items, i.label = 0 ∨ i.label = 1)
    (ts : List Fl) (hts : Counted ts) (s : Sched Item) (hs : s.inputs.Perm items) :
    matrices part (only sp b) ts s = .ok (ts.map fun t => (t, expected b topK xs (Above topK t))) := by
  obtain ⟨hnd, hne, hsi, hgi⟩ := hts
  have hh : histogramDefault none ts = false := by
    unfold histogramDefault
    cases ts with
    | nil => rfl
    | cons t l => cases l with
      | nil => simpa using hsi t rfl
      | cons u l => rfl
  unfold matrices
  rw [matrices_counted part sp b items hl none _ ts (choose_given hne hgi) hnd hh s hs]
  simp only [← matrixOf_items b items hl, matrix_items b topK xs items hp hl]

private theorem total_split (b : Bool) (topK : Option ℕ) (xs : List (Ex C)) (P Q : Ex C → C → Bool) :
    total b topK xs (fun x c => P x c && Q x c) + total b topK xs (fun x c => !P x c && Q x c) = total b topK xs Q := by
  unfold total
  induction xs with
  | nil => simp
  | cons x xs ih =>
    simp only [List.map_cons, List.sum_cons]
    rw [← ih]
    have key : ∀ l : List C, ((l.filter fun c => P x c && Q x c).map (x.weight b)).sum +
        ((l.filter fun c => !P x c && Q x c).map (x.weight b)).sum = ((l.filter (Q x)).map (x.weight b)).sum := by
      intro l
      induction l with
      | nil => simp
      | cons c l ih =>
        by_cases hp : P x c <;> by_cases hq : Q x c <;> simp [hp, hq, ← ih] <;> ring
    rw [← key]
    ring

private theorem total_congr (b : Bool) (topK : Option ℕ) (xs : List (Ex C)) {P Q : Ex C → C → Bool} (h : ∀ x c, P x c = Q x c) :
    total b topK xs P = total b topK xs Q := by
  have : P = Q := funext fun x => funext fun c => h x c
  rw [this]

private theorem expected_precision (b : Bool) (topK : Option ℕ) (xs : List (Ex C)) (pos : Ex C → C → Bool) :
    Bcm.precision (expected b topK xs pos) =
      share (total b topK xs fun x c => IsLabel x c && pos x c) (total b topK xs pos) := by
  simp only [Bcm.precision, Bcm.ratio, share, expected, total_split]

private theorem expected_recall (b : Bool) (topK : Option ℕ) (xs : List (Ex C)) (pos : Ex C → C → Bool) :
    Bcm.recall (expected b topK xs pos) =
      share (total b topK xs fun x c => IsLabel x c && pos x c) (total b topK xs IsLabel) := by
  have := total_split b topK xs pos IsLabel
  simp only [Bool.and_comm (pos _ _) _, Bool.and_comm (!pos _ _) _] at this
  simp only [Bcm.recall, Bcm.ratio, share, expected, this]

private theorem value_map (ts : List Fl) (M : Fl → Bcm.Matrix) (f : Bcm.Matrix → Fl) :
    Bcm.metricValue f (ts.map fun t => (t, M t)) = perThreshold ts fun t => f (M t) := by
  unfold Bcm.metricValue perThreshold
  match ts with
  | [] => rfl
  | [t] => rfl
  | t :: u :: l => simp [List.map_map]

/-- **C108**, the part that holds for thresholds: for every bundling of the classes of all examples, set match precision is the
weight of the predicted labels among the weight of the predicted classes, and set match recall the weight of the predicted labels
among the weight of the labels, where predicted means predicted (among the first k) with a score above the threshold; one value
per threshold.  Missing: example weights of 0 (`C68_zero_weight`), and thresholds which are the ones generated for a number
of thresholds (then scores are rounded to ten thousandths, C54). -/
theorem C108_thresholds_partial (part) (sp : List Inputs.ModelSpec) (weightKey b : Bool) (topK : Option ℕ) (xs : List (Ex C))
    (hx : ∀ x ∈ xs, x.Ok (weightKey || b)) (ts : List Fl) (hts : Counted ts) :
    ∃ items, allItems topK xs = .ok items ∧ ∀ s : Sched Item, s.inputs.Perm items →
      value part Bcm.precision (some ts) topK weightKey (only sp b) s = .ok (perThreshold ts fun t =>
        share (total (weightKey || b) topK xs fun x c => IsLabel x c && Above topK t x c)
          (total (weightKey || b) topK xs (Above topK t))) ∧
      value part Bcm.recall (some ts) topK weightKey (only sp b) s = .ok (perThreshold ts fun t =>
        share (total (weightKey || b) topK xs fun x c => IsLabel x c && Above topK t x c)
          (total (weightKey || b) topK xs IsLabel)) := by
  obtain ⟨items, h1, h2, h3⟩ := items_perm (weightKey || b) topK xs hx
  refine ⟨items, h1, fun s hs => ?_⟩
  have ha : ({ only sp b with exampleWeighted := if weightKey then true else (only sp b).exampleWeighted } : Inputs.Args) =
      only sp (weightKey || b) := by
    cases weightKey <;> rfl
  have hm := matrices_eq part sp (weightKey || b) topK xs items h2 h3 ts hts s hs
  unfold value
  simp only [ha, hm, Except.map, value_map, expected_precision, expected_recall, and_self]

/-- The default threshold is 1/2. -/
theorem C108_default (part) (f : Bcm.Matrix → Fl) (weightKey : Bool) (args : Inputs.Args) (s : Sched Item) :
    value part f none none weightKey args s = value part f (some [.fin (1 / 2)]) none weightKey args s ∧
    Counted [.fin (1 / 2)] := by
  refine ⟨rfl, by simp, by simp, ?_, by simp [interpolated]⟩
  intro t ht
  cases ht
  decide +kernel

/-! ### The first k predictions without thresholds -/

private theorem matrices_top (part) (sp : List Inputs.ModelSpec) (b : Bool) (items : List Item)
    (hl : ∀ i ∈ items, i.label = 0 ∨ i.label = 1) (hnan : ∀ i ∈ items, i.prediction ≠ .nan) (S : Fl → Bool)
    (hsel : ∃ c, Bcm.histogramResult [.ninf] (Histogram.histogramOf Bcm.oneBucket (items.map (itemHist b)).flatten) = .ok c ∧
      Bcm.CellsBy c 0 (items.map (itemHist b)).flatten fun e => S e.pred)
    (s : Sched Item) (hs : s.inputs.Perm items) :
    matrices part (only sp b) [.ninf] s = .ok [(.ninf,
      ⟨sumIf (fun x => decide (x.1 = 1) && S x.2.1) (items.map (triple b)),
        sumIf (fun x => !decide (x.1 = 1) && !S x.2.1) (items.map (triple b)),
        sumIf (fun x => !decide (x.1 = 1) && S x.2.1) (items.map (triple b)),
        sumIf (fun x => decide (x.1 = 1) && !S x.2.1) (items.map (triple b))⟩)] := by
  have hc := choose_given (ts := [.ninf]) (by simp) (by simp [interpolated])
  unfold matrices matricesWith
  have hh : histogramDefault none [Fl.ninf] = true := by decide +kernel
  have hb : numBuckets [Fl.ninf] = 1 := by decide +kernel
  simp only [hc, hh, if_true, hb]
  rw [comap_run]
  obtain ⟨g, hg⟩ : ∃ g : Item → Except Err (List Histogram.HExample), g = fun i =>
      (Inputs.toLabelPredictionWeight part { only sp b with fractional := true } (inputsOf i)).map
        (·.filterMap hexampleOf) := ⟨_, rfl⟩
  rw [← hg]
  have hgi : items.map g = (items.map (itemHist b)).map Except.ok := by
    rw [List.map_map]
    refine List.map_congr_left fun i hi => ?_
    rw [hg]
    simp only [read_item part sp b i (hl i hi), Except.map, Function.comp_apply, itemHist]
  have h := Histogram.C18_histogram Bcm.oneBucket (by constructor <;> norm_num [Bcm.oneBucket]) (items.map g) (smap g s)
    (by rw [smap_inputs]; exact hs.map g)
  rw [hgi, flat_ok, Option.bind_some, if_neg] at h
  · obtain ⟨cols, hr, c1, c2, c3, c4⟩ := hsel
    cases hrun : (Histogram.combiner Bcm.oneBucket).run (smap g s) with
    | error e => rw [hrun] at h; cases h
    | ok a =>
      rw [hrun] at h
      have he : Histogram.extract a = Histogram.histogramOf Bcm.oneBucket (items.map (itemHist b)).flatten := by
        simpa [Except.toOption] using h
      have hrun' : (Histogram.combiner ⟨1, 0, 1, true⟩).run (smap g s) = .ok a := hrun
      simp only [hrun', Except.bind, he, hr, Except.map]
      have g1 := (hist_sum b items hl S).1
      have g2 := (hist_sum b items hl S).2
      have g3 := (hist_sum b items hl fun v => !S v).1
      have g4 := (hist_sum b items hl fun v => !S v).2
      rw [g1] at c1; rw [g2] at c2; rw [g4] at c3; rw [g3] at c4
      have cons : ∀ {l : List ℚ} {v : ℚ}, l[0]? = some v → ∃ r, l = v :: r := by
        intro l v hv
        cases l with
        | nil => cases hv
        | cons x r => cases hv; exact ⟨r, rfl⟩
      obtain ⟨r1, k1⟩ := cons c1
      obtain ⟨r2, k2⟩ := cons c2
      obtain ⟨r3, k3⟩ := cons c3
      obtain ⟨r4, k4⟩ := cons c4
      rw [k1, k2, k3, k4]
      simp
  · rintro ⟨e, he, hv⟩
    obtain ⟨l, hl', hel⟩ := List.mem_flatten.1 he
    obtain ⟨i, hi, rfl⟩ := List.mem_map.1 hl'
    rw [itemHist_eq b i (hl i hi)] at hel
    split_ifs at hel
    · cases hel
    · rw [List.mem_singleton] at hel
      subst hel
      exact hnan i hi hv

/-- The predictions of the items. -/
private theorem items_pred (b : Bool) (topK : Option ℕ) (xs : List (Ex C)) (items : List Item)
    (hp : (items.map (triple b)).Perm (xs.flatMap (exTriples b topK))) (i : Item) (hi : i ∈ items) :
    ∃ x ∈ xs, ∃ c ∈ x.classes topK, i.label = (if c ∈ x.labels then 1 else 0) ∧
      i.prediction = (match x.score topK c with | some s => Fl.fin s | none => .ninf) ∧ itemWeight b i = x.weight b c := by
  have := hp.subset (List.mem_map_of_mem hi)
  obtain ⟨x, hx, hm⟩ := List.mem_flatMap.1 this
  obtain ⟨c, hc, he⟩ := List.mem_map.1 hm
  simp only [triple, Prod.mk.injEq] at he
  exact ⟨x, hx, c, hc, he.1.symm, he.2.1.symm, he.2.2.symm⟩

/-- Every class of an example has its item. -/
private theorem items_of (b : Bool) (topK : Option ℕ) (xs : List (Ex C)) (items : List Item)
    (hp : (items.map (triple b)).Perm (xs.flatMap (exTriples b topK))) (x : Ex C) (hx : x ∈ xs) (c : C) (hc : c ∈ x.classes topK) :
    ∃ i ∈ items, i.prediction = (match x.score topK c with | some s => Fl.fin s | none => .ninf) ∧
      itemWeight b i = x.weight b c := by
  have : ((item x.labels (x.predictions topK) c).1, (item x.labels (x.predictions topK) c).2, x.weight b c) ∈
      items.map (triple b) :=
    hp.symm.subset (List.mem_flatMap.2 ⟨x, hx, List.mem_map.2 ⟨c, hc, rfl⟩⟩)
  obtain ⟨i, hi, he⟩ := List.mem_map.1 this
  simp only [triple, Prod.mk.injEq] at he
  exact ⟨i, hi, he.2.1, he.2.2⟩

private theorem mem_hist (b : Bool) (items : List Item) (hl : ∀ i ∈ items, i.label = 0 ∨ i.label = 1) (e : Histogram.HExample) :
    e ∈ (items.map (itemHist b)).flatten ↔
      ∃ i ∈ items, itemWeight b i ≠ 0 ∧ e = ⟨i.label, i.prediction, itemWeight b i⟩ := by
  constructor
  · intro he
    obtain ⟨l, hl', hel⟩ := List.mem_flatten.1 he
    obtain ⟨i, hi, rfl⟩ := List.mem_map.1 hl'
    rw [itemHist_eq b i (hl i hi)] at hel
    split_ifs at hel with h
    · cases hel
    · exact ⟨i, hi, h, by simpa using hel⟩
  · rintro ⟨i, hi, hw, rfl⟩
    refine List.mem_flatten.2 ⟨_, List.mem_map_of_mem hi, ?_⟩
    rw [itemHist_eq b i (hl i hi), if_neg hw]
    simp

private theorem score_mem (topK : Option ℕ) (x : Ex C) (c : C) (q : ℚ) (h : x.score topK c = some q) : (c, q) ∈ x.predictions topK := by
  unfold Ex.score lastValue at h
  rw [Option.map_eq_some_iff] at h
  obtain ⟨p, hp, rfl⟩ := h
  have := List.mem_of_getLast? hp
  have h2 := List.mem_filter.1 this
  simp only [decide_eq_true_eq] at h2
  rw [← h2.2]
  exact h2.1

private theorem top_value (part) (sp : List Inputs.ModelSpec) (weightKey b : Bool) (k : ℕ) (f : Bcm.Matrix → Fl) (s : Sched Item) :
    value part f none (some k) weightKey (only sp b) s =
      (matrices part (only sp (weightKey || b)) [.ninf] s).map (Bcm.metricValue f) := by
  have ha : ({ only sp b with exampleWeighted := if weightKey then true else (only sp b).exampleWeighted } : Inputs.Args) =
      only sp (weightKey || b) := by
    cases weightKey <;> rfl
  unfold value
  simp only [ha]

/-- **C108**, the part that holds for the first k predictions without thresholds: precision and recall count a class as predicted
exactly if it is among the first k predictions, whatever its score, if all these scores are in [0, 1), some label is not
predicted and something is predicted (with a weight other than 0).  Missing: all other cases, for which this is false
(`C108_nothing_predicted`, `C108_all_found`, `C108_negative_score`). -/
theorem C108_top_k_partial (part) (sp : List Inputs.ModelSpec) (weightKey b : Bool) (k : ℕ) (xs : List (Ex C))
    (hx : ∀ x ∈ xs, x.Ok (weightKey || b))
    (hscore : ∀ x ∈ xs, ∀ p ∈ x.predictions (some k), 0 ≤ p.2 ∧ p.2 < 1)
    (hmiss : ∃ x ∈ xs, ∃ c ∈ x.labels, x.score (some k) c = none ∧ x.weight (weightKey || b) c ≠ 0)
    (hpred : ∃ x ∈ xs, ∃ c q, x.score (some k) c = some q ∧ x.weight (weightKey || b) c ≠ 0) :
    ∃ items, allItems (some k) xs = .ok items ∧ ∀ s : Sched Item, s.inputs.Perm items →
      value part Bcm.precision none (some k) weightKey (only sp b) s = .ok (.scalar
        (share (total (weightKey || b) (some k) xs fun x c => IsLabel x c && Predicted (some k) x c)
          (total (weightKey || b) (some k) xs (Predicted (some k))))) ∧
      value part Bcm.recall none (some k) weightKey (only sp b) s = .ok (.scalar
        (share (total (weightKey || b) (some k) xs fun x c => IsLabel x c && Predicted (some k) x c)
          (total (weightKey || b) (some k) xs IsLabel))) := by
  obtain ⟨items, h1, hp, hl⟩ := items_perm (weightKey || b) (some k) xs hx
  generalize hB : (weightKey || b) = B at *
  refine ⟨items, h1, fun s hs => ?_⟩
  have hpr : ∀ i ∈ items, i.prediction = .ninf ∨ ∃ q : ℚ, 0 ≤ q ∧ q < 1 ∧ i.prediction = .fin q := by
    intro i hi
    obtain ⟨x, hxm, c, _, _, he, _⟩ := items_pred B (some k) xs items hp i hi
    cases hq : x.score (some k) c with
    | none => left; rw [he, hq]
    | some q =>
      right
      have := hscore x hxm _ (score_mem _ x c q hq)
      exact ⟨q, this.1, this.2, by rw [he, hq]⟩
  have hnan : ∀ i ∈ items, i.prediction ≠ .nan := by
    intro i hi
    rcases hpr i hi with h | ⟨q, _, _, h⟩ <;> rw [h] <;> exact fun h => nomatch h
  have hsel := Bcm.C54_top_k .ninf (by decide +kernel) (items.map (itemHist B)).flatten
    (by
      intro e he
      obtain ⟨i, hi, _, rfl⟩ := (mem_hist B items hl e).1 he
      exact hpr i hi)
    (by
      obtain ⟨x, hxm, c, hc, hn, hw⟩ := hmiss
      obtain ⟨i, hi, e1, e2⟩ := items_of B (some k) xs items hp x hxm c (by
        unfold Ex.classes classes; simp [hc])
      exact ⟨_, (mem_hist B items hl _).2 ⟨i, hi, by rw [e2]; exact hw, rfl⟩, by rw [e1, hn]⟩)
    (by
      obtain ⟨x, hxm, c, q, hq, hw⟩ := hpred
      obtain ⟨i, hi, e1, e2⟩ := items_of B (some k) xs items hp x hxm c (by
        have := score_mem _ x c q hq
        unfold Ex.classes classes
        simp only [List.mem_dedup, List.mem_append, List.mem_map]
        exact Or.inr ⟨_, this, rfl⟩)
      exact ⟨_, (mem_hist B items hl _).2 ⟨i, hi, by rw [e2]; exact hw, rfl⟩, by rw [e1, hq]; exact fun h => nomatch h⟩)
  have hm := matrices_top part sp B items hl hnan (fun v => decide (v ≠ .ninf)) hsel s hs
  have hPd : ∀ x : Ex C, ∀ c, decide ((item x.labels (x.predictions (some k)) c).2 ≠ .ninf) = Predicted (some k) x c := by
    intro x c
    unfold item Predicted Ex.score
    cases lastValue (x.predictions (some k)) c <;> simp
  have he : (⟨sumIf (fun x => decide (x.1 = 1) && decide (x.2.1 ≠ .ninf)) (items.map (triple B)),
        sumIf (fun x => !decide (x.1 = 1) && !decide (x.2.1 ≠ .ninf)) (items.map (triple B)),
        sumIf (fun x => !decide (x.1 = 1) && decide (x.2.1 ≠ .ninf)) (items.map (triple B)),
        sumIf (fun x => decide (x.1 = 1) && !decide (x.2.1 ≠ .ninf)) (items.map (triple B))⟩ : Bcm.Matrix) =
      expected B (some k) xs (Predicted (some k)) := by
    unfold expected
    congr 1 <;> rw [sumIf_perm _ hp] <;> refine sumIf_total B (some k) xs _ _ fun x _ c _ => ?_ <;>
      simp only [← item_label x (some k) c, ← hPd x c]
  rw [he] at hm
  rw [top_value, top_value, hB, hm]
  simp only [Except.map, Bcm.metricValue, expected_precision, expected_recall, and_self]

/-- **C108** (false of the code): if no example has any prediction, recall at the first k predictions is 1 instead of 0. -/
theorem C108_nothing_predicted (part) (sp : List Inputs.ModelSpec) (weightKey b : Bool) (k : ℕ) (xs : List (Ex C))
    (hx : ∀ x ∈ xs, x.Ok (weightKey || b)) (hno : ∀ x ∈ xs, x.predClasses = [])
    (hpos : 0 < total (weightKey || b) (some k) xs IsLabel) :
    ∃ items, allItems (some k) xs = .ok items ∧ ∀ s : Sched Item, s.inputs.Perm items →
      value part Bcm.recall none (some k) weightKey (only sp b) s = .ok (.scalar (.fin 1)) := by
  obtain ⟨items, h1, hp, hl⟩ := items_perm (weightKey || b) (some k) xs hx
  generalize hB : (weightKey || b) = B at *
  refine ⟨items, h1, fun s hs => ?_⟩
  have hpr : ∀ i ∈ items, i.prediction = .ninf := by
    intro i hi
    obtain ⟨x, hxm, c, _, _, he, _⟩ := items_pred B (some k) xs items hp i hi
    have : x.score (some k) c = none := by
      simp [Ex.score, Ex.predictions, considered, lastValue, hno x hxm]
    rw [he, this]
  have hnan : ∀ i ∈ items, i.prediction ≠ .nan := fun i hi => by rw [hpr i hi]; exact fun h => nomatch h
  have hsum : sumIf (fun x => decide (x.1 = 1)) (items.map (triple B)) = total B (some k) xs IsLabel := by
    rw [sumIf_perm _ hp]
    exact sumIf_total B (some k) xs _ _ fun x _ c _ => item_label x (some k) c
  have hne : (items.map (itemHist B)).flatten ≠ [] := by
    intro h0
    have hz := (hist_sum B items hl fun _ => true).1
    rw [h0] at hz
    simp only [Bool.and_true, hsum] at hz
    rw [← hz] at hpos
    simp at hpos
  have hs1 := Bcm.C54_single .ninf (by decide +kernel) (items.map (itemHist B)).flatten hne (by
    intro e he
    obtain ⟨i, hi, _, rfl⟩ := (mem_hist B items hl e).1 he
    exact hnan i hi)
  have hab : ∀ e, Bcm.aboveLowest (items.map (itemHist B)).flatten e = true := by
    intro e
    unfold Bcm.aboveLowest
    rw [decide_eq_true_eq]
    left
    intro x hxm y hym
    obtain ⟨i, hi, _, rfl⟩ := (mem_hist B items hl x).1 hxm
    obtain ⟨j, hj, _, rfl⟩ := (mem_hist B items hl y).1 hym
    rw [hpr i hi, hpr j hj]
  have hfun : Bcm.aboveLowest (items.map (itemHist B)).flatten = fun _ => true := funext hab
  rw [hfun] at hs1
  have hm := matrices_top part sp B items hl hnan (fun _ => true) hs1 s hs
  rw [top_value, hB, hm]
  simp only [Bool.and_true, Bool.not_true, Bool.and_false, hsum, Except.map, Bcm.metricValue, Bcm.recall, Bcm.ratio]
  have hz : sumIf (fun _ => false) (items.map (triple B)) = 0 := by simp [sumIf]
  rw [hz, add_zero, if_pos hpos, div_self hpos.ne']

/-- **C108** (false of the code): all labels are predicted, but as one of the scores is 1, the other label counts as not predicted:
recall among the first 2 predictions is 1/2 instead of 1. -/
theorem C108_all_found (part) :
    ∃ items, allItems (some 2) [(⟨["sun", "sea"], ["sun", "sea"], some [1, 1 / 2], none, none⟩ : Ex String)] = .ok items ∧
      ∀ s : Sched Item, s.inputs.Perm items →
        value part Bcm.recall none (some 2) false (only [] false) s = .ok (.scalar (.fin (1 / 2))) := by
  refine ⟨[⟨1, .fin 1, none⟩, ⟨1, .fin (1 / 2), none⟩], by decide +kernel, fun s hs => ?_⟩
  have hm := matrices_top part [] false [⟨1, .fin 1, none⟩, ⟨1, .fin (1 / 2), none⟩] (by simp) (by simp)
    (fun v => decide (v = .fin 1)) ⟨⟨[1], [0], [0], [1]⟩, by decide +kernel, by
      refine ⟨?_, ?_, ?_, ?_⟩ <;> decide +kernel⟩ s hs
  rw [top_value]
  simp only [Bool.or_false, hm]
  decide +kernel

/-- **C108** (false of the code): a negative score counts as not predicted if another one is not negative: precision among the first 2
predictions is 1 although one of them is wrong. -/
theorem C108_negative_score (part) :
    ∃ items, allItems (some 2) [(⟨["sun"], ["sun", "sea"], some [1 / 2, -1], none, none⟩ : Ex String)] = .ok items ∧
      ∀ s : Sched Item, s.inputs.Perm items →
        value part Bcm.precision none (some 2) false (only [] false) s = .ok (.scalar (.fin 1)) := by
  refine ⟨[⟨1, .fin (1 / 2), none⟩, ⟨0, .fin (-1), none⟩], by decide +kernel, fun s hs => ?_⟩
  have hm := matrices_top part [] false [⟨1, .fin (1 / 2), none⟩, ⟨0, .fin (-1), none⟩] (by simp) (by simp)
    (fun v => decide (v = .fin (1 / 2))) ⟨⟨[1], [0], [1], [0]⟩, by decide +kernel, by
      refine ⟨?_, ?_, ?_, ?_⟩ <;> decide +kernel⟩ s hs
  rw [top_value]
  simp only [Bool.or_false, hm]
  decide +kernel

/-! ### Several models -/

private theorem addAll_fails {δ α : Type} (c : CombineFn δ α) (h : ∀ a x, ∃ e, c.addInput a x = .error e) (a : α) (xs : List δ)
    (hx : xs ≠ []) : ∃ e, c.addAll a xs = .error e := by
  cases xs with
  | nil => exact absurd rfl hx
  | cons x xs =>
    obtain ⟨e, he⟩ := h a x
    exact ⟨e, by simp [CombineFn.addAll, he, bind, Except.bind]⟩

mutual
private theorem run_fails {δ α : Type} (c : CombineFn δ α) (h : ∀ a x, ∃ e, c.addInput a x = .error e) :
    ∀ s : Sched δ, s.inputs ≠ [] → ∃ e, c.run s = .error e
  | .bundle xs, hs => addAll_fails c h _ xs hs
  | .extend s xs, hs => by
    simp only [CombineFn.run]
    cases hr : c.run s with
    | error e => exact ⟨e, rfl⟩
    | ok a =>
      have h0 : s.inputs = [] := by
        by_contra h0
        obtain ⟨e, he⟩ := run_fails c h s h0
        rw [hr] at he; cases he
      refine addAll_fails c h a xs ?_
      simpa [Sched.inputs, h0] using hs
  | .merge ss, hs => by
    obtain ⟨e, he⟩ := runs_fails c h ss hs
    exact ⟨e, by simp [CombineFn.run, he, bind, Except.bind]⟩
private theorem runs_fails {δ α : Type} (c : CombineFn δ α) (h : ∀ a x, ∃ e, c.addInput a x = .error e) :
    ∀ s : Scheds δ, s.inputs ≠ [] → ∃ e, c.runs s = .error e
  | .one s, hs => by
    obtain ⟨e, he⟩ := run_fails c h s hs
    exact ⟨e, by simp [CombineFn.runs, he, bind, Except.bind]⟩
  | .cons s ss, hs => by
    simp only [CombineFn.runs]
    cases hr : c.run s with
    | error e => exact ⟨e, rfl⟩
    | ok a =>
      have h0 : s.inputs = [] := by
        by_contra h0
        obtain ⟨e, he⟩ := run_fails c h s h0
        rw [hr] at he; cases he
      obtain ⟨e, he⟩ := runs_fails c h ss (by simpa [Scheds.inputs, h0] using hs)
      exact ⟨e, by simp [he, bind, Except.bind]⟩
end

private theorem read_named (part) (a : Inputs.Args) (hn : a.model ≠ "" ∨ a.output ≠ "") (i : Item) :
    ∃ e, Inputs.toLabelPredictionWeight part a (inputsOf i) = .error e := by
  unfold Inputs.toLabelPredictionWeight Inputs.find inputsOf
  by_cases hm : a.model = ""
  · have ho : a.output ≠ "" := hn.resolve_left (not_not.2 hm)
    exact ⟨.valueError, by simp [Inputs.byName, hm, ho, Inputs.isNoneLeaf, Inputs.requireKey, bind, Except.bind]⟩
  · exact ⟨.valueError, by simp [Inputs.byName, hm, Inputs.isNoneLeaf, Inputs.requireKey, bind, Except.bind]⟩

/-- **C108** (false of the code): with several models, or for a named output, the metrics fail on every data set with a class: the
predictions yielded for the classes are looked up under the name of the model. -/
theorem C108_named (part) (f : Bcm.Matrix → Fl) (thresholds : Option (List Fl)) (topK : Option ℕ) (weightKey : Bool)
    (args : Inputs.Args) (hn : args.model ≠ "" ∨ args.output ≠ "") (s : Sched Item) (hs : s.inputs ≠ []) :
    ∃ e, value part f thresholds topK weightKey args s = .error e := by
  have key : ∀ (a : Inputs.Args), (a.model ≠ "" ∨ a.output ≠ "") → ∀ ts, ∃ e, matrices part a ts s = .error e := by
    intro a ha ts
    unfold matrices matricesWith
    cases choose none (some ts) with
    | error e => exact ⟨e, rfl⟩
    | ok r =>
      obtain ⟨num, ts'⟩ := r
      simp only
      split_ifs
      · obtain ⟨e, he⟩ := run_fails (comap (fun i => (Inputs.toLabelPredictionWeight part { a with fractional := true }
            (inputsOf i)).map (·.filterMap hexampleOf)) (Histogram.combiner ⟨numBuckets ts', 0, 1, true⟩)) (by
          intro acc i
          obtain ⟨e, he⟩ := read_named part { a with fractional := true } ha i
          exact ⟨e, by simp [comap, he, Except.map, Histogram.combiner, Except.bind]⟩) s hs
        exact ⟨e, by rw [he]; rfl⟩
      · obtain ⟨e, he⟩ := run_fails (comap (fun i => (Inputs.toLabelPredictionWeight part { a with fractional := true }
            (inputsOf i)).map fun l => (⟨l.filterMap rowOf, none⟩ : Bcm.Example)) (Bcm.combiner ⟨ts', 100, true⟩)) (by
          intro acc i
          obtain ⟨e, he⟩ := read_named part { a with fractional := true } ha i
          exact ⟨e, by simp [comap, he, Except.map, Bcm.combiner, bind, Except.bind]⟩) s hs
        exact ⟨e, by rw [he]; rfl⟩
  unfold value
  simp only
  obtain ⟨e, he⟩ := key { args with exampleWeighted := if weightKey then true else args.exampleWeighted } hn _
  exact ⟨e, by rw [he]; rfl⟩

/-! ### Examples -/

/-- The example of the documentation: one label, two predictions. -/
private def cats : Ex String := ⟨["cats", "cows"], ["cats", "dogs"], some [9 / 10, 6 / 10], some 2, none⟩

private theorem cats_ok : ∀ x ∈ [cats], x.Ok true := by
  intro x hx
  rw [List.mem_singleton] at hx
  subst hx
  exact ⟨⟨_, rfl, rfl⟩, by simp [cats], by simp [cats]⟩

/-- Precision at 1/2 and at 8/10. -/
example : (perThreshold [.fin (1 / 2), .fin (8 / 10)] fun t =>
    share (total true none [cats] fun x c => IsLabel x c && Above none t x c) (total true none [cats] (Above none t))) =
      .array [.fin (1 / 2), .fin 1] := by decide +kernel

example : Counted [.fin (1 / 2), .fin (8 / 10)] := by
  refine ⟨by decide +kernel, by simp, by simp, ?_⟩
  simp [interpolated, Bcm.eps]
  norm_num

example : (∀ x ∈ [cats], ∀ p ∈ x.predictions (some 2), 0 ≤ p.2 ∧ p.2 < 1) ∧
    (∃ x ∈ [cats], ∃ c ∈ x.labels, x.score (some 2) c = none ∧ x.weight true c ≠ 0) ∧
    (∃ x ∈ [cats], ∃ c q, x.score (some 2) c = some q ∧ x.weight true c ≠ 0) ∧
    share (total true (some 2) [cats] fun x c => IsLabel x c && Predicted (some 2) x c)
      (total true (some 2) [cats] (Predicted (some 2))) = .fin (1 / 2) := by
  refine ⟨by decide +kernel, ⟨cats, by simp, "cows", by decide, by decide +kernel, by decide +kernel⟩,
    ⟨cats, by simp, "cats", 9 / 10, by decide +kernel, by decide +kernel⟩, by decide +kernel⟩

example : 0 < total true (some 2) [{ cats with predClasses := [], scores := some [] }] IsLabel := by decide +kernel

end SetMatch
end TFMA
