import Verif.Model.DetectionMetrics
import Verif.Lemmas.MatrixItems
import Verif.Props.Coco
import Verif.Props.SetMatchMetrics
import Verif.Props.MatrixSetup

/-!
# C140: precision and recall of object detection
-/

namespace TFMA
namespace Detection

open Beam Boxes Coco MatrixSetup SetMatch

/-! ### Specification -/

/-- The weight of an image: example weight times class weight, 1 if the metric is not weighted. -/
def imageWeight (weighted : Bool) (p : Params) (img : Image) : ℚ :=
  if weighted then img.weight.getD 1 * p.classWeight.getD 1 else 1

/-- Matched detections whose confidence counts as positive. -/
def found {p : Params} {img : Image} (m : Matching p img) (S : ℚ → Bool) : ℕ :=
  (m.dets.zip m.preds).countP fun q => q.2.isSome && S q.1.confidence

/-- Detections in the area range which are not matched and whose confidence counts as positive. -/
def wrong {p : Params} {img : Image} (m : Matching p img) (S : ℚ → Bool) : ℕ :=
  (m.dets.zip m.preds).countP fun q => q.2.isNone && p.areaRange.contains q.1.box.area && S q.1.confidence

/-- The weight of the matched detections of all images. -/
def foundWeight {p : Params} (b : Bool) (S : ℚ → Bool) : {imgs : List Image} → Matchings p imgs → ℚ
  | _, .nil => 0
  | _, .cons (img := img) m ms => imageWeight b p img * found m S + foundWeight b S ms

/-- The weight of the detections of all images which are not matched. -/
def wrongWeight {p : Params} (b : Bool) (S : ℚ → Bool) : {imgs : List Image} → Matchings p imgs → ℚ
  | _, .nil => 0
  | _, .cons (img := img) m ms => imageWeight b p img * wrong m S + wrongWeight b S ms

/-- The weight of the ground truths of the class with an area in the range. -/
noncomputable def truthWeight (b : Bool) (p : Params) (imgs : List Image) : ℚ :=
  (imgs.map fun img => imageWeight b p img * (keptTruths p img.truths).length).sum

/-- A confidence above the threshold. -/
def above (t : Fl) (q : ℚ) : Bool := Fl.lt t (.fin q)

/-! ### Items -/

private theorem zip_weights (ls ps ws : List ℚ) (w : ℚ) (h1 : ls.length = ps.length) (h2 : ws.length = ls.length)
    (hw : ∀ x ∈ ws, x = w) :
    ((ls.zip (ps.zip ws)).map fun x => (⟨x.1, .fin x.2.1, some x.2.2⟩ : Item)) =
      (ls.zip ps).map fun q => ⟨q.1, .fin q.2, some w⟩ := by
  induction ls generalizing ps ws with
  | nil => rfl
  | cons l ls ih =>
    cases ps with
    | nil => cases h1
    | cons p ps => cases ws with
      | nil => cases h2
      | cons x ws =>
        simp only [List.zip_cons_cons, List.map_cons]
        rw [hw x (by simp), ih ps ws (by simpa using h1) (by simpa using h2) fun y hy => hw y (by simp [hy])]

private theorem sum_pairs (b : Bool) (w : ℚ) (P : ℚ → ℚ → Bool) (Q : ℚ × Fl × ℚ → Bool) (L : List (ℚ × ℚ))
    (h : ∀ q ∈ L, ∀ v, Q (q.1, .fin q.2, v) = P q.1 q.2) :
    sumIf Q ((L.map fun q => (⟨q.1, .fin q.2, some w⟩ : Item)).map (triple b)) =
      (if b then w else 1) * (L.countP fun q => P q.1 q.2 : ℕ) := by
  induction L with
  | nil => simp [sumIf]
  | cons q L ih =>
    have ih := ih fun y hy => h y (by simp [hy])
    simp only [List.map_cons, sumIf_cons, ih, List.countP_cons]
    have hq := h q (by simp) (itemWeight b ⟨q.1, .fin q.2, some w⟩)
    by_cases hP : P q.1 q.2 = true
    · rw [if_pos (by unfold triple; rw [hq, hP]), if_pos hP]
      simp only [triple, itemWeight, Option.getD_some]
      push_cast
      ring
    · rw [if_neg (by unfold triple; rw [hq]; exact hP), if_neg hP]
      simp

/-- What the metrics see of all images. -/
private theorem items_spec (b : Bool) (p : Params) (imgs : List Image) (items : List Item) (h : allItems p imgs = .ok items) :
    ∃ m : Matchings p imgs, (∀ i ∈ items, (i.label = 0 ∨ i.label = 1) ∧ (∃ q, i.prediction = .fin q) ∧
        ∃ img ∈ imgs, itemWeight b i = imageWeight b p img) ∧
      sumIf (fun x => decide (x.1 = 1)) (items.map (triple b)) = truthWeight b p imgs ∧
      (∀ T : Fl → Bool, T (.fin 0) = false →
        sumIf (fun x => decide (x.1 = 1) && T x.2.1) (items.map (triple b)) = foundWeight b (fun q => T (.fin q)) m) ∧
      ∀ T : Fl → Bool, sumIf (fun x => !decide (x.1 = 1) && T x.2.1) (items.map (triple b)) = wrongWeight b (fun q => T (.fin q)) m := by
  induction imgs generalizing items with
  | nil =>
    cases h
    exact ⟨.nil, by simp, by simp [sumIf, truthWeight], fun _ _ => by simp [sumIf, foundWeight], fun _ => by simp [sumIf, wrongWeight]⟩
  | cons img imgs ih =>
    simp only [allItems] at h
    cases he : itemsOf p img with
    | error e => rw [he] at h; cases h
    | ok as =>
      rw [he] at h
      simp only at h
      cases hr : allItems p imgs with
      | error e => rw [hr] at h; cases h
      | ok bs =>
        rw [hr] at h
        cases h
        obtain ⟨ms, h01, ht, hf, hw⟩ := ih bs hr
        unfold itemsOf at he
        cases htp : toPairs { p with weight := img.weight } img.truths img.detections with
        | error e => rw [htp] at he; cases he
        | ok r =>
          rw [htp] at he
          cases he
          obtain ⟨dets, gts, preds, c1, c2, c3, c4, c5, c6⟩ := C67_pairs _ _ _ _ htp
          obtain ⟨i1, i2, i3⟩ := C47_inverse _ _ _ (by
            intro row hrow; obtain ⟨d, _, rfl⟩ := List.mem_map.1 hrow; simp) gts preds c2
          have hk : KeptDetections p img.detections dets := ⟨c1.sorted, c1.best, c1.number, c1.stable⟩
          have hcount := C67_counts_by _ dets _ gts preds _ _ c3 i1 (by simpa using i2) i3
          have hlab : ∀ q ∈ r.labels.zip r.predictions, q.1 = 0 ∨ q.1 = 1 := by
            intro q hq
            have := c3.subset hq
            unfold expectedPairs at this
            rcases List.mem_append.1 this with hm | hm
            · obtain ⟨j, _, rfl⟩ := List.mem_map.1 hm; right; rfl
            · obtain ⟨j, _, rfl⟩ := List.mem_map.1 hm; left; rfl
          have hzip := zip_weights r.labels r.predictions r.weights _ c4 c5 c6
          simp only [hzip]
          have hiw : (if b then (img.weight.getD 1 * p.classWeight.getD 1) else 1) = imageWeight b p img := rfl
          refine ⟨.cons ⟨dets, gts, preds, hk, c2⟩ ms, ?_, ?_, ?_, ?_⟩
          · intro i hi
            rcases List.mem_append.1 hi with hi | hi
            · obtain ⟨q, hq, rfl⟩ := List.mem_map.1 hi
              exact ⟨hlab q hq, ⟨_, rfl⟩, img, by simp, rfl⟩
            · obtain ⟨e1, e2, img', e3, e4⟩ := h01 i hi
              exact ⟨e1, e2, img', by simp [e3], e4⟩
          · rw [List.map_append, sumIf_append, ht, sum_pairs b _ (fun y _ => decide (y = 1)) _ _ fun q _ v => rfl]
            rw [(hcount (fun _ => false)).2.1]
            simp only [truthWeight, List.map_cons, List.sum_cons]
            rfl
          · intro T hT
            rw [List.map_append, sumIf_append, hf T hT,
              sum_pairs b _ (fun y v => decide (y = 1) && T (.fin v)) _ _ fun q _ v => rfl]
            rw [(hcount (fun q => T (.fin q))).1 hT]
            rfl
          · intro T
            rw [List.map_append, sumIf_append, hw T,
              sum_pairs b _ (fun y v => decide (y = 0) && T (.fin v)) _ _ fun q hq v => by
                rcases hlab q hq with e | e <;> simp [e]]
            rw [(hcount (fun q => T (.fin q))).2.2]
            rfl

/-! ### Matrices -/

private theorem sumIf_split (P Q : ℚ × Fl × ℚ → Bool) (L : List (ℚ × Fl × ℚ)) :
    sumIf (fun x => P x && Q x) L + sumIf (fun x => P x && !Q x) L = sumIf P L := by
  induction L with
  | nil => simp [sumIf]
  | cons x L ih =>
    simp only [sumIf_cons, ← ih]
    cases P x <;> cases Q x <;> simp <;> ring

private theorem sumIf_nonneg (P : ℚ × Fl × ℚ → Bool) (L : List (ℚ × Fl × ℚ)) (h : ∀ x ∈ L, 0 ≤ x.2.2) : 0 ≤ sumIf P L := by
  refine List.sum_nonneg fun q hq => ?_
  obtain ⟨x, hx, rfl⟩ := List.mem_map.1 hq
  exact h x (List.mem_filter.1 hx).1

/-- The precision and the recall of the images when `S` says which confidences count as positive. -/
def precisionBy {p : Params} (b : Bool) (S : ℚ → Bool) {imgs : List Image} (m : Matchings p imgs) : Fl :=
  share (foundWeight b S m) (foundWeight b S m + wrongWeight b S m)

/-- See `precisionBy`. -/
noncomputable def recallBy {p : Params} (b : Bool) (S : ℚ → Bool) {imgs : List Image} (m : Matchings p imgs) : Fl :=
  share (foundWeight b S m) (truthWeight b p imgs)

/-- Everything that is proved about the items. -/
private structure Seen (b : Bool) (p : Params) (imgs : List Image) (items : List Item) (m : Matchings p imgs) : Prop where
  labels : ∀ i ∈ items, i.label = 0 ∨ i.label = 1
  preds : ∀ i ∈ items, ∃ q, i.prediction = .fin q
  weights : ∀ i ∈ items, ∃ img ∈ imgs, itemWeight b i = imageWeight b p img
  truths : sumIf (fun x => decide (x.1 = 1)) (items.map (triple b)) = truthWeight b p imgs
  found : ∀ T : Fl → Bool, T (.fin 0) = false →
    sumIf (fun x => decide (x.1 = 1) && T x.2.1) (items.map (triple b)) = foundWeight b (fun q => T (.fin q)) m
  wrong : ∀ T : Fl → Bool,
    sumIf (fun x => !decide (x.1 = 1) && T x.2.1) (items.map (triple b)) = wrongWeight b (fun q => T (.fin q)) m

private theorem seen (p : Params) (imgs : List Image) (items : List Item) (h : allItems p imgs = .ok items) (b : Bool) :
    ∃ m, Seen b p imgs items m := by
  obtain ⟨m, h1, h2, h3, h4⟩ := items_spec b p imgs items h
  exact ⟨m, fun i hi => (h1 i hi).1, fun i hi => (h1 i hi).2.1, fun i hi => (h1 i hi).2.2, h2, h3, h4⟩

section
variable {b : Bool} {p : Params} {imgs : List Image} {items : List Item} {m : Matchings p imgs} (hs : Seen b p imgs items m)
include hs

private theorem matrix_precision (T : Fl → Bool) (hT : T (.fin 0) = false) :
    Bcm.precision (matrixBy b items T) = precisionBy b (fun q => T (.fin q)) m := by
  simp only [Bcm.precision, Bcm.ratio, matrixBy, precisionBy, share, hs.found T hT, hs.wrong T]

private theorem matrix_recall (T : Fl → Bool) (hT : T (.fin 0) = false) :
    Bcm.recall (matrixBy b items T) = recallBy b (fun q => T (.fin q)) m := by
  have := sumIf_split (fun x => decide (x.1 = 1)) (fun x => T x.2.1) (items.map (triple b))
  rw [hs.truths, hs.found T hT] at this
  simp only [Bcm.recall, Bcm.ratio, matrixBy, recallBy, share, hs.found T hT, this]

private theorem matrix_all (T : Fl → Bool) (hT : ∀ q, T (.fin q) = true) :
    Bcm.precision (matrixBy b items T) = share (truthWeight b p imgs) (truthWeight b p imgs + wrongWeight b (fun _ => true) m) ∧
    Bcm.recall (matrixBy b items T) = share (truthWeight b p imgs) (truthWeight b p imgs) := by
  have e : sumIf (fun x => decide (x.1 = 1) && T x.2.1) (items.map (triple b)) = truthWeight b p imgs := by
    rw [← hs.truths]
    unfold sumIf
    congr 2
    refine List.filter_congr fun x hx => ?_
    obtain ⟨i, hi, rfl⟩ := List.mem_map.1 hx
    obtain ⟨q, hq⟩ := hs.preds i hi
    simp [triple, hq, hT]
  have := sumIf_split (fun x => decide (x.1 = 1)) (fun x => T x.2.1) (items.map (triple b))
  rw [hs.truths, e] at this
  have ew : (fun q => T (.fin q)) = fun _ => true := funext hT
  refine ⟨?_, ?_⟩
  · simp only [Bcm.precision, Bcm.ratio, matrixBy, share, e, hs.wrong T, ew]
  · simp only [Bcm.recall, Bcm.ratio, matrixBy, share, e, this]

private theorem matrix_nonneg (hw : ∀ img ∈ imgs, 0 ≤ imageWeight b p img) (T : Fl → Bool) : Bcm.Nonneg (matrixBy b items T) := by
  have : ∀ x ∈ items.map (triple b), 0 ≤ x.2.2 := by
    intro x hx
    obtain ⟨i, hi, rfl⟩ := List.mem_map.1 hx
    obtain ⟨img, h1, h2⟩ := hs.weights i hi
    simp only [triple, h2]
    exact hw img h1
  exact ⟨sumIf_nonneg _ _ this, sumIf_nonneg _ _ this, sumIf_nonneg _ _ this, sumIf_nonneg _ _ this⟩

end

private theorem no_histogram {ts : List Fl} (h : Counted ts) : histogramDefault none ts = false := by
  unfold histogramDefault
  cases ts with
  | nil => rfl
  | cons t l => cases l with
    | nil => simpa using h.single t rfl
    | cons u l => rfl

private theorem counted {b : Bool} {p : Params} {imgs : List Image} {items : List Item} {m : Matchings p imgs}
    (hs : Seen b p imgs items m) (part) (sp) (ts : List Fl) (hts : Counted ts) (s : Sched Item) (hp : s.inputs.Perm items) :
    matricesWith part (only sp b) none (some ts) s = .ok (ts.map fun t => (t, matrixBy b items fun v => Fl.lt t v)) :=
  matrices_counted part sp b items hs.labels none _ ts (choose_given hts.ne hts.given) hts.nodup (no_histogram hts) s hp

private theorem value_map (ts : List Fl) (M : Fl → Bcm.Matrix) (f : Bcm.Matrix → Fl) :
    Bcm.metricValue f (ts.map fun t => (t, M t)) = perThreshold ts fun t => f (M t) := by
  unfold Bcm.metricValue perThreshold
  match ts with
  | [] => rfl
  | [t] => rfl
  | t :: u :: l => simp [List.map_map]

/-! ### C140 -/

/-- **C140** (precision and recall), the part that holds for thresholds that are not negative: there is a greedy matching of the
detections of every image such that for every bundling object detection precision is the weight of the matched detections above the
threshold among the weight of all detections in the area range above it, and recall is the weight of the matched detections above the threshold
among the weight of the ground truths, one value per threshold.  Missing: negative thresholds and numbers of thresholds
(`C140_number`). -/
theorem C140_precision_recall_partial (p : Params) (imgs : List Image) (items : List Item) (h : allItems p imgs = .ok items) (b : Bool) :
    ∃ m : Matchings p imgs, ∀ (part) (sp) (ts : List Fl), Counted ts → (∀ t ∈ ts, Fl.lt t (.fin 0) = false) →
      ∀ s : Sched Item, s.inputs.Perm items →
      value part .precision none (some (.list ts)) (only sp b) s = .ok (perThreshold ts fun t => precisionBy b (above t) m) ∧
      value part .recall none (some (.list ts)) (only sp b) s = .ok (perThreshold ts fun t => recallBy b (above t) m) := by
  obtain ⟨m, hs⟩ := seen p imgs items h b
  refine ⟨m, fun part sp ts hts h0 s hp => ?_⟩
  have hm := counted hs part sp ts hts s hp
  have per : ∀ f g : Fl → Fl, (∀ t ∈ ts, f t = g t) → perThreshold ts f = perThreshold ts g := by
    intro f g hfg
    unfold perThreshold
    match ts, hfg with
    | [], _ => rfl
    | [t], hfg => simp [hfg t]
    | t :: u :: l, hfg => simp only [List.map_congr_left hfg]
  constructor
  · simp only [value, thresholdsOf, metricThresholds, Except.map, hm, valueOf, value_map]
    refine congrArg Except.ok (per _ _ fun t ht => ?_)
    exact matrix_precision hs (fun v => Fl.lt t v) (h0 t ht)
  · simp only [value, thresholdsOf, metricThresholds, Except.map, hm, valueOf, value_map]
    refine congrArg Except.ok (per _ _ fun t ht => ?_)
    exact matrix_recall hs (fun v => Fl.lt t v) (h0 t ht)

/-- **C140**: the default threshold of precision and recall is 1/2, a single threshold is a list of one, and the maximum recall is the
recall at 1e-12. -/
theorem C140_default (part) (args : Inputs.Args) (s : Sched Item) :
    value part .precision none none args s = value part .precision none (some (.list [.fin (1 / 2)])) args s ∧
    value part .recall none none args s = value part .recall none (some (.list [.fin (1 / 2)])) args s ∧
    (∀ k num t, value part k num (some (.float t)) args s = value part k num (some (.list [t])) args s) ∧
    (∀ num arg, value part .maxRecall num arg args s = value part .recall none (some (.list [.fin (1 / 1000000000000)])) args s) ∧
    Counted [.fin (1 / 2)] ∧ Counted [.fin (1 / 1000000000000)] := by
  refine ⟨rfl, rfl, ?_, fun _ _ => rfl, ⟨by simp, by simp, ?_, by simp [interpolated]⟩, ⟨by simp, by simp, ?_, by simp [interpolated]⟩⟩
  · intro k num t
    cases k <;> rfl
  · intro t ht; cases ht; decide +kernel
  · intro t ht; cases ht; decide +kernel

/-- `v` is the best value of `dep` among the thresholds that are `ok`: 0 if there are none, NaN if it is undefined for all of them,
otherwise attained and not exceeded. -/
def Best (ok : Fl → Prop) (dep : Fl → Fl) (ts : List Fl) (v : Fl) : Prop :=
  ((∀ t ∈ ts, ¬ ok t) ∧ v = .fin 0) ∨
  ((∃ t ∈ ts, ok t) ∧ (∀ t ∈ ts, ok t → dep t = .nan) ∧ v = .nan) ∨
  (v ≠ .nan ∧ (∃ t ∈ ts, ok t ∧ dep t = v) ∧ ∀ t ∈ ts, ok t → dep t ≠ .nan → Fl.le (dep t) v = true)

private theorem best_map {ok : Fl → Prop} {dep : Fl → Fl} {ts : List Fl} {v : Fl} {M : Fl → Bcm.Matrix} {ok' : Bcm.MRow → Prop}
    {dep' : Bcm.MRow → Fl} (h1 : ∀ t ∈ ts, (ok' (t, M t) ↔ ok t)) (h2 : ∀ t ∈ ts, dep' (t, M t) = dep t)
    (h : Bcm.BestUnder ok' dep' (ts.map fun t => (t, M t)) v) : Best ok dep ts v := by
  rcases h with ⟨a, e⟩ | ⟨⟨x, hx, a⟩, c, e⟩ | ⟨e, ⟨x, hx, a, c⟩, d⟩
  · left
    exact ⟨fun t ht => fun ho => a _ (List.mem_map_of_mem ht) ((h1 t ht).2 ho), e⟩
  · right; left
    obtain ⟨t, ht, rfl⟩ := List.mem_map.1 hx
    refine ⟨⟨t, ht, (h1 t ht).1 a⟩, fun u hu ho => ?_, e⟩
    rw [← h2 u hu]
    exact c _ (List.mem_map_of_mem hu) ((h1 u hu).2 ho)
  · right; right
    obtain ⟨t, ht, rfl⟩ := List.mem_map.1 hx
    refine ⟨e, ⟨t, ht, (h1 t ht).1 a, by rw [← h2 t ht]; exact c⟩, fun u hu ho hn => ?_⟩
    rw [← h2 u hu] at hn ⊢
    exact d _ (List.mem_map_of_mem hu) ((h1 u hu).2 ho) hn

/-- **C140** (precision and threshold at recall), the part that holds for given thresholds that are not negative: the best precision,
or the largest threshold, among the thresholds with at least the recall.  Missing: numbers of thresholds, which are the default,
see `C140_finds_nothing`. -/
theorem C140_at_recall_partial (p : Params) (imgs : List Image) (items : List Item) (h : allItems p imgs = .ok items) (b : Bool)
    (hw : ∀ img ∈ imgs, 0 ≤ imageWeight b p img) :
    ∃ m : Matchings p imgs, ∀ (part) (sp) (ts : List Fl), Counted ts → (∀ t ∈ ts, Fl.lt t (.fin 0) = false) →
      ∀ s : Sched Item, s.inputs.Perm items → ∀ r : Fl,
      (∃ v, value part (.precisionAtRecall (.float r)) none (some (.list ts)) (only sp b) s = .ok (.scalar v) ∧
        Best (fun t => Fl.le r (recallBy b (above t) m) = true) (fun t => precisionBy b (above t) m) ts v) ∧
      (∃ v, value part (.thresholdAtRecall (.float r)) none (some (.list ts)) (only sp b) s = .ok (.scalar v) ∧
        Best (fun t => Fl.le r (recallBy b (above t) m) = true) id ts v) := by
  obtain ⟨m, hs⟩ := seen p imgs items h b
  refine ⟨m, fun part sp ts hts h0 s hp r => ?_⟩
  have hm := counted hs part sp ts hts s hp
  have hnn : Bcm.AllNonneg (ts.map fun t => (t, matrixBy b items fun v => Fl.lt t v)) := by
    intro x hx
    obtain ⟨t, ht, rfl⟩ := List.mem_map.1 hx
    exact matrix_nonneg hs hw _
  have hb := Bcm.C77_best r _ hnn
  have hrec : ∀ t ∈ ts, Bcm.recall (matrixBy b items fun v => Fl.lt t v) = recallBy b (above t) m := fun t ht =>
    matrix_recall hs (fun v => Fl.lt t v) (h0 t ht)
  have hpre : ∀ t ∈ ts, Bcm.precision (matrixBy b items fun v => Fl.lt t v) = precisionBy b (above t) m := fun t ht =>
    matrix_precision hs (fun v => Fl.lt t v) (h0 t ht)
  refine ⟨⟨_, ?_, best_map (M := fun t => matrixBy b items fun v => Fl.lt t v) ?_ hpre hb.2.2.1⟩,
    ⟨_, ?_, best_map (M := fun t => matrixBy b items fun v => Fl.lt t v) ?_ (fun t _ => rfl) hb.2.2.2.2.2⟩⟩
  · simp only [value, thresholdsOf, metricThresholds, Except.map, hm, valueOf, atRecalls]
  · intro t ht; simp only [hrec t ht]
  · simp only [value, thresholdsOf, metricThresholds, Except.map, hm, valueOf, atRecalls]
  · intro t ht; simp only [hrec t ht]

/-- **C140**: several recalls give an array with one value for each. -/
theorem C140_recalls (part) (num arg args) (s : Sched Item) (f : RecallArg → Kind)
    (hf : f = .precisionAtRecall ∨ f = .thresholdAtRecall) (rs : List Fl) (vs : Fl → Fl)
    (h : ∀ r ∈ rs, value part (f (.float r)) num arg args s = .ok (.scalar (vs r))) (hne : rs ≠ []) :
    value part (f (.list rs)) num arg args s = .ok (.array (rs.map vs)) := by
  obtain ⟨r, hr⟩ := List.exists_mem_of_ne_nil _ hne
  have hth : ∀ a c, thresholdsOf (f a) num arg = thresholdsOf (f c) num arg := by
    intro a c; rcases hf with rfl | rfl <;> rfl
  unfold value at h ⊢
  cases ht : thresholdsOf (f (.list rs)) num arg with
  | error e => have := h r hr; rw [hth _ (.list rs), ht] at this; cases this
  | ok x =>
    obtain ⟨num', ts⟩ := x
    simp only [hth _ (.list rs), ht] at h
    simp only
    cases hm : matricesWith part args num' ts s with
    | error e => rw [hm] at h; cases h r hr
    | ok ms =>
      rw [hm] at h
      simp only at h ⊢
      rcases hf with rfl | rfl <;> simp only [valueOf, atRecalls, Except.ok.injEq, Bcm.Value.scalar.injEq] at h ⊢ <;>
        rw [List.map_congr_left h]

/-- **C140**: the metric can be created exactly with a recall, or recalls, each of which is not below 0 and not above 1 (NaN is
accepted); an integer, even 0 or 1, is not accepted, there or when the value is computed. -/
theorem C140_accepted :
    (∀ r, (checkRecall (.float r) = .ok () ↔ ¬ Fl.lt r (.fin 0) = true ∧ ¬ Fl.lt (.fin 1) r = true) ∧
      (checkRecall (.float r) = .ok () ∨ checkRecall (.float r) = .error .valueError)) ∧
    (∀ rs, (checkRecall (.list rs) = .ok () ↔ ∀ r ∈ rs, checkRecall (.float r) = .ok ()) ∧
      (checkRecall (.list rs) = .ok () ∨ checkRecall (.list rs) = .error .valueError)) ∧
    (∀ n, checkRecall (.whole n) = .error .typeError) ∧
    checkRecall (.float .nan) = .ok () ∧ ∀ q : ℚ, checkRecall (.float (.fin q)) = .ok () ↔ 0 ≤ q ∧ q ≤ 1 := by
  have h1 : ∀ r, (checkRecall (.float r) = .ok () ↔ ¬ Fl.lt r (.fin 0) = true ∧ ¬ Fl.lt (.fin 1) r = true) := by
    intro r
    simp only [checkRecall]
    generalize Fl.lt r (.fin 0) = x
    generalize Fl.lt (.fin 1) r = y
    cases x <;> cases y <;> simp
  refine ⟨fun r => ⟨h1 r, ?_⟩, fun rs => ⟨?_, ?_⟩, fun _ => rfl, rfl, fun q => ?_⟩
  · simp only [checkRecall]
    split <;> simp
  · simp only [h1]
    simp only [checkRecall]
    split
    · rename_i h
      obtain ⟨r, hr, h⟩ := List.any_eq_true.1 h
      constructor
      · intro e; cases e
      · intro hall
        have := hall r hr
        rcases Bool.or_eq_true_iff.1 h with h | h
        · exact absurd h this.1
        · exact absurd h this.2
    · rename_i h
      refine ⟨fun _ r hr => ?_, fun _ => rfl⟩
      constructor <;> intro hh <;> exact h (List.any_eq_true.2 ⟨r, hr, by simp [hh]⟩)
  · simp only [checkRecall]
    split <;> simp
  · rw [h1]
    have e1 : Fl.lt (.fin q) (.fin 0) = true ↔ q < 0 := by
      simp only [Fl.lt, Fl.le, Bool.and_eq_true, Bool.not_eq_true', decide_eq_true_eq, decide_eq_false_iff_not, not_le]
      exact ⟨fun h => h.2, fun h => ⟨h.le, h⟩⟩
    have e2 : Fl.lt (.fin 1) (.fin q) = true ↔ 1 < q := by
      simp only [Fl.lt, Fl.le, Bool.and_eq_true, Bool.not_eq_true', decide_eq_true_eq, decide_eq_false_iff_not, not_le]
      exact ⟨fun h => h.2, fun h => ⟨h.le, h⟩⟩
    rw [e1, e2, not_lt, not_lt]

/-- Two ground truths, one of which is found, and a wrong detection with less confidence. -/
private def exImages : List Image :=
  [⟨[⟨⟨0, 0, 2, 2⟩, 1⟩, ⟨⟨5, 5, 6, 6⟩, 1⟩], [⟨⟨8, 8, 9, 9⟩, 1, 3 / 10⟩, ⟨⟨0, 0, 2, 2⟩, 1, 9 / 10⟩], some 2⟩]

private def exParams : Params := params 1 (some (1 / 2)) none none none none

private def exItems : List Item := [⟨1, .fin (9 / 10), some 2⟩, ⟨1, .fin 0, some 2⟩, ⟨0, .fin (3 / 10), some 2⟩]

/-- At the default threshold precision is 1 and recall 1/2; at 0.2 precision is 1/2. -/
example : allItems exParams exImages = .ok exItems ∧
    value (fun _ _ => []) .precision none none (only [] true) (.bundle exItems) = .ok (.scalar (.fin 1)) ∧
    value (fun _ _ => []) .recall none none (only [] true) (.bundle exItems) = .ok (.scalar (.fin (1 / 2))) ∧
    value (fun _ _ => []) .precision none (some (.list [.fin (1 / 5), .fin (1 / 2)])) (only [] true) (.bundle exItems) =
      .ok (.array [.fin (1 / 2), .fin 1]) ∧
    value (fun _ _ => []) (.precisionAtRecall (.list [.fin (1 / 2), .fin 1])) none (some (.list [.fin (1 / 5), .fin (1 / 2)]))
      (only [] true) (.bundle exItems) = .ok (.array [.fin 1, .fin 0]) ∧
    (∀ img ∈ exImages, 0 ≤ imageWeight true exParams img) := by
  refine ⟨?_, ?_, ?_, ?_, ?_, ?_⟩
  · decide +kernel
  · decide +kernel
  · decide +kernel
  · decide +kernel
  · decide +kernel
  · intro img hi; simp [exImages] at hi; subst hi; norm_num [imageWeight, exParams, params]

/-! ### A number of thresholds -/

/-- A confidence counts as positive at the threshold `t`, if a histogram is used: rounded down to ten thousandths (1 and more to
infinity) it is above the threshold. -/
def gridAbove (t : Fl) (q : ℚ) : Bool :=
  !Fl.le (.fin (1 + 1 / 10000000)) t && Fl.le (Bcm.corrected t) (Bcm.gridBelow (.fin q))

private theorem even_usable {n : ℕ} {ts : List Fl} (hn : 2 ≤ n) (h : EvenlySpaced n ts) : Bcm.Usable ts := by
  have hget : ∀ t ∈ ts, ∃ i : ℕ, ts[i]? = some t ∧ i < n := by
    intro t ht
    obtain ⟨i, hi, rfl⟩ := List.getElem_of_mem ht
    exact ⟨i, List.getElem?_eq_getElem hi, h.length ▸ hi⟩
  have hval : ∀ t ∈ ts, t = .fin (-(1 / 10000000)) ∨ ∃ q : ℚ, 0 ≤ q ∧ t = .fin q := by
    intro t ht
    obtain ⟨i, hi, hin⟩ := hget t ht
    rcases Nat.eq_zero_or_pos i with rfl | h0
    · left; rw [h.first] at hi; cases hi; rfl
    · right
      by_cases hl : i = n - 1
      · subst hl; rw [h.last] at hi; cases hi; exact ⟨_, by norm_num, rfl⟩
      · rw [h.inner i h0 (by omega)] at hi
        cases hi
        have : (0 : ℚ) < (n : ℚ) - 1 := by
          have : (2 : ℚ) ≤ n := by exact_mod_cast hn
          linarith
        exact ⟨_, by positivity, rfl⟩
  refine ⟨?_, ?_, ?_⟩
  · rw [List.pairwise_iff_getElem]
    intro i j hi hj hij
    exact C88_ascending n ts h i j hij _ _ (List.getElem?_eq_getElem hi) (List.getElem?_eq_getElem hj)
  · intro t ht e
    rcases hval t ht with h | ⟨q, _, h⟩ <;> rw [e] at h <;> cases h
  · intro q hq h0
    rcases hval _ hq with h | ⟨q', h1, h⟩ <;> cases h
    · norm_num
    · linarith

private theorem first_all (v : Fl) : Bcm.countsPositive (.fin (-(1 / 10000000))) 0 (.fin (-(1 / 10000000))) v = true := by
  have h1 : Fl.le (.fin (1 + 1 / 10000000)) (.fin (-(1 / 10000000))) = false := by decide +kernel
  have h2 : Fl.lt (.fin (-(1 / 10000000))) (.fin 0) = true := by decide +kernel
  simp only [Bcm.countsPositive, h1, h2, beq_self_eq_true, Bool.not_false, Bool.true_and, Bool.true_or]

private theorem later (t0 t : Fl) (i : ℕ) (hi : 0 < i) (q : ℚ) :
    Bcm.countsPositive t0 i t (Bcm.gridBelow (.fin q)) = gridAbove t q := by
  have : (i == 0) = false := by simp; omega
  simp [Bcm.countsPositive, gridAbove, this]

private theorem later_zero {n : ℕ} {ts : List Fl} (hn : 2 ≤ n) (h : EvenlySpaced n ts) (i : ℕ) (hi : 0 < i) (t : Fl)
    (ht : ts[i]? = some t) : gridAbove t 0 = false := by
  have hg : Bcm.gridBelow (.fin 0) = .fin 0 := by simp [Bcm.gridBelow]
  have hlen : i < n := by rw [← h.length]; exact (List.getElem?_eq_some_iff.1 ht).1
  unfold gridAbove
  rw [hg]
  by_cases hl : i = n - 1
  · subst hl
    rw [h.last] at ht; cases ht
    have : Fl.le (.fin (1 + 1 / 10000000)) (.fin (1 + 1 / 10000000)) = true := by decide +kernel
    rw [this]; rfl
  · rw [h.inner i hi (by omega)] at ht
    cases ht
    have h1 : (0 : ℚ) < (n : ℚ) - 1 := by
      have : (2 : ℚ) ≤ n := by exact_mod_cast hn
      linarith
    have hq : (0 : ℚ) < (i : ℚ) / ((n : ℚ) - 1) := by positivity
    have : Fl.le (Bcm.corrected (.fin ((i : ℚ) / ((n : ℚ) - 1)))) (.fin 0) = false := by
      rw [Bcm.corrected, if_neg (by intro e; exact hq.ne' (Fl.fin.inj e))]
      simp only [Fl.add, Fl.le, decide_eq_false_iff_not, not_le]
      linarith
    simp [this]

private theorem numbered {b : Bool} {p : Params} {imgs : List Image} {items : List Item} {m : Matchings p imgs}
    (hs : Seen b p imgs items m) (part) (sp) (num : Option ℤ) (n : ℤ) (hn : (num = some n ∧ 2 ≤ n) ∨ (num = none ∧ n = 10000))
    (s : Sched Item) (hp : s.inputs.Perm items) :
    ∃ (ts : List Fl) (S : ℕ → Fl → Bool), EvenlySpaced n.toNat ts ∧ 2 ≤ n.toNat ∧
      (∀ v, S 0 v = true) ∧ (∀ i t, 0 < i → ts[i]? = some t → ∀ q, S i (.fin q) = gridAbove t q) ∧
      matricesWith part (only sp b) num none s = .ok (ts.zipIdx.map fun x => (x.1, matrixBy b items (S x.2))) := by
  obtain ⟨ts, hch, hev⟩ : ∃ ts, choose num none = .ok (some n, ts) ∧ EvenlySpaced n.toNat ts := by
    rcases hn with ⟨rfl, h2⟩ | ⟨rfl, rfl⟩
    · exact (C88_number n).1 h2
    · exact C88_neither
  have h2 : 2 ≤ n.toNat := by omega
  obtain ⟨t0, t1, rest, rfl⟩ : ∃ t0 t1 rest, ts = t0 :: t1 :: rest := by
    have := hev.length
    match ts, this with
    | t0 :: t1 :: rest, _ => exact ⟨t0, t1, rest, rfl⟩
    | [], h => simp at h; omega
    | [t], h => simp at h; omega
  have ht0 : t0 = .fin (-(1 / 10000000)) := by simpa using hev.first
  have hneg : Fl.lt t0 (.fin 0) = true := by rw [ht0]; decide +kernel
  refine ⟨_, fun i v => Bcm.countsPositive t0 i (((t0 :: t1 :: rest)[i]?).getD .nan) (Bcm.gridBelow v), hev, h2, ?_, ?_, ?_⟩
  · intro v
    simp only [List.getElem?_cons_zero, Option.getD_some]
    rw [ht0]
    exact first_all _
  · intro i t hi ht q
    simp only [ht, Option.getD_some]
    exact later _ _ _ hi _
  · refine matrices_histogram part sp b items hs.labels ?_ num (some n) none _ hch rfl Bcm.defaultConfig rfl (by simp [numBuckets])
      (fun i v => Bcm.countsPositive t0 i (((t0 :: t1 :: rest)[i]?).getD .nan) (Bcm.gridBelow v)) ?_ s hp
    · intro i hi
      obtain ⟨q, hq⟩ := hs.preds i hi
      rw [hq]; exact fun h => nomatch h
    · obtain ⟨c, h1, h2⟩ := Bcm.C54_cells t0 (t1 :: rest) (even_usable h2 hev) (by simp) (.inr hneg)
        (items.map (itemHist b)).flatten (by
          intro e he
          obtain ⟨l, hl', hel⟩ := List.mem_flatten.1 he
          obtain ⟨i, hi, rfl⟩ := List.mem_map.1 hl'
          rw [itemHist_eq b i (hs.labels i hi)] at hel
          split_ifs at hel
          · cases hel
          · rw [List.mem_singleton] at hel
            subst hel
            obtain ⟨q, hq⟩ := hs.preds i hi
            simp only [hq]
            exact fun h => nomatch h)
      refine ⟨c, h1, fun i t ht => ?_⟩
      simp only [ht, Option.getD_some]
      exact h2 i t ht

/-- **C140** (false of the code for the lowest threshold): with a number of thresholds, the value at the first threshold, which is
slightly below 0, counts every ground truth as found; at the other thresholds precision and recall are as for given thresholds,
except that confidences are rounded down to ten thousandths. -/
theorem C140_number (p : Params) (imgs : List Image) (items : List Item) (h : allItems p imgs = .ok items) (b : Bool) :
    ∃ m : Matchings p imgs, ∀ (part) (sp) (n : ℤ), 2 ≤ n → ∀ s : Sched Item, s.inputs.Perm items →
      ∃ ts vs ws, EvenlySpaced n.toNat ts ∧
        value part .precision (some n) none (only sp b) s = .ok (.array vs) ∧
        value part .recall (some n) none (only sp b) s = .ok (.array ws) ∧ vs.length = n.toNat ∧ ws.length = n.toNat ∧
        vs[0]? = some (share (truthWeight b p imgs) (truthWeight b p imgs + wrongWeight b (fun _ => true) m)) ∧
        ws[0]? = some (share (truthWeight b p imgs) (truthWeight b p imgs)) ∧
        ∀ i t, 0 < i → ts[i]? = some t →
          vs[i]? = some (precisionBy b (gridAbove t) m) ∧ ws[i]? = some (recallBy b (gridAbove t) m) := by
  obtain ⟨m, hs⟩ := seen p imgs items h b
  refine ⟨m, fun part sp n hn s hp => ?_⟩
  obtain ⟨ts, S, hev, h2, hS0, hS, hm⟩ := numbered hs part sp (some n) n (.inl ⟨rfl, hn⟩) s hp
  have hmv : ∀ f : Bcm.Matrix → Fl, Bcm.metricValue f (ts.zipIdx.map fun x => (x.1, matrixBy b items (S x.2))) =
      .array (ts.zipIdx.map fun x => f (matrixBy b items (S x.2))) := by
    intro f
    have := hev.length
    match ts, this with
    | t0 :: t1 :: rest, _ => simp [Bcm.metricValue, List.map_map]
    | [], h => simp at h; omega
    | [t], h => simp at h; omega
  have hget : ∀ (f : Bcm.Matrix → Fl) (i : ℕ) (t : Fl), ts[i]? = some t →
      (ts.zipIdx.map fun x => f (matrixBy b items (S x.2)))[i]? = some (f (matrixBy b items (S i))) := by
    intro f i t ht
    simp [ht]
  refine ⟨ts, ts.zipIdx.map fun x => Bcm.precision (matrixBy b items (S x.2)),
    ts.zipIdx.map fun x => Bcm.recall (matrixBy b items (S x.2)), hev, ?_, ?_, ?_, ?_, ?_, ?_, ?_⟩
  · simp only [value, thresholdsOf, metricThresholds, Option.isSome_some, if_true, Except.map, hm, valueOf, hmv]
  · simp only [value, thresholdsOf, metricThresholds, Option.isSome_some, if_true, Except.map, hm, valueOf, hmv]
  · simp [hev.length]
  · simp [hev.length]
  · rw [hget _ 0 _ hev.first, (matrix_all hs (S 0) fun q => hS0 _).1]
  · rw [hget _ 0 _ hev.first, (matrix_all hs (S 0) fun q => hS0 _).2]
  · intro i t hi ht
    have hz : S i (.fin 0) = false := by rw [hS i t hi ht, later_zero h2 hev i hi t ht]
    have he : (fun q => S i (.fin q)) = gridAbove t := funext fun q => hS i t hi ht q
    rw [hget _ i t ht, hget _ i t ht, matrix_precision hs (S i) hz, matrix_recall hs (S i) hz, he]
    exact ⟨rfl, rfl⟩

/-- **C140** (false of the code): precision at recall with a number of thresholds, and thus by default, is at least the number of all
ground truths among all ground truths and wrong detections, whether the ground truths are found or not, for every recall. -/
theorem C140_precision_at_recall_bound (p : Params) (imgs : List Image) (items : List Item) (h : allItems p imgs = .ok items) (b : Bool)
    (hw : ∀ img ∈ imgs, 0 ≤ imageWeight b p img) (ht : 0 < truthWeight b p imgs) :
    ∃ m : Matchings p imgs, 0 ≤ wrongWeight b (fun _ => true) m ∧ ∀ (part) (sp) (num : Option ℤ), (∀ n, num = some n → 2 ≤ n) →
      ∀ s : Sched Item, s.inputs.Perm items → ∀ r : ℚ, r ≤ 1 →
      ∃ q, value part (.precisionAtRecall (.float (.fin r))) num none (only sp b) s = .ok (.scalar (.fin q)) ∧ q ≤ 1 ∧
        truthWeight b p imgs / (truthWeight b p imgs + wrongWeight b (fun _ => true) m) ≤ q := by
  obtain ⟨m, hs⟩ := seen p imgs items h b
  have hwr : 0 ≤ wrongWeight b (fun _ => true) m := by
    have := hs.wrong fun _ => true
    rw [← this]
    refine sumIf_nonneg _ _ fun x hx => ?_
    obtain ⟨i, hi, rfl⟩ := List.mem_map.1 hx
    obtain ⟨img, h1, h2⟩ := hs.weights i hi
    simp only [triple, h2]
    exact hw img h1
  refine ⟨m, hwr, fun part sp num hn s hp r hr => ?_⟩
  obtain ⟨n, hn'⟩ : ∃ n : ℤ, (num = some n ∧ 2 ≤ n) ∨ (num = none ∧ n = 10000) := by
    cases num with
    | none => exact ⟨_, .inr ⟨rfl, rfl⟩⟩
    | some n => exact ⟨n, .inl ⟨rfl, hn n rfl⟩⟩
  obtain ⟨ts, S, hev, h2, hS0, hS, hm⟩ := numbered hs part sp num n hn' s hp
  have hnn : Bcm.AllNonneg (ts.zipIdx.map fun x => (x.1, matrixBy b items (S x.2))) := by
    intro x hx
    obtain ⟨y, hy, rfl⟩ := List.mem_map.1 hx
    exact matrix_nonneg hs hw _
  have hb := (Bcm.C77_best (.fin r) _ hnn).2.2.1
  have hval : value part (.precisionAtRecall (.float (.fin r))) num none (only sp b) s =
      .ok (.scalar (Bcm.precisionAtRecall (.fin r) (ts.zipIdx.map fun x => (x.1, matrixBy b items (S x.2))))) := by
    have : (metricThresholds none num none none).map (fun ts => (num, ts)) = .ok (num, none) := by
      rcases hn' with ⟨rfl, _⟩ | ⟨rfl, _⟩ <;> rfl
    simp only [value, thresholdsOf, this, hm, valueOf, atRecalls]
  rw [hval]
  generalize Bcm.precisionAtRecall (.fin r) _ = v at hb ⊢
  have hmem : (Fl.fin (-(1 / 10000000)), matrixBy b items (S 0)) ∈ ts.zipIdx.map fun x => (x.1, matrixBy b items (S x.2)) :=
    List.mem_of_getElem? (i := 0) (by simp [hev.first])
  have hrec := (matrix_all hs (S 0) fun q => hS0 _).2
  have hpre := (matrix_all hs (S 0) fun q => hS0 _).1
  have hsum : 0 < truthWeight b p imgs + wrongWeight b (fun _ => true) m := by linarith
  rw [share, if_pos ht, div_self ht.ne'] at hrec
  rw [share, if_pos hsum] at hpre
  have hok : Fl.le (.fin r) (Bcm.recall (matrixBy b items (S 0))) = true := by
    rw [hrec]; simpa [Fl.le] using hr
  rcases hb with ⟨a, -⟩ | ⟨-, a, -⟩ | ⟨a, ⟨x, hx, c1, c2⟩, d⟩
  · exact absurd hok (a _ hmem)
  · have := a _ hmem hok
    simp only at this
    rw [hpre] at this
    cases this
  · have hd := d _ hmem hok (by simp only; rw [hpre]; exact fun h => nomatch h)
    simp only at hd
    rw [hpre] at hd
    have hx0 := hnn x hx
    simp only [Bcm.precision, Bcm.ratio] at c2
    split_ifs at c2 with hpos
    · refine ⟨_, by rw [← c2], ?_, ?_⟩
      · rw [div_le_one hpos]; linarith [hx0.fp]
      · rw [← c2] at hd; simpa [Fl.le] using hd
    · exact absurd c2.symm a

private theorem wrong_nil {b : Bool} {p : Params} {S : ℚ → Bool} : ∀ {imgs : List Image} (m : Matchings p imgs),
    (∀ img ∈ imgs, img.detections = []) → wrongWeight b S m = 0 ∧ foundWeight b S m = 0
  | _, .nil, _ => ⟨rfl, rfl⟩
  | img :: imgs, .cons m ms, h => by
    have hd : m.dets = [] := by
      obtain ⟨rest, hr, -⟩ := m.kept.best
      rw [h img (by simp), List.filter_nil] at hr
      exact (List.append_eq_nil_iff.1 hr.eq_nil).1
    obtain ⟨h1, h2⟩ := wrong_nil (b := b) (S := S) ms fun i hi => h i (by simp [hi])
    simp [wrongWeight, foundWeight, wrong, found, hd, h1, h2]

/-- **C140** (false of the code): a model that detects nothing at all has precision 1 at every recall, by default and for every number
of thresholds, whereas it has precision 0 at every positive recall for given thresholds that are not negative. -/
theorem C140_finds_nothing (p : Params) (imgs : List Image) (items : List Item) (h : allItems p imgs = .ok items) (b : Bool)
    (hw : ∀ img ∈ imgs, 0 ≤ imageWeight b p img) (ht : 0 < truthWeight b p imgs) (hd : ∀ img ∈ imgs, img.detections = [])
    (part) (sp) (s : Sched Item) (hp : s.inputs.Perm items) :
    (∀ num : Option ℤ, (∀ n, num = some n → 2 ≤ n) → ∀ r : ℚ, r ≤ 1 →
      value part (.precisionAtRecall (.float (.fin r))) num none (only sp b) s = .ok (.scalar (.fin 1))) ∧
    ∀ ts : List Fl, Counted ts → (∀ t ∈ ts, Fl.lt t (.fin 0) = false) → ∀ r : ℚ, 0 < r →
      value part (.precisionAtRecall (.float (.fin r))) none (some (.list ts)) (only sp b) s = .ok (.scalar (.fin 0)) := by
  constructor
  · obtain ⟨m, h1, h2⟩ := C140_precision_at_recall_bound p imgs items h b hw ht
    intro num hn r hr
    obtain ⟨q, e, h3, h4⟩ := h2 part sp num hn s hp r hr
    rw [(wrong_nil m hd).1, add_zero, div_self ht.ne'] at h4
    rw [e, le_antisymm h3 h4]
  · obtain ⟨m, h2⟩ := C140_at_recall_partial p imgs items h b hw
    intro ts hts h0 r hr
    obtain ⟨⟨v, e, hb⟩, -⟩ := h2 part sp ts hts h0 s hp (.fin r)
    rw [e]
    have hno : ∀ t ∈ ts, ¬ Fl.le (.fin r) (recallBy b (above t) m) = true := by
      intro t _
      rw [recallBy, (wrong_nil m hd).2, share, if_pos ht, zero_div]
      simpa [Fl.le] using hr
    rcases hb with ⟨-, rfl⟩ | ⟨⟨t, ht', a⟩, -⟩ | ⟨-, ⟨t, ht', a, -⟩, -⟩
    · rfl
    · exact absurd a (hno t ht')
    · exact absurd a (hno t ht')

/-- A ground truth which is not found: the value by default is 1. -/
example : let img : Image := ⟨[⟨⟨0, 0, 2, 2⟩, 1⟩], [], some 2⟩
    allItems exParams [img] = .ok [⟨1, .fin 0, some 2⟩] ∧ 0 < truthWeight true exParams [img] ∧ img.detections = [] ∧
    value (fun _ _ => []) (.precisionAtRecall (.float (.fin (1 / 2)))) none none (only [] true)
      (.bundle [⟨1, .fin 0, some 2⟩]) = .ok (.scalar (.fin 1)) := by
  have h1 : allItems exParams [⟨[⟨⟨0, 0, 2, 2⟩, 1⟩], [], some 2⟩] = .ok [⟨1, .fin 0, some 2⟩] := by decide +kernel
  have h2 : 0 < truthWeight true exParams [⟨[⟨⟨0, 0, 2, 2⟩, 1⟩], [], some 2⟩] := by
    norm_num [truthWeight, imageWeight, exParams, params, keptTruths, Within, Box.area, Fl.le]
  refine ⟨h1, h2, rfl, ?_⟩
  refine (C140_finds_nothing exParams _ _ h1 true ?_ h2 (by simp) _ _ _ (.refl _)).1 none (by simp) _ (by norm_num)
  intro img hi
  simp only [List.mem_singleton] at hi
  subst hi
  norm_num [imageWeight, exParams, params]

end Detection
end TFMA
