import Verif.Model.Aggregation
import Verif.Lemmas.DictCombine
import Mathlib.Algebra.BigOperators.Group.List.Basic
import Mathlib.Algebra.BigOperators.Ring.List
import Mathlib.Algebra.Order.BigOperators.Group.List
import Mathlib.Algebra.Group.Pi.Basic
import Mathlib.Tactic.Linarith
import Mathlib.Tactic.Ring
import Mathlib.Tactic.FieldSimp

/-!
# C25, C26: macro averages
-/

namespace TFMA
namespace Aggregation

open MetricKeys Beam

/-! ### Specification -/

/-- Weighted mean of `val`, NaN when the total weight is zero. -/
def weightedMean {T : Type} (xs : List T) (weight val : T → ℚ) : Fl :=
  if (xs.map weight).sum = 0 then .nan
  else .fin ((xs.map fun x => weight x * val x).sum / (xs.map weight).sum)

/-- The metric of a sub key is found with value `v`, under its name or, failing that, under its private name. -/
def HasValue (metrics : Metrics) (name model output : String) (ew : Bool) (sk : Option SubKey) (v : Fl) : Prop :=
  Dict.get? metrics ⟨name, model, output, sk, none, some ew, false⟩ = some (some v) ∨
    (Dict.get? metrics ⟨name, model, output, sk, none, some ew, false⟩ = none ∧
      Dict.get? metrics ⟨"_" ++ name, model, output, sk, none, some ew, false⟩ = some (some v))

/-- The class a sub key stands for: its class id, or the rank k. -/
def classOf : Option SubKey → Option ℤ
  | some ⟨some c, _, _⟩ => some c
  | some ⟨none, k, _⟩ => k
  | none => none

/-- Documented weight: 1 without class weights, otherwise the listed weight, 0.0 if not listed. -/
def documentedWeight (cw : Dict ℤ ℚ) (sk : Option SubKey) : ℚ :=
  if cw = [] then 1 else match classOf sk with
    | none => 0
    | some c => (Dict.get? cw c).getD 0

/-! ### The loop -/

private theorem loop_fin {T : Type} (weight : T → Except Err ℚ) (val : T → Except Err Fl) (w v : T → ℚ)
    (xs : List T) (hw : ∀ x ∈ xs, weight x = .ok (w x)) (hv : ∀ x ∈ xs, val x = .ok (.fin (v x))) (q r : ℚ) :
    averageLoop weight val ⟨.fin q, r⟩ xs =
      .ok ⟨.fin (q + (xs.map fun x => w x * v x).sum), r + (xs.map w).sum⟩ := by
  induction xs generalizing q r with
  | nil => simp [averageLoop]
  | cons x xs ih =>
    simp only [averageLoop]
    rw [hw x (by simp), hv x (by simp)]
    simp only [bind, Except.bind, Totals.add, Fl.mul, Fl.add]
    rw [ih (fun y hy => hw y (by simp [hy])) (fun y hy => hv y (by simp [hy]))]
    simp only [List.map_cons, List.sum_cons]
    congr 2
    · congr 1; ring
    · ring

private theorem loop_nan {T : Type} (weight : T → Except Err ℚ) (val : T → Except Err Fl) (w : T → ℚ) (v : T → Fl)
    (xs : List T) (hw : ∀ x ∈ xs, weight x = .ok (w x)) (hv : ∀ x ∈ xs, val x = .ok (v x)) (t : Totals)
    (h : t.value = .nan ∨ ∃ x ∈ xs, v x = .nan) :
    ∃ t', averageLoop weight val t xs = .ok t' ∧ t'.value = .nan := by
  induction xs generalizing t with
  | nil =>
    rcases h with h | ⟨x, hx, -⟩
    · exact ⟨t, rfl, h⟩
    · cases hx
  | cons x xs ih =>
    simp only [averageLoop]
    rw [hw x (by simp), hv x (by simp)]
    simp only [bind, Except.bind]
    apply ih (fun y hy => hw y (by simp [hy])) (fun y hy => hv y (by simp [hy]))
    rcases h with h | ⟨y, hy, hn⟩
    · left; simp [Totals.add, h, Fl.add]
    · rcases List.mem_cons.1 hy with rfl | hy
      · left
        simp only [Totals.add, hn]
        cases t.value <;> rfl
      · right; exact ⟨y, hy, hn⟩

theorem average_fin {T : Type} (weight : T → Except Err ℚ) (val : T → Except Err Fl) (w v : T → ℚ)
    (xs : List T) (hw : ∀ x ∈ xs, weight x = .ok (w x)) (hv : ∀ x ∈ xs, val x = .ok (.fin (v x))) :
    (do let t ← averageLoop weight val ⟨.fin 0, 0⟩ xs; return t.average : Except Err Fl) =
      .ok (weightedMean xs w v) := by
  rw [loop_fin weight val w v xs hw hv]
  simp only [bind, Except.bind, pure, Except.pure, zero_add, Totals.average, weightedMean]
  split
  · rfl
  · rename_i h
    simp [Fl.div, h]

private theorem average_nan {T : Type} (weight : T → Except Err ℚ) (val : T → Except Err Fl) (w : T → ℚ) (v : T → Fl)
    (xs : List T) (hw : ∀ x ∈ xs, weight x = .ok (w x)) (hv : ∀ x ∈ xs, val x = .ok (v x))
    (h : ∃ x ∈ xs, v x = .nan) :
    (do let t ← averageLoop weight val ⟨.fin 0, 0⟩ xs; return t.average : Except Err Fl) = .ok .nan := by
  obtain ⟨t, ht, hn⟩ := loop_nan weight val w v xs hw hv ⟨.fin 0, 0⟩ (Or.inr h)
  rw [ht]
  simp only [bind, Except.bind, pure, Except.pure, Totals.average, hn]
  split <;> rfl

theorem value_child {metrics : Metrics} {name model output : String} {ew : Bool} {sk : Option SubKey} {v : Fl}
    (h : HasValue metrics name model output ew sk v) :
    value metrics (childKey metrics name model output sk ew) = .ok v := by
  unfold childKey
  rcases h with h | ⟨h1, h2⟩
  · simp only
    rw [if_pos (by simp [Dict.has, h])]
    simp [value, h]
  · simp only
    rw [if_neg (by simp [Dict.has, h1])]
    simp [value, h2]

private theorem offset_eq (sk : Option SubKey) : offset sk = classOf sk := by
  rcases sk with _ | ⟨c, k, t⟩
  · rfl
  · cases c <;> rfl

private theorem isEmpty_iff (cw : Dict ℤ ℚ) : noWeights (some cw) = true ↔ cw = [] := by
  cases cw <;> simp [noWeights]

private theorem macroWeight_eq (cw : Dict ℤ ℚ) (sk : Option SubKey) :
    macroWeight (some cw) sk = .ok (documentedWeight cw sk) := by
  unfold macroWeight documentedWeight
  rw [offset_eq]
  by_cases h : cw = []
  · subst h
    cases classOf sk <;> simp [noWeights]
  · have : ¬ noWeights (some cw) = true := by rwa [isEmpty_iff]
    rw [if_neg h]
    cases classOf sk with
    | none => simp [this]
    | some c => simp only [this]; cases Dict.get? cw c <;> rfl

/-! ### C25 -/

/-- C25: the macro average is the weighted mean of the per class values with the documented class weights (the
plain mean without class weights), NaN exactly when the total weight is zero. -/
theorem C25_macro (metrics : Metrics) (name model output : String) (ew : Bool) (subKeys : List (Option SubKey))
    (cw : Dict ℤ ℚ) (v : Option SubKey → ℚ)
    (hv : ∀ sk ∈ subKeys, HasValue metrics name model output ew sk (.fin (v sk))) :
    macroAverage name model output subKeys (some cw) ew metrics =
      .ok (weightedMean subKeys (documentedWeight cw) v) :=
  average_fin _ _ _ _ subKeys (fun sk _ => macroWeight_eq cw sk) fun sk hs => value_child (hv sk hs)

/-- C25: without class weights this is the plain mean. -/
theorem C25_plain (metrics : Metrics) (name model output : String) (ew : Bool) (subKeys : List (Option SubKey))
    (v : Option SubKey → ℚ) (hne : subKeys ≠ [])
    (hv : ∀ sk ∈ subKeys, HasValue metrics name model output ew sk (.fin (v sk))) :
    macroAverage name model output subKeys (some []) ew metrics =
      .ok (.fin ((subKeys.map v).sum / subKeys.length)) := by
  rw [C25_macro metrics name model output ew subKeys [] v hv]
  have h1 : subKeys.map (documentedWeight []) = subKeys.map fun _ => (1 : ℚ) :=
    List.map_congr_left fun x _ => by simp [documentedWeight]
  have h2 : (subKeys.map fun _ => (1 : ℚ)).sum = subKeys.length := by simp
  have h3 : (subKeys.map fun x => documentedWeight [] x * v x) = subKeys.map v := by simp [documentedWeight]
  have h4 : (subKeys.length : ℚ) ≠ 0 := by
    simpa using hne
  unfold weightedMean
  rw [h1, h2, h3, if_neg h4]

/-- A weighted mean with non-negative weights lies between all bounds of the values. -/
private theorem mean_bounds {T : Type} (xs : List T) (w v : T → ℚ) (hw : ∀ x ∈ xs, 0 ≤ w x) (lo hi q : ℚ)
    (hb : ∀ x ∈ xs, lo ≤ v x ∧ v x ≤ hi) (h : weightedMean xs w v = .fin q) : lo ≤ q ∧ q ≤ hi := by
  unfold weightedMean at h
  split at h
  · cases h
  · rename_i h0
    have hq := Fl.fin.inj h
    have hnn : 0 ≤ (xs.map w).sum := by
      apply List.sum_nonneg
      intro y hy
      obtain ⟨x, hx, rfl⟩ := List.mem_map.1 hy
      exact hw x hx
    have hpos : 0 < (xs.map w).sum := lt_of_le_of_ne hnn (Ne.symm h0)
    have h1 : lo * (xs.map w).sum ≤ (xs.map fun x => w x * v x).sum := by
      rw [← List.sum_map_mul_left]
      apply List.sum_le_sum
      intro x hx
      have := mul_le_mul_of_nonneg_left (hb x hx).1 (hw x hx)
      linarith
    have h2 : (xs.map fun x => w x * v x).sum ≤ hi * (xs.map w).sum := by
      rw [← List.sum_map_mul_left]
      apply List.sum_le_sum
      intro x hx
      have := mul_le_mul_of_nonneg_left (hb x hx).2 (hw x hx)
      linarith
    subst hq
    exact ⟨(le_div_iff₀ hpos).2 h1, (div_le_iff₀ hpos).2 h2⟩

/-- C25: for non-negative class weights a number that is reported lies between the smallest and the largest per
class value. -/
theorem C25_bounds (metrics : Metrics) (name model output : String) (ew : Bool) (subKeys : List (Option SubKey))
    (cw : Dict ℤ ℚ) (hcw : ∀ e ∈ cw, 0 ≤ e.2) (v : Option SubKey → ℚ)
    (hv : ∀ sk ∈ subKeys, HasValue metrics name model output ew sk (.fin (v sk))) (lo hi q : ℚ)
    (hb : ∀ sk ∈ subKeys, lo ≤ v sk ∧ v sk ≤ hi)
    (h : macroAverage name model output subKeys (some cw) ew metrics = .ok (.fin q)) : lo ≤ q ∧ q ≤ hi := by
  rw [C25_macro metrics name model output ew subKeys cw v hv] at h
  refine mean_bounds subKeys (documentedWeight cw) v ?_ lo hi q hb (Except.ok.inj h)
  intro sk _
  unfold documentedWeight
  split
  · exact zero_le_one
  · split
    · exact le_refl _
    · rename_i c _
      cases hg : Dict.get? cw c with
      | none => exact le_refl _
      | some w => exact hcw _ (Dict.mem_of_get? hg)

/-- C25: a NaN of a single class makes the average NaN, even if the weight of that class is zero. -/
theorem C25_nan_class (metrics : Metrics) (name model output : String) (ew : Bool) (subKeys : List (Option SubKey))
    (cw : Dict ℤ ℚ) (v : Option SubKey → Fl)
    (hv : ∀ sk ∈ subKeys, HasValue metrics name model output ew sk (v sk)) (hn : ∃ sk ∈ subKeys, v sk = .nan) :
    macroAverage name model output subKeys (some cw) ew metrics = .ok .nan :=
  average_nan _ _ _ _ subKeys (fun sk _ => macroWeight_eq cw sk) (fun sk hs => value_child (hv sk hs)) hn

/-- C25: the declared default `class_weights=None` does not work: the first sub key with a class id or rank raises. -/
theorem C25_none_raises (metrics : Metrics) (name model output : String) (ew : Bool) (sk : Option SubKey)
    (rest : List (Option SubKey)) (h : classOf sk ≠ none) :
    macroAverage name model output (sk :: rest) none ew metrics = .error .typeError := by
  have : macroWeight none sk = .error .typeError := by
    unfold macroWeight
    rw [offset_eq]
    cases hc : classOf sk with
    | none => exact absurd hc h
    | some c => rfl
  simp only [macroAverage, averageLoop, this]
  rfl

/-- C25, averages over outputs: the weighted mean of the values of the outputs. -/
theorem C25_output (metrics : Metrics) (name model : String) (sk : Option SubKey) (ew : Bool)
    (outputWeights : Dict String ℚ) (v : String → ℚ)
    (hv : ∀ ow ∈ outputWeights,
      Dict.get? metrics ⟨name, model, ow.1, sk, none, some ew, false⟩ = some (some (.fin (v ow.1)))) :
    outputAverage name model sk outputWeights ew metrics =
      .ok (weightedMean outputWeights Prod.snd fun ow => v ow.1) := by
  refine average_fin _ _ _ _ outputWeights (fun ow _ => rfl) fun ow ho => ?_
  simp [value, hv ow ho]

/-- Two classes with weights 1 and 3, one of them only under its private name. -/
example :
    macroAverage "auc" "" "" [some ⟨some 0, none, none⟩, some ⟨some 1, none, none⟩] (some [(0, 1), (1, 3)]) false
      [(⟨"auc", "", "", some ⟨some 0, none, none⟩, none, some false, false⟩, some (.fin (1/2))),
       (⟨"_auc", "", "", some ⟨some 1, none, none⟩, none, some false, false⟩, some (.fin (1/4)))] =
      .ok (.fin (5/16)) := by
  decide +kernel

example : HasValue [(⟨"auc", "", "", some ⟨some 0, none, none⟩, none, some false, false⟩, some (.fin (1/2))),
       (⟨"_auc", "", "", some ⟨some 1, none, none⟩, none, some false, false⟩, some (.fin (1/4)))] "auc" "" "" false
       (some ⟨some 1, none, none⟩) (.fin (1/4)) := by
  right; decide +kernel

/-! ### C26 -/

/-- Documented weight of a class of the weighted macro average: its share of the labels times its class weight (1
without class weights, 0.0 if not listed). -/
def documentedShare (share : ℤ → ℚ) (cw : Dict ℤ ℚ) (sk : Option SubKey) : ℚ :=
  match classOf sk with
  | none => 0
  | some c => share c * documentedWeight cw sk

/-- C26 for sub keys with a class id for which the labels were counted and that is listed in the class weights (if
there are any): the weighted mean with the documented weights.  Missing: classes that are not listed, see
`C26_unlisted_keeps_weight`, and sub keys with a rank, see `C26_top_k_unweighted`. -/
theorem C26_weighted_partial (metrics : Metrics) (name model output : String) (ew : Bool) (ids : List ℤ)
    (fromLabels cw : Dict ℤ ℚ) (share : ℤ → ℚ) (v : ℤ → ℚ)
    (hs : ∀ c ∈ ids, Dict.get? fromLabels c = some (share c))
    (hl : cw = [] ∨ ∀ c ∈ ids, c ∈ Dict.keys cw)
    (hv : ∀ c ∈ ids, HasValue metrics name model output ew (some ⟨some c, none, none⟩) (.fin (v c))) :
    weightedMacroAverage name model output (ids.map fun c => some ⟨some c, none, none⟩) fromLabels (some cw) ew
        metrics =
      .ok (weightedMean ids (fun c => documentedShare share cw (some ⟨some c, none, none⟩)) v) := by
  have hw : ∀ sk ∈ (ids.map fun c => some (SubKey.mk (some c) none none)),
      weightedWeight fromLabels (some cw) sk = .ok (documentedShare share cw sk) := by
    intro sk hsk
    obtain ⟨c, hc, rfl⟩ := List.mem_map.1 hsk
    have h1 := hs c hc
    have hne : fromLabels ≠ [] := by rintro rfl; cases h1
    have hne' : fromLabels.isEmpty = false := by cases fromLabels <;> simp_all
    have hhas : Dict.has fromLabels c = true := by simp [Dict.has, h1]
    simp only [weightedWeight, offset, Option.bind_some, hne', hhas, Bool.not_false, Bool.and_self, if_true, h1,
      documentedShare, classOf, documentedWeight]
    rcases hl with rfl | hl
    · simp [bind, Except.bind, pure, Except.pure]
    · obtain ⟨w, hcw⟩ := (Dict.mem_keys_iff cw c).1 (hl c hc)
      have hce : cw ≠ [] := by rintro rfl; cases hcw
      have hce' : cw.isEmpty = false := by cases cw <;> simp_all
      have hch : Dict.has cw c = true := by simp [Dict.has, hcw]
      simp [hce', hch, hcw, hce, bind, Except.bind, pure, Except.pure]
  unfold weightedMacroAverage
  have := average_fin (weightedWeight fromLabels (some cw))
    (fun sk => value metrics (childKey metrics name model output sk ew)) (documentedShare share cw)
    (fun sk => v ((classOf sk).getD 0)) (ids.map fun c => some (SubKey.mk (some c) none none)) hw (by
      intro sk hsk
      obtain ⟨c, hc, rfl⟩ := List.mem_map.1 hsk
      exact value_child (hv c hc))
  rw [this]
  simp only [weightedMean, List.map_map]
  rfl

/-- C26 (negation): a class that is not listed in the class weights keeps its label weight instead of 0.0. -/
theorem C26_unlisted_keeps_weight :
    let metrics : Metrics :=
      [(⟨"auc", "", "", some ⟨some 0, none, none⟩, none, some false, false⟩, some (.fin 1)),
       (⟨"auc", "", "", some ⟨some 1, none, none⟩, none, some false, false⟩, some (.fin 0))]
    let ids : List ℤ := [0, 1]
    weightedMacroAverage "auc" "" "" (ids.map fun c => some ⟨some c, none, none⟩) [(0, 1/2), (1, 1/2)]
        (some [(0, 1)]) false metrics = .ok (.fin (1/2)) ∧
      weightedMean ids (fun c => documentedShare (fun _ => 1/2) [(0, 1)] (some ⟨some c, none, none⟩))
        (fun c => if c = 0 then 1 else 0) = .fin 1 := by
  decide +kernel

/-- C26 (negation): for the ranks 1..k of a top k aggregation the labels have no influence; the result is the plain
mean. -/
theorem C26_top_k_unweighted (metrics : Metrics) (name model output : String) (ew : Bool) (ks : List ℤ)
    (fromLabels : Dict ℤ ℚ) (v : ℤ → ℚ)
    (hv : ∀ k ∈ ks, HasValue metrics name model output ew (some ⟨none, some k, none⟩) (.fin (v k))) :
    weightedMacroAverage name model output (ks.map fun k => some ⟨none, some k, none⟩) fromLabels (some []) ew
        metrics = .ok (weightedMean ks (fun _ => 1) v) := by
  have hw : ∀ sk ∈ (ks.map fun k => some (SubKey.mk none (some k) none)),
      weightedWeight fromLabels (some []) sk = .ok 1 := by
    intro sk hsk
    obtain ⟨k, hk, rfl⟩ := List.mem_map.1 hsk
    simp [weightedWeight, offset, noWeights, bind, Except.bind, pure, Except.pure]
  unfold weightedMacroAverage
  have := average_fin (weightedWeight fromLabels (some []))
    (fun sk => value metrics (childKey metrics name model output sk ew)) (fun _ => 1)
    (fun sk => v ((classOf sk).getD 0)) (ks.map fun k => some (SubKey.mk none (some k) none)) hw (by
      intro sk hsk
      obtain ⟨c, hc, rfl⟩ := List.mem_map.1 hsk
      exact value_child (hv c hc))
  rw [this]
  simp only [weightedMean, List.map_map]
  rfl

/-- C26 (negation): the weighted macro average is reported under the key of the macro average, so a configuration
with both has one key for two values. -/
theorem C26_same_key (name model output : String) (sk : Option SubKey) (ew : Bool) :
    weightedMacroKey name model output sk ew = macroKey name model output sk ew ∧
      (weightedMacroKey name model output sk ew).aggregationType ≠ some ⟨none, none, some true⟩ := by
  refine ⟨rfl, ?_⟩
  simp [weightedMacroKey]

/-! ### Label weights -/

/-- How much of an example belongs to a class: for a single label whether it is the class, otherwise the entry of the
label vector. -/
def belongs (l : List ℚ) (c : ℤ) : ℚ :=
  match l with
  | [x] => if x = (c : ℚ) then 1 else 0
  | l => l.getD c.toNat 0

/-- Label weight of a class. -/
def labelWeight (es : List LabelExample) (c : ℤ) : ℚ :=
  (es.map fun e => match e.label with
    | none => 0
    | some l => belongs l c * e.weight).sum

/-- The example has a label for all the classes (or none at all). -/
def Covers (ids : List ℤ) (e : LabelExample) : Prop :=
  ∀ l, e.label = some l → l.length = 1 ∨ ∀ c ∈ ids, c < l.length

private def VW (a : WeightAcc) : ℤ → ℚ := fun c => (Dict.get? a c).getD 0

private def InvW (ids : List ℤ) (a : WeightAcc) : Prop := Dict.keys a = ids

private noncomputable def fW (ids : List ℤ) (e : LabelExample) : Option (ℤ → ℚ) :=
  open Classical in
  if Covers ids e then some fun c => if c ∈ ids then (match e.label with
    | none => 0
    | some l => belongs l c * e.weight) else 0
  else none

private theorem labelValue_ok (l : List ℚ) (c : ℤ) (hc : 0 ≤ c) :
    (labelValue l c).toOption = if l.length = 1 ∨ c < l.length then some (belongs l c) else none := by
  match l with
  | [x] => simp [labelValue, belongs, Except.toOption]
  | [] =>
    have : ¬ c < 0 := by omega
    simp only [labelValue, List.length_nil]
    rw [if_pos (by simpa using hc), if_neg (by simp; omega)]
    rfl
  | x :: y :: l =>
    simp only [labelValue, belongs]
    have hlen : ¬ (x :: y :: l).length = 1 := by simp
    by_cases h : ((x :: y :: l).length : ℤ) ≤ c
    · rw [if_pos h, if_neg (by rintro (h' | h') <;> omega)]
      rfl
    · rw [if_neg h, if_pos (Or.inr (by omega))]
      unfold MultiClass.pyGet
      have hn : ¬ c < 0 := by omega
      simp only [hn, if_false]
      have hlt : c.toNat < (x :: y :: l).length := by omega
      rw [List.getElem?_eq_getElem hlt]
      simp only [Except.toOption, List.getD_eq_getElem?_getD, List.getElem?_eq_getElem hlt, Option.getD_some]

private theorem keys_set_mem (a : WeightAcc) (c : ℤ) (x : ℚ) (h : c ∈ Dict.keys a) :
    Dict.keys (Dict.set a c x) = Dict.keys a := by
  rw [Dict.keys_set]
  simp [h]

private theorem class_loop (l : List ℚ) (w : ℚ) (ids : List ℤ) (a : WeightAcc) (hn : ids.Nodup)
    (hsub : ∀ c ∈ ids, c ∈ Dict.keys a) (hpos : ∀ c ∈ ids, 0 ≤ c) :
    (∀ c ∈ ids, l.length = 1 ∨ c < l.length) →
      ∃ b, loop (classStep l w) a ids = .ok b ∧ Dict.keys b = Dict.keys a ∧
        ∀ c, VW b c = VW a c + if c ∈ ids then belongs l c * w else 0 := by
  induction ids generalizing a with
  | nil => intro _; exact ⟨a, rfl, rfl, fun c => by simp⟩
  | cons i ids ih =>
    intro h
    obtain ⟨x, hx⟩ := (Dict.mem_keys_iff a i).1 (hsub i (by simp))
    have hlv := labelValue_ok l i (hpos i (by simp))
    rw [if_pos (h i (by simp))] at hlv
    have hlv' : labelValue l i = .ok (belongs l i) := by
      cases hq : labelValue l i with
      | error e => rw [hq] at hlv; cases hlv
      | ok y => rw [hq] at hlv; exact congrArg _ (Option.some.inj hlv)
    have hstep : classStep l w a i = .ok (Dict.set a i (x + belongs l i * w)) := by
      simp only [classStep, hlv', hx]
      rfl
    have hk := keys_set_mem a i (x + belongs l i * w) (hsub i (by simp))
    obtain ⟨b, hb, hkb, hvb⟩ := ih (Dict.set a i (x + belongs l i * w)) (List.nodup_cons.1 hn).2
      (fun c hc => by rw [hk]; exact hsub c (by simp [hc])) (fun c hc => hpos c (by simp [hc]))
      (fun c hc => h c (by simp [hc]))
    refine ⟨b, ?_, hkb.trans hk, ?_⟩
    · simp only [loop, hstep]; exact hb
    · intro c
      rw [hvb c]
      simp only [VW, Dict.get?_set]
      by_cases hc : i = c
      · subst hc
        have : i ∉ ids := (List.nodup_cons.1 hn).1
        simp [this, hx]
      · have : ¬ c = i := fun h => hc h.symm
        simp [hc, this]

private theorem class_loop_err (l : List ℚ) (w : ℚ) (ids : List ℤ) (a : WeightAcc) (hpos : ∀ c ∈ ids, 0 ≤ c)
    (h : ¬ ∀ c ∈ ids, l.length = 1 ∨ c < l.length) : ∃ e, loop (classStep l w) a ids = .error e := by
  induction ids generalizing a with
  | nil => exact absurd (fun c hc => by cases hc) h
  | cons i ids ih =>
    simp only [loop]
    by_cases hi : l.length = 1 ∨ i < l.length
    · cases hs : classStep l w a i with
      | error e => exact ⟨e, rfl⟩
      | ok b =>
        apply ih b (fun c hc => hpos c (by simp [hc]))
        intro h'
        apply h
        intro c hc
        rcases List.mem_cons.1 hc with rfl | hc
        · exact hi
        · exact h' c hc
    · have hlv := labelValue_ok l i (hpos i (by simp))
      rw [if_neg hi] at hlv
      cases hq : labelValue l i with
      | ok y => rw [hq] at hlv; cases hlv
      | error e =>
        refine ⟨e, ?_⟩
        simp only [classStep, hq]
        rfl

private theorem covers_iff (ids : List ℤ) (e : LabelExample) (l : List ℚ) (h : e.label = some l) :
    Covers ids e ↔ ∀ c ∈ ids, l.length = 1 ∨ c < l.length := by
  constructor
  · intro hc c hm
    rcases hc l h with h1 | h1
    · exact Or.inl h1
    · exact Or.inr (h1 c hm)
  · intro hc l' hl'
    rw [h] at hl'; cases hl'
    by_cases h1 : l.length = 1
    · exact Or.inl h1
    · exact Or.inr fun c hm => (hc c hm).resolve_left h1

private theorem labelStep_eq (ids : List ℤ) (hn : ids.Nodup) (hpos : ∀ c ∈ ids, 0 ≤ c) (a : WeightAcc)
    (e : LabelExample) (ha : InvW ids a) :
    (labelStep ids a e).toOption.map VW = (fW ids e).map (VW a + ·) ∧
      ∀ b, labelStep ids a e = .ok b → InvW ids b := by
  classical
  unfold labelStep fW
  cases hl : e.label with
  | none =>
    have hc : Covers ids e := fun l h => by rw [hl] at h; cases h
    rw [if_pos hc]
    refine ⟨?_, fun b hb => by cases hb; exact ha⟩
    simp only [Except.toOption, Option.map_some, Option.some.injEq]
    funext c
    simp
  | some l =>
    by_cases hc : Covers ids e
    · rw [if_pos hc]
      obtain ⟨b, hb, hk, hv⟩ := class_loop l e.weight ids a hn (fun c hc => by rw [ha]; exact hc) hpos
        ((covers_iff ids e l hl).1 hc)
      simp only [hb, Except.toOption, Option.map_some, Option.some.injEq]
      refine ⟨?_, fun b' hb' => by cases hb'; exact hk.trans ha⟩
      funext c
      rw [hv c]; rfl
    · rw [if_neg hc]
      obtain ⟨er, he⟩ := class_loop_err l e.weight ids a hpos (fun h => hc ((covers_iff ids e l hl).2 h))
      simp only [he]
      exact ⟨rfl, fun b hb => by cases hb⟩

private theorem merge_loop (b a : WeightAcc) (hb : (Dict.keys b).Nodup) (hsub : ∀ c ∈ Dict.keys b, c ∈ Dict.keys a) :
    ∃ d, loop weightMergeStep a b = .ok d ∧ Dict.keys d = Dict.keys a ∧ ∀ c, VW d c = VW a c + VW b c := by
  induction b generalizing a with
  | nil => exact ⟨a, rfl, rfl, fun c => by simp [VW]⟩
  | cons e b ih =>
    obtain ⟨k, y⟩ := e
    simp only [Dict.keys, List.map_cons, List.nodup_cons] at hb
    obtain ⟨x, hx⟩ := (Dict.mem_keys_iff a k).1 (hsub k (by simp [Dict.keys]))
    have hk := keys_set_mem a k (x + y) (hsub k (by simp [Dict.keys]))
    obtain ⟨d, hd, hkd, hvd⟩ := ih (Dict.set a k (x + y)) hb.2
      (fun c hc => by rw [hk]; exact hsub c (by simp only [Dict.keys, List.map_cons, List.mem_cons]; right; exact hc))
    refine ⟨d, ?_, hkd.trans hk, ?_⟩
    · simp only [loop, weightMergeStep, hx]; exact hd
    · intro c
      rw [hvd c]
      simp only [VW, Dict.get?_set, Dict.get?_cons]
      by_cases hc : k = c
      · subst hc
        have hn : Dict.get? b k = none := by rw [Dict.get?_eq_none_iff]; exact hb.1
        simp [hx, hn]
      · simp [hc]

private theorem create_eq (ids : List ℤ) (hn : ids.Nodup) :
    ids.foldl (fun (d : WeightAcc) i => Dict.set d i 0) [] = ids.map fun i => (i, 0) := by
  have : ∀ (ids : List ℤ) (d : WeightAcc), (∀ i ∈ ids, i ∉ Dict.keys d) → ids.Nodup →
      ids.foldl (fun (d : WeightAcc) i => Dict.set d i 0) d = d ++ ids.map fun i => (i, 0) := by
    intro ids
    induction ids with
    | nil => intro d _ _; simp
    | cons i ids ih =>
      intro d hd hn
      have hs : Dict.set d i 0 = d ++ [(i, 0)] := by
        have := hd i (by simp)
        clear ih hd hn
        induction d with
        | nil => rfl
        | cons e d ih =>
          simp only [Dict.keys, List.map_cons, List.mem_cons, not_or] at this
          simp only [Dict.set]
          rw [if_neg (fun h => this.1 h.symm), ih (by simpa [Dict.keys] using this.2)]
          rfl
      rw [List.foldl_cons, hs, ih]
      · simp
      · intro j hj
        simp only [Dict.keys, List.map_append, List.map_cons, List.map_nil, List.mem_append, List.mem_singleton,
          not_or]
        refine ⟨hd j (by simp [hj]), ?_⟩
        rintro rfl
        exact (List.nodup_cons.1 hn).1 hj
      · exact (List.nodup_cons.1 hn).2
  have h := this ids [] (by simp [Dict.keys]) hn
  simpa using h

private theorem weights_run (ids : List ℤ) (hn : ids.Nodup) (hpos : ∀ c ∈ ids, 0 ≤ c)
    (data : List (Except Err (List LabelExample))) (s : Sched _) (p : s.inputs.Perm data) :
    ((classWeightsCombiner ids).run s).toOption.map VW = (allFlat data).bind (total (· + ·) 0 (fW ids)) ∧
      ∀ b, (classWeightsCombiner ids).run s = .ok b → InvW ids b := by
  apply flat_run_inv (Inv := InvW ids) add_assoc add_comm zero_add (fun _ _ => rfl) (fun _ => rfl) (p := p)
  · simp only [classWeightsCombiner, create_eq ids hn]
    funext c
    simp only [VW, Pi.zero_apply]
    cases h : Dict.get? (ids.map fun i => (i, (0 : ℚ))) c with
    | none => rfl
    | some x =>
      obtain ⟨i, _, hi⟩ := List.mem_map.1 (Dict.mem_of_get? h)
      cases hi; rfl
  · simp only [classWeightsCombiner, create_eq ids hn, InvW, Dict.keys, List.map_map]
    exact List.map_id ids
  · intro a t ha; exact (labelStep_eq ids hn hpos a t ha).1
  · intro a t b ha hb; exact (labelStep_eq ids hn hpos a t ha).2 b hb
  · intro a b ha hb
    obtain ⟨d, hd, hk, hv⟩ := merge_loop b a (by rw [hb]; exact hn) (fun c hc => by rw [ha, ← hb]; exact hc)
    refine ⟨d, hd, hk.trans ha, ?_⟩
    funext c
    exact hv c

private theorem ext_W (ids : List ℤ) (hn : ids.Nodup) (a b : WeightAcc) (ha : InvW ids a) (hb : InvW ids b)
    (h : VW a = VW b) : a = b := by
  have key : ∀ (d : WeightAcc), InvW ids d → d = ids.map fun c => (c, VW d c) := by
    intro d hd
    have hwf : Dict.WF d := by unfold Dict.WF; rw [hd]; exact hn
    subst hd
    unfold Dict.keys
    rw [List.map_map]
    conv_lhs => rw [← List.map_id d]
    apply List.map_congr_left
    rintro ⟨c, x⟩ he
    simp only [id, Function.comp_apply, VW, Dict.get?_of_mem hwf he, Option.getD_some]
  rw [key a ha, key b hb, h]

/-- The label weights do not depend on the schedule. -/
theorem C26_weights_schedule (ids : List ℤ) (hn : ids.Nodup) (hpos : ∀ c ∈ ids, 0 ≤ c)
    (data : List (Except Err (List LabelExample))) (s : Sched _) (p : s.inputs.Perm data) :
    ((classWeightsCombiner ids).run s).toOption = ((classWeightsCombiner ids).run (.bundle data)).toOption := by
  have h1 := weights_run ids hn hpos data s p
  have h2 := weights_run ids hn hpos data (.bundle data) (List.Perm.refl _)
  have e := h1.1.trans h2.1.symm
  cases hr : (classWeightsCombiner ids).run s with
  | error x =>
    cases hb : (classWeightsCombiner ids).run (.bundle data) with
    | error y => rfl
    | ok b => rw [hr, hb] at e; cases e
  | ok a =>
    cases hb : (classWeightsCombiner ids).run (.bundle data) with
    | error y => rw [hr, hb] at e; cases e
    | ok b =>
      rw [hr, hb] at e
      rw [ext_W ids hn a b (h1.2 a hr) (h2.2 b hb) (Option.some.inj e)]

private theorem total_fW (ids : List ℤ) (es : List LabelExample) (h : ∀ e ∈ es, Covers ids e) :
    total (· + ·) 0 (fW ids) es = some fun c => if c ∈ ids then labelWeight es c else 0 := by
  induction es with
  | nil =>
    show some _ = some _
    congr 1
    funext c
    simp [labelWeight]
  | cons e es ih =>
    rw [total_cons, ih fun e he => h e (by simp [he])]
    have : fW ids e = some fun c => if c ∈ ids then (match e.label with
        | none => 0
        | some l => belongs l c * e.weight) else 0 := by
      unfold fW; rw [if_pos (h e (by simp))]
    rw [this]
    simp only [liftOp, Option.some.injEq]
    funext c
    simp only [Pi.add_apply, labelWeight, List.map_cons, List.sum_cons]
    split <;> simp

/-- C26: the share of a class is its label weight divided by the label weight of all the classes (0.0 if that is
zero), in every execution. -/
theorem C26_label_share (ids : List ℤ) (hn : ids.Nodup) (hpos : ∀ c ∈ ids, 0 ≤ c)
    (data : List (Except Err (List LabelExample))) (es : List LabelExample) (hd : allFlat data = some es)
    (hc : ∀ e ∈ es, Covers ids e) (s : Sched _) (p : s.inputs.Perm data) :
    ((classWeightsCombiner ids).run s).toOption.map classWeightsExtract =
      some (ids.map fun c => (c,
        if (ids.map (labelWeight es)).sum = 0 then 0 else labelWeight es c / (ids.map (labelWeight es)).sum)) := by
  have h := weights_run ids hn hpos data s p
  rw [hd] at h
  simp only [Option.bind_some, total_fW ids es hc] at h
  cases hr : (classWeightsCombiner ids).run s with
  | error x => rw [hr] at h; cases h.1
  | ok a =>
    have hv := h.1
    rw [hr] at hv
    have hv' : VW a = fun c => if c ∈ ids then labelWeight es c else 0 := Option.some.inj hv
    have hi := h.2 a hr
    have ha : a = ids.map fun c => (c, labelWeight es c) := by
      apply ext_W ids hn a _ hi
      · simp only [InvW, Dict.keys, List.map_map]; exact List.map_id ids
      · rw [hv']
        funext c
        simp only [VW]
        by_cases hm : c ∈ ids
        · have hwf : Dict.WF (ids.map fun c => (c, labelWeight es c)) := by
            simp only [Dict.WF, Dict.keys, List.map_map]
            have : (Prod.fst ∘ fun c => (c, labelWeight es c)) = id := rfl
            rw [this, List.map_id]; exact hn
          rw [if_pos hm, Dict.get?_of_mem hwf (List.mem_map.2 ⟨c, hm, rfl⟩)]
          rfl
        · rw [if_neg hm]
          cases hg : Dict.get? (ids.map fun c => (c, labelWeight es c)) c with
          | none => rfl
          | some x =>
            obtain ⟨i, hi', he⟩ := List.mem_map.1 (Dict.mem_of_get? hg)
            cases he
            exact absurd hi' hm
    simp only [Except.toOption, Option.map_some, Option.some.injEq, ha, classWeightsExtract, List.map_map]
    rfl

/-- Three classes, one sparse label, one dense label and one missing label. -/
example :
    ((classWeightsCombiner [0, 1, 2]).run (.merge (.cons (.bundle [.ok [⟨some [1], 2⟩]])
      (.one (.bundle [.ok [⟨some [1/2, 1/2, 0], 4⟩, ⟨none, 7⟩]]))))).toOption.map classWeightsExtract =
      some [(0, 1/3), (1, 2/3), (2, 0)] := by
  decide +kernel

example : Covers [0, 1, 2] ⟨some [1/2, 1/2, 0], 4⟩ := by
  intro l h; cases h; right; decide

end Aggregation
end TFMA
