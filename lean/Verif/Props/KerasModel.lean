import Verif.Lemmas.KerasModel
import Verif.Py.DictLemmas
import Mathlib.Algebra.Order.Ring.Rat

/-!
# C116: the metrics saved with a Keras model
-/

namespace TFMA
namespace KerasModel

open MetricKeys Beam

/-- The name is one Keras gives to a metric of the output: `<output>_<metric>`. -/
def Starts (output name : String) : Prop := ∃ rest, name = output ++ "_" ++ rest

private theorem starts_iff (o name : String) : Starts o name ↔ (tag o).isPrefixOf name.toList = true := by
  rw [List.isPrefixOf_iff_prefix]
  constructor
  · rintro ⟨rest, rfl⟩
    exact ⟨rest.toList, by simp [tag, String.toList_append]⟩
  · rintro ⟨t, ht⟩
    refine ⟨String.ofList t, ?_⟩
    rw [← String.toList_inj, String.toList_append, String.toList_append, String.toList_ofList, ← ht]
    simp [tag]

private theorem strip_length (p : List Char) : ∀ (n : ℕ) (l : List Char), (strip p n l).length ≤ l.length
  | 0, _ => le_refl _
  | n + 1, l => by
    simp only [strip]
    split_ifs
    · exact le_trans (strip_length p n _) (by simp)
    · exact le_refl _

private theorem strip_no (p : List Char) (n : ℕ) (l : List Char) (h : ¬ p.isPrefixOf l = true) : strip p n l = l := by
  cases n <;> simp [strip, h]

private theorem strip_yes (o : String) (n : ℕ) (hn : 0 < n) (l : List Char) (h : (tag o).isPrefixOf l = true) :
    (strip (tag o) n l).length < l.length := by
  obtain ⟨n, rfl⟩ := Nat.exists_eq_succ_of_ne_zero (Nat.pos_iff_ne_zero.1 hn)
  simp only [strip, h, if_true]
  refine lt_of_le_of_lt (strip_length _ _ _) ?_
  obtain ⟨t, rfl⟩ := List.isPrefixOf_iff_prefix.1 h
  rw [List.drop_left]
  simp only [tag, List.length_append, List.length_singleton]
  omega

private theorem strip_tag (o n : String) : (strip (tag o) (o ++ "_" ++ n).toList.length (o ++ "_" ++ n).toList = n.toList) ↔ ¬ Starts o n := by
  have hl : (o ++ "_" ++ n).toList = tag o ++ n.toList := by simp [tag, String.toList_append]
  rw [hl]
  have h1 : (tag o ++ n.toList).length = (tag o ++ n.toList).length - 1 + 1 := by
    have : 0 < (tag o).length := by simp [tag]
    rw [List.length_append]; omega
  rw [h1]
  have hp : (tag o).isPrefixOf (tag o ++ n.toList) = true := List.isPrefixOf_iff_prefix.2 ⟨_, rfl⟩
  simp only [strip, hp, if_true, List.drop_left]
  rw [starts_iff]
  constructor
  · intro h hs
    have hn : 0 < n.toList.length := by
      obtain ⟨t, ht⟩ := List.isPrefixOf_iff_prefix.1 hs
      rw [← ht]; simp [tag]
    have hf : 0 < (tag o ++ n.toList).length - 1 := by
      have : 0 < (tag o).length := by simp [tag]
      rw [List.length_append]; omega
    have := strip_yes o _ hf _ hs
    rw [h] at this
    exact lt_irrefl _ this
  · intro h
    exact strip_no _ _ _ h

variable {F R W V : Type}

private theorem metricKey_fields {modelName : String} {outputs : List String} {m : Stored W V} {k : MetricKey}
    (hk : metricKey modelName outputs m = .ok k) :
    k.outputName = (outputAndName outputs m.name).1 ∧ k.name = (outputAndName outputs m.name).2 := by
  simp only [metricKey] at hk
  split at hk
  · exact absurd hk (by simp)
  · simp only [Except.ok.injEq] at hk
    subst hk
    exact ⟨rfl, rfl⟩

/-- C116: the key of the metric `n` of output `o`, which Keras calls `<o>_<n>`, names that output and that metric if and only if no
output listed before `o` fits the name as well, and `n` itself does not look like a metric of `o`. -/
theorem C116_key (modelName : String) (outputs : List String) (m : Stored W V) (o n : String) (ho : o ∈ outputs)
    (hname : m.name = o ++ "_" ++ n) (k : MetricKey) (hk : metricKey modelName outputs m = .ok k) :
    (k.outputName = o ∧ k.name = n) ↔
      (∃ before after, outputs = before ++ o :: after ∧ ∀ o' ∈ before, ¬ Starts o' m.name) ∧ ¬ Starts o n := by
  obtain ⟨h1, h2⟩ := metricKey_fields hk
  have hs : Starts o m.name := ⟨n, hname⟩
  unfold outputAndName at h1 h2
  cases hf : outputs.find? (fun o => (tag o).isPrefixOf m.name.toList) with
  | none =>
    have := List.find?_eq_none.1 hf o ho
    exact absurd ((starts_iff _ _).1 hs) (by simpa using this)
  | some o' =>
    rw [hf] at h1 h2
    simp only at h1 h2
    obtain ⟨hp, before, after, hb, hbefore⟩ := List.find?_eq_some_iff_append.1 hf
    have hbefore' : ∀ x ∈ before, ¬ Starts x m.name := by
      intro x hx h
      have := hbefore x hx
      rw [(starts_iff _ _).1 h] at this
      simp at this
    constructor
    · rintro ⟨e1, e2⟩
      rw [h1] at e1
      subst e1
      refine ⟨⟨before, after, hb, hbefore'⟩, ?_⟩
      rw [← strip_tag, ← hname, ← e2, h2, String.toList_ofList]
    · rintro ⟨⟨b, a, e, hb'⟩, hn⟩
      have heq : o' = o := by
        rw [e, List.find?_append, List.find?_eq_none.2 (by
          intro x hx
          have := hb' x hx
          rw [starts_iff] at this
          simpa using this)] at hf
        simp only [Option.none_or, List.find?_cons, (starts_iff _ _).1 hs] at hf
        exact (Option.some.inj hf).symm
      subst heq
      refine ⟨h1, ?_⟩
      rw [h2, hname, (strip_tag o' n).2 hn]
      exact String.ofList_toList

/-- C116: a metric whose name fits none of the outputs, such as the loss of a model with several outputs or any metric of a model with a
single output Keras does not prefix, keeps its name and belongs to no output. -/
theorem C116_key_overall (modelName : String) (outputs : List String) (m : Stored W V) (h : ∀ o ∈ outputs, ¬ Starts o m.name)
    (k : MetricKey) (hk : metricKey modelName outputs m = .ok k) : k.outputName = "" ∧ k.name = m.name := by
  obtain ⟨h1, h2⟩ := metricKey_fields hk
  have hf : outputs.find? (fun o => (tag o).isPrefixOf m.name.toList) = none := by
    rw [List.find?_eq_none]
    intro o ho
    have := h o ho
    rw [starts_iff] at this
    simpa using this
  unfold outputAndName at h1 h2
  rw [hf] at h1 h2
  exact ⟨h1, h2⟩

/-- C116: besides, the key names the model, the class or the `top_k` of the metric, with the class first, and says nothing about example
weights; there is no key exactly if `top_k` is below one and there is no class. -/
theorem C116_sub_key (modelName : String) (outputs : List String) (m : Stored W V) :
    (∀ k, metricKey modelName outputs m = .ok k → k.modelName = modelName ∧ k.exampleWeighted = none ∧ k.aggregationType = none ∧
      k.isDiff = false ∧ (m.classId = none → m.topK = none → k.subKey = none) ∧
      (∀ i, m.classId = some i → k.subKey = some ⟨some i, none, none⟩) ∧
      (∀ t, m.classId = none → m.topK = some t → k.subKey = some ⟨none, none, some t⟩)) ∧
    (∀ e, metricKey modelName outputs m = .error e ↔ e = .valueError ∧ m.classId = none ∧ ∃ t, m.topK = some t ∧ t < 1) := by
  unfold metricKey subKey
  rcases m with ⟨name, _ | i, _ | t, init, res⟩
  · simp
  · simp only [SubKey.new]
    by_cases ht : t < 1
    · rw [if_pos ht]
      refine ⟨fun k h => by simp [Except.map] at h, fun e => ?_⟩
      constructor
      · intro h
        simp only [Except.map, Except.error.injEq] at h
        exact ⟨h.symm, trivial, t, rfl, ht⟩
      · rintro ⟨rfl, -⟩
        rfl
    · rw [if_neg ht]
      refine ⟨fun k h => ?_, fun e => ?_⟩
      · simp only [Except.map, Except.ok.injEq] at h
        subst h
        simp
      · constructor
        · intro h; simp [Except.map] at h
        · rintro ⟨-, -, t', h1, h2⟩
          cases h1
          exact absurd h2 ht
  · simp [SubKey.new, Except.map]
  · simp [SubKey.new, Except.map]

/-- Non-vacuous: the area under the curve of the output "ctr" of a model with two outputs; the overall loss. -/
example :
    metricKey (W := ℚ) (V := ℚ) "m" ["ctr", "cvr"] ⟨"ctr_auc", none, none, 0, id⟩ =
      .ok { name := "auc", modelName := "m", outputName := "ctr", exampleWeighted := none } ∧
    metricKey (W := ℚ) (V := ℚ) "m" ["ctr", "cvr"] ⟨"loss", none, none, 0, id⟩ = .ok { name := "loss", modelName := "m", exampleWeighted := none } := by
  refine ⟨?_, ?_⟩ <;> decide +kernel

/-- C116 fails: with outputs "a" and "a_b", the metric "auc" of output "a_b" is reported as metric "b_auc" of output "a". -/
theorem C116_key_prefix_fails : ∃ (outputs : List String) (o n : String) (k : MetricKey), outputs.Nodup ∧ o ∈ outputs ∧
    metricKey (W := ℚ) (V := ℚ) "" outputs ⟨o ++ "_" ++ n, none, none, 0, id⟩ = .ok k ∧ k.outputName ≠ o ∧ k.outputName ∈ outputs :=
  ⟨["a", "a_b"], "a_b", "auc", { name := "b_auc", outputName := "a", exampleWeighted := none }, by decide, by decide, by decide +kernel,
    by decide, by decide⟩

/-- C116 fails: in a model with the single output "binary", whose metrics Keras does not prefix, "binary_accuracy" is reported as metric
"accuracy" of output "binary". -/
theorem C116_key_single_fails : ∃ (output name : String) (k : MetricKey),
    metricKey (W := ℚ) (V := ℚ) "" [output] ⟨name, none, none, 0, id⟩ = .ok k ∧ k.name ≠ name ∧ k.outputName ≠ "" :=
  ⟨"binary", "binary_accuracy", { name := "accuracy", outputName := "binary", exampleWeighted := none }, by decide +kernel, by decide,
    by decide⟩

/-! ### Values -/

variable [AddCommMonoid W]

/-- Labels, predictions and weights are passed to the model for this output: it occurs in the keys, and is not the empty name unless
that is the only one. -/
def Fed (keys : List MetricKey) (o : String) : Prop :=
  (∃ k ∈ keys, k.outputName = o) ∧ (o = "" → ∀ k ∈ keys, k.outputName = "")

/-- The metrics of the model add up contributions `f` of single examples, whatever the batch: `cols` are the rows of the batch for each
output. -/
def Additive (m : Keras F R W V) (keys : List MetricKey) (f : Stored W V → Example F R → W) : Prop :=
  (∀ s ∈ m.metrics, s.initial = 0) ∧ ∀ (batch : List (Example F R)) (cols : List (String × List R)), batch ≠ [] →
    (cols.map Prod.fst).Nodup → (∀ o, o ∈ cols.map Prod.fst ↔ Fed keys o) →
    (∀ p ∈ cols, List.Forall₂ (fun x r => x.row p.1 = .ok r) batch p.2) →
    m.update (batch.map Example.features) cols = .ok (m.metrics.map fun s => (batch.map (f s)).sum)

/-- The execution processes the data. -/
def Processes (s : Sched (Event F R)) (data : List (Example F R)) : Prop :=
  (s.inputs.filterMap fun e => match e with
    | .add x => some x
    | .compact => none).Perm data

private theorem fed_iff (keys : List MetricKey) (o : String) :
    (o ∈ namesOf keys ∧ fed (namesOf keys) o = true) ↔ Fed keys o := by
  unfold Fed fed
  rw [mem_namesOf]
  have hm : o ∈ keys.map MetricKey.outputName ↔ ∃ k ∈ keys, k.outputName = o := by simp
  rw [hm]
  refine and_congr_right fun hex => ?_
  simp only [Bool.not_eq_true', decide_eq_false_iff_not, not_and, not_lt]
  refine forall_congr' fun he => ?_
  subst he
  constructor
  · intro hl k hk
    have h1 : k.outputName ∈ namesOf keys := (mem_namesOf _ _).2 (List.mem_map_of_mem hk)
    have h2 : "" ∈ namesOf keys := (mem_namesOf _ _).2 (hm.2 hex)
    cases hn : namesOf keys with
    | nil => rw [hn] at h1; simp at h1
    | cons x xs =>
      rw [hn] at h1 h2 hl
      have : xs = [] := by simpa using hl
      subst this
      rw [List.mem_singleton.1 h1, ← List.mem_singleton.1 h2]
  · intro hall
    have hsub : ∀ x ∈ namesOf keys, x = "" := by
      intro x hx
      obtain ⟨k, hk, rfl⟩ := List.mem_map.1 ((mem_namesOf _ _).1 hx)
      exact hall k hk
    have hnd := nodup_namesOf keys
    rcases hn : namesOf keys with - | ⟨x, - | ⟨y, ys⟩⟩
    · simp
    · simp
    · rw [hn] at hsub hnd
      have e1 := hsub x (by simp)
      have e2 := hsub y (by simp)
      simp [e1, e2] at hnd

private theorem foldl_set_get {K X Y : Type} [DecidableEq K] (g : Y → X) : ∀ (l : List (K × Y)) (d : Dict K X), (l.map Prod.fst).Nodup →
    ∀ (k : K) (y : Y), (k, y) ∈ l → Dict.get? (l.foldl (fun d p => Dict.set d p.1 (g p.2)) d) k = some (g y)
  | [], _, _, _, _, h => by simp at h
  | p :: l, d, hl, k, y, h => by
    simp only [List.map_cons, List.nodup_cons] at hl
    rcases List.mem_cons.1 h with rfl | h
    · have other : ∀ (l : List (K × Y)) (d : Dict K X), k ∉ l.map Prod.fst →
          Dict.get? (l.foldl (fun d p => Dict.set d p.1 (g p.2)) d) k = Dict.get? d k := by
        intro l
        induction l with
        | nil => intro d _; rfl
        | cons q l ih =>
          intro d hq
          simp only [List.map_cons, List.mem_cons, not_or] at hq
          rw [List.foldl_cons, ih _ hq.2, Dict.get?_set_ne _ _ (Ne.symm hq.1)]
      rw [List.foldl_cons, other l _ hl.1, Dict.get?_set_self]
    · exact foldl_set_get g l _ hl.2 k y h

omit [AddCommMonoid W] in
private theorem combiner_of {modelName : String} {desired : Option ℤ} {m : Keras F R W V} {c : Combiner F R W V}
    (hc : computations modelName desired m = .ok [c]) :
    c.model = m ∧ m.metrics ≠ [] ∧ metricKeys modelName m.outputNames m.metrics = .ok c.keys := by
  unfold computations at hc
  split_ifs at hc with h
  · simp at hc
  · split at hc
    · exact absurd hc (by simp)
    · rename_i ks hks
      simp only [Except.ok.injEq, List.cons.injEq, and_true] at hc
      subst hc
      exact ⟨rfl, by simpa using h, hks⟩

private theorem batch_sums {m : Keras F R W V} {c : Combiner F R W V} (hm : c.model = m) {f : Stored W V → Example F R → W}
    (hadd : Additive m c.keys f) : BatchSums c f := by
  intro pend hne hfine
  rw [hm]
  refine hadd.2 pend _ hne ?_ ?_ ?_
  · unfold columns
    rw [List.map_map]
    have : ((Prod.fst ∘ fun p : String × List (Option R) => (p.1, p.2.filterMap id)) : String × List (Option R) → String) = Prod.fst := rfl
    rw [this]
    have hsub := (List.filter_sublist (p := fun p : String × List (Option R) => !decide (p.1 = "" ∧ 1 < (namesOf c.keys).length))
      (l := (namesOf c.keys).zip ((namesOf c.keys).map fun o => pend.map (cell (namesOf c.keys) o)))).map Prod.fst
    refine hsub.nodup ?_
    rw [List.map_fst_zip (by simp)]
    exact nodup_namesOf _
  · intro o
    rw [← fed_iff]
    unfold columns
    simp only [List.map_map, List.mem_map, List.mem_filter, Function.comp_apply, Prod.exists, List.zip_map_right, fed]
    constructor
    · rintro ⟨a, b, ⟨⟨x, y, hxy, e⟩, hf⟩, rfl⟩
      simp only [Prod.map_apply, id_eq, Prod.mk.injEq] at e
      obtain ⟨rfl, -⟩ := e
      exact ⟨(List.of_mem_zip hxy).1, hf⟩
    · rintro ⟨h1, h2⟩
      refine ⟨o, _, ⟨⟨o, o, ?_, rfl⟩, h2⟩, rfl⟩
      rw [List.zip_eq_zipWith, List.zipWith_self]
      exact List.mem_map.2 ⟨o, h1, rfl⟩
  · intro p hp
    unfold columns at hp
    simp only [List.mem_map, List.mem_filter, Prod.exists, List.zip_map_right] at hp
    obtain ⟨a, b, ⟨⟨x, y, hxy, e⟩, hf⟩, rfl⟩ := hp
    simp only [Prod.map_apply, id_eq, Prod.mk.injEq] at e
    obtain ⟨rfl, rfl⟩ := e
    have hxy' : x = y := by
      rw [List.zip_eq_zipWith, List.zipWith_self] at hxy
      obtain ⟨z, -, e⟩ := List.mem_map.1 hxy
      simp only [Prod.mk.injEq] at e
      rw [← e.1, ← e.2]
    subst hxy'
    have hx : x ∈ namesOf c.keys := (List.of_mem_zip hxy).1
    have hnot : ¬ (x = "" ∧ 1 < (namesOf c.keys).length) := by
      intro h
      simp [h] at hf
    show List.Forall₂ (fun (e : Example F R) r => e.row x = .ok r) pend ((pend.map (cell (namesOf c.keys) x)).filterMap id)
    have hf' : fed (namesOf c.keys) x = true := hf
    clear hne hf
    induction pend with
    | nil => exact .nil
    | cons e pend ih =>
      obtain ⟨r, hr⟩ := hfine e (by simp) x hx hf'
      have hcell : cell (namesOf c.keys) x e = some r := by
        simp only [cell, rowFor, if_neg hnot, hr, Except.map]
      rw [List.map_cons, List.filterMap_cons, hcell]
      exact .cons hr (ih fun y hy => hfine y (by simp [hy]))

/-- C116: if the keys of the metrics are distinct, and one of them belongs to no output (the loss) or all belong to the same, the
reported value of each metric is its result for the sum of the contributions of all the examples, however the runner distributes, merges
and compacts, and whatever the batch size and the estimated sizes are.  Missing: the keys need not be distinct (`C116_lost_fails`), and
Keras is not modelled, so that its metrics add up contributions is an assumption; no padding. -/
theorem C116_value_partial (modelName : String) (desired : Option ℤ) (m : Keras F R W V) (c : Combiner F R W V)
    (hc : computations modelName desired m = .ok [c]) (hn : c.keys.Nodup)
    (hroom : (∃ k ∈ c.keys, k.outputName = "") ∨ ∃ o, ∀ k ∈ c.keys, k.outputName = o)
    (f : Stored W V → Example F R → W) (hadd : Additive m c.keys f) (data : List (Example F R))
    (hdata : ∀ x ∈ data, ∀ o, Fed c.keys o → ∃ r, x.row o = .ok r) (s : Sched (Event F R)) (hs : Processes s data) :
    ∃ a d, (combineFn c).run s = .ok a ∧ extract c a = .ok d ∧
      ∀ (i : ℕ) (metric : Stored W V) (key : MetricKey), m.metrics[i]? = some metric → c.keys[i]? = some key →
        Dict.get? d key = some (metric.result (data.map (f metric)).sum) := by
  obtain ⟨hm, hne, hkeys⟩ := combiner_of hc
  have hlen := metricKeys_length _ _ _ _ hkeys
  have hk : c.keys ≠ [] := by
    intro h
    rw [h] at hlen
    exact hne (List.length_eq_zero_iff.1 hlen.symm)
  have hl : c.keys.length = c.model.metrics.length := by rw [hm, hlen]
  have hr : "" ∈ c.keys.map MetricKey.outputName ∨ ∃ o, namesOf c.keys = [o] := by
    rcases hroom with ⟨k, h1, h2⟩ | ⟨o, ho⟩
    · exact .inl (List.mem_map.2 ⟨k, h1, h2⟩)
    · right
      obtain ⟨x, xs, hx⟩ := namesOf_cons c.keys hk
      have hall : ∀ y ∈ namesOf c.keys, y = o := by
        intro y hy
        obtain ⟨k, hk, rfl⟩ := List.mem_map.1 ((mem_namesOf _ _).1 hy)
        exact ho k hk
      have hnd := nodup_namesOf c.keys
      refine ⟨x, ?_⟩
      cases xs with
      | nil => exact hx
      | cons y ys =>
        rw [hx] at hall hnd
        have e1 := hall x (by simp)
        have e2 := hall y (by simp)
        simp [e1, e2] at hnd
  have hb := batch_sums hm hadd
  have hfine : ∀ x ∈ examples s.inputs, Fine (namesOf c.keys) x := fun x hx o ho hf =>
    hdata x (hs.mem_iff.1 hx) o ((fed_iff _ _).1 ⟨ho, hf⟩)
  obtain ⟨a, h1, p, hinv⟩ := run_ok hk hl hr hb s hfine
  obtain ⟨b, g1, -, -, -, w, rest, g2, g3⟩ := processBatch_ok hk hb hinv
  have hw : List.Forall₂ (fun m w => w.getD m.initial = ((examples s.inputs).map (f m)).sum) c.model.metrics w := by
    have h0 : ∀ m ∈ c.model.metrics, m.initial = 0 := by rw [hm]; exact hadd.1
    revert g3 h0
    clear g2 g1 h1 hinv hb hl hkeys hlen
    generalize c.model.metrics = ms
    intro g3 h0
    induction g3 with
    | nil => exact .nil
    | cons hw _ ih =>
      refine .cons ?_ (ih fun m hm => h0 m (by simp [hm]))
      rw [h0 _ (by simp)]
      simpa using hw
  have hres := results_get (fun m => ((examples s.inputs).map (f m)).sum) c.model.metrics c.keys w [] hl hw
  refine ⟨a, _, h1, by simp only [extract, g1, g2]; exact hres, fun i metric key hi hki => ?_⟩
  have hperm : ((examples s.inputs).map (f metric)).sum = (data.map (f metric)).sum := (hs.map (f metric)).sum_eq
  have hzip : (key, metric) ∈ List.zip c.keys c.model.metrics := by
    rw [hm]
    refine List.mem_of_getElem? (i := i) ?_
    rw [List.getElem?_zip_eq_some]
    exact ⟨hki, hi⟩
  have := foldl_set_get (fun m : Stored W V => m.result ((examples s.inputs).map (f m)).sum) (List.zip c.keys c.model.metrics) []
    (by rw [List.map_fst_zip (le_of_eq hl)]; exact hn) key metric hzip
  rw [← hperm]
  exact this

/-- A model that sums the predictions of its outputs "a" and "b" and of both. -/
def sumModel : Keras Unit ℚ ℚ ℚ where
  outputNames := ["a", "b"]
  metrics := [⟨"loss", none, none, 0, id⟩, ⟨"a_sum", none, none, 0, id⟩, ⟨"b_sum", none, none, 0, id⟩]
  update _ cols :=
    let get (o : String) := ((cols.find? fun p => p.1 = o).map fun p => p.2.sum).getD 0
    .ok [get "a" + get "b", get "a", get "b"]

/-- Non-vacuous: two bundles of one example each, merged; batches of one example.  The loss is 33, the sums are 3 and 30. -/
example : ((computations "" (some 1) sumModel).toOption.bind fun l => l.head?.bind fun c =>
    (((combineFn c).run (.merge (.cons (.bundle [.add ⟨(), fun o => if o = "a" then .ok 1 else if o = "b" then .ok 10 else .error .keyError, 0⟩])
      (.one (.bundle [.add ⟨(), fun o => if o = "a" then .ok 2 else if o = "b" then .ok 20 else .error .keyError, 0⟩]))))).toOption.bind
        fun a => (extract c a).toOption).map fun d => d.map fun p => (p.1.outputName, p.1.name, p.2)) =
    some [("", "loss", 33), ("a", "sum", 3), ("b", "sum", 30)] := by decide +kernel

/-- The prediction of an example for an output. -/
private def predicted (o : String) (x : Example Unit ℚ) : ℚ := (x.row o).toOption.getD 0

private theorem get_sum (cols : List (String × List ℚ)) (batch : List (Example Unit ℚ)) (o : String) (ho : o ∈ cols.map Prod.fst)
    (hc : ∀ p ∈ cols, List.Forall₂ (fun (x : Example Unit ℚ) r => x.row p.1 = .ok r) batch p.2) :
    ((cols.find? fun p => p.1 = o).map fun p => p.2.sum).getD 0 = (batch.map (predicted o)).sum := by
  cases hf : cols.find? (fun p => p.1 = o) with
  | none =>
    obtain ⟨p, hp, rfl⟩ := List.mem_map.1 ho
    have := List.find?_eq_none.1 hf p hp
    simp at this
  | some p =>
    have h1 := List.find?_some hf
    have h2 := hc p (List.mem_of_find?_eq_some hf)
    simp only [decide_eq_true_eq] at h1
    subst h1
    simp only [Option.map_some, Option.getD_some]
    clear hc
    generalize p.2 = col at h2
    induction h2 with
    | nil => rfl
    | cons hr _ ih => simp [predicted, hr, Except.toOption, ih]

/-- Non-vacuous: the theorem applies to this model. -/
example (desired : Option ℤ) (data : List (Example Unit ℚ)) (hdata : ∀ x ∈ data, ∀ o, o = "a" ∨ o = "b" → ∃ r, x.row o = .ok r)
    (s : Sched (Event Unit ℚ)) (hs : Processes s data) : ∃ c a d, computations "" desired sumModel = .ok [c] ∧
      (combineFn c).run s = .ok a ∧ extract c a = .ok d ∧
      Dict.get? d { name := "sum", outputName := "b", exampleWeighted := none } = some (data.map (predicted "b")).sum := by
  have hkeys : metricKeys "" sumModel.outputNames sumModel.metrics = .ok [{ name := "loss", exampleWeighted := none },
      { name := "sum", outputName := "a", exampleWeighted := none }, { name := "sum", outputName := "b", exampleWeighted := none }] := by
    decide +kernel
  have hc : computations "" desired sumModel = .ok [⟨sumModel, [{ name := "loss", exampleWeighted := none },
      { name := "sum", outputName := "a", exampleWeighted := none }, { name := "sum", outputName := "b", exampleWeighted := none }],
      desired⟩] := by
    unfold computations
    rw [hkeys]
    rfl
  have hfed : ∀ o, Fed [{ name := "loss", exampleWeighted := none }, { name := "sum", outputName := "a", exampleWeighted := none },
      { name := "sum", outputName := "b", exampleWeighted := none }] o ↔ o = "a" ∨ o = "b" := by
    intro o
    simp only [Fed, List.mem_cons, List.not_mem_nil, or_false, exists_eq_or_imp, exists_eq_left, forall_eq_or_imp, forall_eq]
    constructor
    · rintro ⟨h | h | h, h'⟩
      · have := (h' h.symm).2.1
        simp at this
      · exact .inl h.symm
      · exact .inr h.symm
    · rintro (rfl | rfl) <;> simp
  obtain ⟨a, d, h1, h2, h3⟩ := C116_value_partial "" desired sumModel _ hc (by simp) (.inl ⟨_, List.mem_cons_self, rfl⟩)
    (fun m x => if m.name = "loss" then predicted "a" x + predicted "b" x else if m.name = "a_sum" then predicted "a" x else predicted "b" x)
    (by
      refine ⟨by decide, fun batch cols _ _ ho hr => ?_⟩
      have ha := get_sum cols batch "a" ((ho "a").2 ((hfed "a").2 (.inl rfl))) hr
      have hb := get_sum cols batch "b" ((ho "b").2 ((hfed "b").2 (.inr rfl))) hr
      simp only [sumModel, ha, hb]
      simp [List.sum_map_add])
    data (fun x hx o ho => hdata x hx o ((hfed o).1 ho)) s hs
  refine ⟨_, a, d, hc, h1, h2, ?_⟩
  have := h3 2 ⟨"b_sum", none, none, 0, id⟩ { name := "sum", outputName := "b", exampleWeighted := none } rfl rfl
  simpa using this

/-- C116 fails: two metrics with different names can get the same key, "a_sum" and "a_a_sum" of output "a"; only the value of the later
one is reported. -/
theorem C116_lost_fails : ∃ (m : Keras Unit ℚ ℚ ℚ) (c : Combiner Unit ℚ ℚ ℚ) (s : Sched (Event Unit ℚ)) (d : Dict MetricKey ℚ),
    (m.metrics.map Stored.name).Nodup ∧ computations "" none m = .ok [c] ∧
    ((combineFn c).run s).bind (extract c) = .ok d ∧ d.length < m.metrics.length := by
  let m : Keras Unit ℚ ℚ ℚ :=
    { outputNames := ["a"]
      metrics := [⟨"loss", none, none, 0, id⟩, ⟨"a_sum", none, none, 0, id⟩, ⟨"a_a_sum", none, none, 0, id⟩]
      update := fun _ _ => .ok [1, 2, 3] }
  refine ⟨m,
    { model := m
      keys := [{ name := "loss", exampleWeighted := none }, { name := "sum", outputName := "a", exampleWeighted := none },
        { name := "sum", outputName := "a", exampleWeighted := none }] },
    .bundle [.add ⟨(), fun _ => .ok 0, 0⟩],
    [({ name := "loss", exampleWeighted := none }, 1), ({ name := "sum", outputName := "a", exampleWeighted := none }, 3)], ?_, ?_, ?_, ?_⟩
  · decide
  · show computations "" none m = _
    have : metricKeys "" m.outputNames m.metrics = .ok [{ name := "loss", exampleWeighted := none },
      { name := "sum", outputName := "a", exampleWeighted := none }, { name := "sum", outputName := "a", exampleWeighted := none }] := by
      decide +kernel
    unfold computations
    rw [this]
    rfl
  · decide +kernel
  · decide

/-- C116 fails: if every metric belongs to one of several outputs, no value is ever reported: extracting raises IndexError, whatever the
runner did before. -/
theorem C116_no_overall_fails (modelName : String) (desired : Option ℤ) (m : Keras F R W V) (c : Combiner F R W V)
    (hc : computations modelName desired m = .ok [c]) (hno : ∀ k ∈ c.keys, k.outputName ≠ "")
    (htwo : ∃ k ∈ c.keys, ∃ k' ∈ c.keys, k.outputName ≠ k'.outputName) (s : Sched (Event F R)) (d : Dict MetricKey V) :
    ((combineFn c).run s).bind (extract c) ≠ .ok d := by
  obtain ⟨hm, hne, hkeys⟩ := combiner_of hc
  have hlen := metricKeys_length _ _ _ _ hkeys
  obtain ⟨k, hk, k', hk', hkk⟩ := htwo
  obtain ⟨o, os, hn⟩ := namesOf_cons c.keys (List.ne_nil_of_mem hk)
  have hcount : countOf c.keys o < c.keys.length := by
    have ho : o ≠ "" := by
      intro h
      have : o ∈ namesOf c.keys := by rw [hn]; simp
      obtain ⟨k, hk, e⟩ := List.mem_map.1 ((mem_namesOf _ _).1 this)
      exact hno k hk (e.trans h)
    unfold countOf
    rw [if_neg ho]
    refine List.length_filter_lt_length_iff_exists.2 ?_
    by_cases h : k.outputName = o
    · exact ⟨k', hk', by simp only [decide_eq_true_eq]; intro h'; exact hkk (h.trans h'.symm)⟩
    · exact ⟨k, hk, by simpa using h⟩
  cases hr : (combineFn c).run s with
  | error e => simp [Except.bind]
  | ok a =>
    have hp := run_places s a hr
    have hc0 : places (create c) = countOf c.keys o := by simp [places, create, hn]
    simp only [Except.bind, extract]
    split
    · simp
    · rename_i b hb
      have hpb := processBatch_places hb
      split
      · simp
      · rename_i ws rest hws
        have : ws.length < c.model.metrics.length := by
          have e : places b = ws.length := by simp [places, hws]
          rw [hm, ← hlen, ← e, hpb, hp, hc0]
          exact hcount
        rw [results_short _ _ _ _ this]
        simp

/-- Non-vacuous: the model above without its overall loss. -/
example : ∃ c, computations "" none { sumModel with metrics := sumModel.metrics.tail } = .ok [c] ∧ (∀ k ∈ c.keys, k.outputName ≠ "") ∧
    ∃ k ∈ c.keys, ∃ k' ∈ c.keys, k.outputName ≠ k'.outputName := by
  refine ⟨⟨{ sumModel with metrics := sumModel.metrics.tail },
    [{ name := "sum", outputName := "a", exampleWeighted := none }, { name := "sum", outputName := "b", exampleWeighted := none }], none⟩,
    ?_, by decide, by decide⟩
  have : metricKeys "" sumModel.outputNames sumModel.metrics.tail = .ok [{ name := "sum", outputName := "a", exampleWeighted := none },
      { name := "sum", outputName := "b", exampleWeighted := none }] := by decide +kernel
  unfold computations
  rw [this]
  rfl

end KerasModel
end TFMA
