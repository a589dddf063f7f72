import Verif.Model.Counters
import Mathlib.Data.Finset.Card
import Mathlib.Data.Finset.Dedup
import Mathlib.Algebra.BigOperators.Group.List.Basic
import Mathlib.Tactic.Ring

/-!
# C162: the counters of a pipeline tell what was computed

The value of a counter is how often its name was incremented.
-/

namespace TFMA
namespace Counters

variable {ν : Type} [DecidableEq ν] {σ : Type}

/-! ### specification -/

/-- The type of model under which a metric is counted: one of the types of the models if the spec has no query key, the metrics of
the models are included and there are models. -/
def Logged (option : Option Bool) (models : List String) (queryKey t : String) : Prop :=
  if queryKey = "" ∧ option ≠ some false ∧ models ≠ [] then t ∈ models else t = "model_agnostic"

instance (option : Option Bool) (models : List String) (queryKey t : String) : Decidable (Logged option models queryKey t) := by
  unfold Logged
  infer_instance

/-- No underscore. -/
def Plain (s : String) : Prop := '_' ∉ s.toList

/-! ### names -/

private theorem split_first (c : Char) (a b a' b' : List Char) (ha : c ∉ a) (ha' : c ∉ a') (h : a ++ c :: b = a' ++ c :: b') :
    a = a' ∧ b = b' := by
  induction a generalizing a' with
  | nil =>
    cases a' with
    | nil => simpa using h
    | cons x a' =>
      simp only [List.nil_append, List.cons_append, List.cons.injEq] at h
      exact absurd h.1 (fun e => ha' (by simp [e]))
  | cons x a ih =>
    cases a' with
    | nil =>
      simp only [List.nil_append, List.cons_append, List.cons.injEq] at h
      exact absurd h.1.symm (fun e => ha (by simp [e]))
    | cons y a' =>
      simp only [List.cons_append, List.cons.injEq] at h
      simp only [List.mem_cons, not_or] at ha ha'
      obtain ⟨e1, e2⟩ := ih a' ha.2 ha'.2 h.2
      exact ⟨by rw [h.1, e1], e2⟩

private theorem plain_inj (pre a b a' b' : String) (ha : Plain a) (ha' : Plain a')
    (h : pre ++ a ++ "_" ++ b = pre ++ a' ++ "_" ++ b') : a = a' ∧ b = b' := by
  have h := congrArg String.toList h
  simp only [String.toList_append, List.append_assoc] at h
  have h := List.append_cancel_left h
  have e : "_".toList = ['_'] := rfl
  rw [e] at h
  obtain ⟨e1, e2⟩ := split_first '_' _ _ _ _ ha ha' h
  exact ⟨String.toList_inj.1 e1, String.toList_inj.1 e2⟩

private theorem slice_inj (text : ν → String) (ht : Function.Injective text) (p q : String × ν) (hp : Plain p.1) (hq : Plain q.1) :
    sliceName text p = sliceName text q ↔ p = q := by
  constructor
  · intro h
    obtain ⟨e1, e2⟩ := plain_inj _ _ _ _ _ hp hq h
    exact Prod.ext e1 (ht e2)
  · rintro rfl
    rfl

private theorem three_inj (pre v u c c' t t' : String) (hc : Plain c) (hc' : Plain c')
    (h : pre ++ c ++ "_" ++ v ++ u ++ t = pre ++ c' ++ "_" ++ v ++ u ++ t') : c = c' ∧ t = t' := by
  have h' : pre ++ c ++ "_" ++ (v ++ u ++ t) = pre ++ c' ++ "_" ++ (v ++ u ++ t') := by
    simp only [← String.append_assoc]
    exact h
  obtain ⟨e1, e2⟩ := plain_inj _ _ _ _ _ hc hc' h'
  refine ⟨e1, ?_⟩
  have := congrArg String.toList e2
  simp only [String.toList_append] at this
  exact String.toList_inj.1 (List.append_cancel_left this)

private theorem metric_inj (c c' t t' : String) (hc : Plain c) (hc' : Plain c') :
    metricName c "v2" t = metricName c' "v2" t' ↔ c = c' ∧ t = t' :=
  ⟨fun h => three_inj _ _ _ c c' t t' hc hc' h, fun h => by rw [h.1, h.2]⟩

/-! ### counting -/

private theorem sum_count {β : Type} [DecidableEq β] (ks : List β) (hk : ks.Nodup) (l : List β) (hl : l.Nodup) (h : ∀ x ∈ l, x ∈ ks) :
    (ks.map fun k => if k ∈ l then 1 else 0).sum = l.length := by
  have e : (ks.map fun k => if k ∈ l then 1 else 0).sum = (ks.filter fun k => decide (k ∈ l)).length := by
    clear hk h
    induction ks with
    | nil => rfl
    | cons k ks ih => by_cases hm : k ∈ l <;> simp [hm, ih, Nat.add_comm]
  rw [e]
  refine List.Perm.length_eq ((List.perm_ext_iff_of_nodup (hk.filter _) hl).2 fun x => ?_)
  simp only [List.mem_filter, decide_eq_true_eq]
  exact ⟨fun h => h.2, fun hx => ⟨h x hx, hx⟩⟩

private theorem count_metrics (types : List String) (ht : types.Nodup) (specs : List (List String)) (c t : String) (hc : Plain c)
    (hs : ∀ s ∈ specs, ∀ c' ∈ s, Plain c') :
    (metricIncrements types specs).count (metricName c "v2" t) = if t ∈ types then specs.flatten.count c else 0 := by
  have one : ∀ t', (specs.flatMap fun s => s.map fun c' => metricName c' "v2" t').count (metricName c "v2" t) =
      if t' = t then specs.flatten.count c else 0 := by
    intro t'
    induction specs with
    | nil => simp
    | cons s specs ih =>
      rw [List.flatMap_cons, List.count_append, ih fun s' h' => hs s' (by simp [h']), List.flatten_cons, List.count_append]
      have : (s.map fun c' => metricName c' "v2" t').count (metricName c "v2" t) = if t' = t then s.count c else 0 := by
        have hp := hs s (by simp)
        clear ih hs
        induction s with
        | nil => simp
        | cons x s ih =>
          rw [List.map_cons, List.count_cons, ih fun c' h' => hp c' (by simp [h']), List.count_cons]
          have hx := metric_inj x c t' t (hp x (by simp)) hc
          have hb : (metricName x "v2" t' == metricName c "v2" t) = decide (x = c ∧ t' = t) := by
            rw [beq_eq_decide]
            exact decide_eq_decide.2 hx
          rw [hb]
          by_cases e1 : x = c <;> by_cases e2 : t' = t <;> simp [e1, e2]
      rw [this]
      split <;> simp
  unfold metricIncrements
  induction types with
  | nil => simp
  | cons t' types ih =>
    rw [List.flatMap_cons, List.count_append, one, ih (List.nodup_cons.1 ht).2]
    by_cases e : t' = t
    · subst e
      simp [(List.nodup_cons.1 ht).1]
    · simp [e, Ne.symm e]

private theorem types_nodup (models : List String) : (typesForLogging models).Nodup := by
  unfold typesForLogging
  split
  · simp
  · exact List.nodup_dedup _

private theorem logged_types (option : Option Bool) (models : List String) (q t : String) (l : List σ) :
    t ∈ typesForLogging (if (Queries.jobOf option (q, l)).includeDefault then models else []) ↔ Logged option models q t := by
  unfold Queries.jobOf Logged
  by_cases hq : q = ""
  · subst hq
    rcases option with _ | _ | _
    · cases models <;> simp [typesForLogging]
    · simp [typesForLogging]
    · cases models <;> simp [typesForLogging]
  · simp [hq, typesForLogging]

private theorem sum_addSpec (F : String → List σ → ℕ) (hF : ∀ k l s, F k (l ++ [s]) = F k l + F k [s]) (key : String) (s : σ)
    (gs : List (String × List σ)) :
    ((Queries.addSpec key s gs).map fun g => F g.1 g.2).sum = (gs.map fun g => F g.1 g.2).sum + F key [s] := by
  induction gs with
  | nil => simp [Queries.addSpec]
  | cons g gs ih =>
    obtain ⟨k, l⟩ := g
    unfold Queries.addSpec
    by_cases e : k = key
    · subst e
      simp only [if_true, List.map_cons, List.sum_cons, hF]
      ring
    · simp only [e, if_false, List.map_cons, List.sum_cons, ih]
      ring

private theorem sum_groups (F : String → List σ → ℕ) (hF : ∀ k l s, F k (l ++ [s]) = F k l + F k [s]) (q : σ → String)
    (specs : List σ) (gs : List (String × List σ)) :
    ((specs.foldl (fun gs s => Queries.addSpec (q s) s gs) gs).map fun g => F g.1 g.2).sum =
      (gs.map fun g => F g.1 g.2).sum + (specs.map fun s => F (q s) [s]).sum := by
  induction specs generalizing gs with
  | nil => simp
  | cons s specs ih =>
    rw [List.foldl_cons, ih, sum_addSpec F hF]
    simp only [List.map_cons, List.sum_cons]
    ring

private theorem addSpec_ne (key : String) (s : σ) (gs : List (String × List σ)) : Queries.addSpec key s gs ≠ [] := by
  cases gs with
  | nil => simp [Queries.addSpec]
  | cons g gs =>
    obtain ⟨k, l⟩ := g
    unfold Queries.addSpec
    split <;> simp

private theorem groups_ne (q : σ → String) (specs : List σ) (gs : List (String × List σ)) (h : specs ≠ [] ∨ gs ≠ []) :
    specs.foldl (fun gs s => Queries.addSpec (q s) s gs) gs ≠ [] := by
  induction specs generalizing gs with
  | nil => simpa using h
  | cons s specs ih => exact ih _ (.inr (addSpec_ne _ _ _))

private theorem groups_mem (q : σ → String) (specs : List σ) (gs : List (String × List σ)) (P : σ → Prop)
    (hs : ∀ s ∈ specs, P s) (hg : ∀ g ∈ gs, ∀ s ∈ g.2, P s) :
    ∀ g ∈ specs.foldl (fun gs s => Queries.addSpec (q s) s gs) gs, ∀ s ∈ g.2, P s := by
  induction specs generalizing gs with
  | nil => simpa using hg
  | cons s specs ih =>
    refine ih _ (fun s' h' => hs s' (by simp [h'])) ?_
    have hP := hs s (by simp)
    clear ih hs
    show ∀ g ∈ Queries.addSpec (q s) s gs, ∀ s ∈ g.2, P s
    generalize q s = key
    induction gs with
    | nil =>
      intro g hg' s' hs'
      simp only [Queries.addSpec, List.mem_singleton] at hg'
      subst hg'
      simp only [List.mem_singleton] at hs'
      exact hs' ▸ hP
    | cons g gs ih =>
      obtain ⟨k, l⟩ := g
      intro g' hg'
      unfold Queries.addSpec at hg'
      split at hg'
      · rcases List.mem_cons.1 hg' with rfl | h'
        · intro s' hs'
          rcases List.mem_append.1 hs' with h | h
          · exact hg (k, l) (by simp) s' h
          · simp only [List.mem_singleton] at h
            exact h ▸ hP
        · exact hg g' (by simp [h'])
      · rcases List.mem_cons.1 hg' with rfl | h'
        · exact hg (k, l) (by simp)
        · exact ih (fun g h => hg g (by simp [h])) g' h'

/-! ### C162 -/

/-- The instances are the pairs of an example and a slice it belongs to. -/
theorem C162_instances (examples : List (List (Slice ν))) (keys : List (Slice ν)) (hk : Distinct (fanOut examples).flatten keys) :
    instances examples = (keys.map fun k => examples.countP fun e => decide (k ∈ e)).sum := by
  have hm : ∀ e ∈ examples, ∀ x ∈ e.dedup, x ∈ keys := fun e he x hx =>
    (hk.2 x).2 (List.mem_flatten.2 ⟨e.dedup, List.mem_map_of_mem he, hx⟩)
  have hn := hk.1
  clear hk
  unfold instances fanOut
  induction examples with
  | nil => simp
  | cons e examples ih =>
    have h1 := sum_count keys hn e.dedup (List.nodup_dedup e) (hm e (by simp))
    simp only [List.map_cons, List.sum_cons]
    rw [ih fun e' h' => hm e' (by simp [h']), ← h1, ← List.sum_map_add]
    refine congrArg List.sum (List.map_congr_left fun k _ => ?_)
    rw [List.countP_cons]
    by_cases h : k ∈ e <;> simp [h, Nat.add_comm]

/-- The number of slices is that of the slices some example belongs to. -/
theorem C162_distinct (examples : List (List (Slice ν))) (keys : List (Slice ν)) (hk : Distinct (fanOut examples).flatten keys) :
    numDistinct keys = examples.flatten.toFinset.card := by
  unfold numDistinct
  rw [← List.toFinset_card_of_nodup hk.1]
  refine congrArg Finset.card (Finset.ext fun k => ?_)
  rw [List.mem_toFinset, List.mem_toFinset, hk.2 k]
  simp [fanOut]

/-- If no column has an underscore, the counter of a column and a value is the number of slices that have them. -/
theorem C162_slices (text : ν → String) (ht : Function.Injective text) (examples : List (List (Slice ν))) (keys : List (Slice ν))
    (hk : Distinct (fanOut examples).flatten keys) (hc : ∀ e ∈ examples, ∀ k ∈ e, (k.map Prod.fst).Nodup ∧ ∀ p ∈ k, Plain p.1)
    (p : String × ν) (hp : Plain p.1) :
    (sliceIncrements text keys).count (sliceName text p) = (examples.flatten.toFinset.filter fun k => p ∈ k).card := by
  have hkeys : ∀ k ∈ keys, (k.map Prod.fst).Nodup ∧ ∀ p ∈ k, Plain p.1 := fun k h => by
    obtain ⟨l, hl, hkl⟩ := List.mem_flatten.1 ((hk.2 k).1 h)
    obtain ⟨e, he, rfl⟩ := List.mem_map.1 hl
    exact hc e he k (List.mem_dedup.1 hkl)
  have h1 : (sliceIncrements text keys).count (sliceName text p) = (keys.filter fun k => decide (p ∈ k)).length := by
    unfold sliceIncrements
    clear hk
    induction keys with
    | nil => rfl
    | cons k keys ih =>
      rw [List.flatMap_cons, List.count_append, ih fun k' h' => hkeys k' (by simp [h'])]
      obtain ⟨hn, hpl⟩ := hkeys k (by simp)
      have : (k.map (sliceName text)).count (sliceName text p) = if p ∈ k then 1 else 0 := by
        have hn' : k.Nodup := hn.of_map _
        have : (k.map (sliceName text)).count (sliceName text p) = k.count p := by
          clear ih hn hn' hkeys
          induction k with
          | nil => rfl
          | cons x k ih =>
            rw [List.map_cons, List.count_cons, ih fun q hq => hpl q (by simp [hq]), List.count_cons]
            have := slice_inj text ht x p (hpl x (by simp)) hp
            have hb : (sliceName text x == sliceName text p) = decide (x = p) := by
              rw [beq_eq_decide]
              exact decide_eq_decide.2 this
            rw [hb]
            by_cases e : x = p <;> simp [e]
        rw [this]
        split
        · rename_i h
          exact List.count_eq_one_of_mem hn' h
        · rename_i h
          exact List.count_eq_zero_of_not_mem h
      rw [this]
      by_cases h : p ∈ k <;> simp [h, Nat.add_comm]
  rw [h1, ← List.toFinset_card_of_nodup (hk.1.filter _)]
  refine congrArg Finset.card (Finset.ext fun k => ?_)
  simp [hk.2 k, fanOut]

/-- With underscores two columns can share a counter. -/
theorem C162_slices_fails : ∃ p q : String × String, p ≠ q ∧ sliceName id p = sliceName id q :=
  ⟨("native", "country_us"), ("native_country", "us"), by decide, by decide⟩

/-- The counter of a class of metrics and a type of models is the number of metrics of the class in the specs logged under the type. -/
theorem C162_metrics (queryKeyOf : σ → String) (metricsOf : σ → List String) (empty : σ) (option : Option Bool) (models : List String)
    (specs : List σ) (hne : specs ≠ []) (hs : ∀ s ∈ specs, ∀ c ∈ metricsOf s, Plain c) (c t : String) (hc : Plain c) :
    (evaluationIncrements queryKeyOf metricsOf empty option models specs).count (metricName c "v2" t) =
      (specs.map fun s => if Logged option models (queryKeyOf s) t then (metricsOf s).count c else 0).sum := by
  set F : String → List σ → ℕ := fun k l => if Logged option models k t then (l.map metricsOf).flatten.count c else 0 with hF
  have hadd : ∀ k l s, F k (l ++ [s]) = F k l + F k [s] := by
    intro k l s
    simp only [hF]
    split <;> simp
  have hgr := sum_groups F hadd queryKeyOf specs []
  have hmem := groups_mem queryKeyOf specs [] (fun s => ∀ c ∈ metricsOf s, Plain c) hs (by simp)
  have hg0 := groups_ne queryKeyOf specs [] (.inl hne)
  unfold evaluationIncrements Queries.jobs
  simp only
  generalize specs.foldl (fun gs s => Queries.addSpec (queryKeyOf s) s gs) [] = gs at hgr hmem hg0
  rw [if_neg (by simpa using hg0)]
  have key : ((gs.map (Queries.jobOf option)).flatMap fun j =>
      metricIncrements (typesForLogging (if j.includeDefault then models else [])) (j.specs.map metricsOf)).count (metricName c "v2" t) =
      (gs.map fun g => F g.1 g.2).sum := by
    clear hgr hg0
    induction gs with
    | nil => rfl
    | cons g gs ih =>
      rw [List.map_cons, List.flatMap_cons, List.count_append, ih fun g' h' => hmem g' (by simp [h']), List.map_cons, List.sum_cons]
      congr 1
      obtain ⟨k, l⟩ := g
      have hsp : (Queries.jobOf option (k, l)).specs = l := by
        unfold Queries.jobOf
        split <;> rfl
      rw [hsp, count_metrics _ (types_nodup _) _ c t hc fun s h c' h' => by
        obtain ⟨x, hx, rfl⟩ := List.mem_map.1 h
        exact hmem (k, l) (by simp) x hx c' h']
      simp only [hF, logged_types]
  rw [key, hgr]
  simp [hF]

/-- Metrics that need a query key are counted as if there was no model. -/
theorem C162_query_fails (models : List String) (c : String) (hc : Plain c) (t : String) (ht : t ≠ "model_agnostic") :
    (evaluationIncrements (σ := String × List String) Prod.fst Prod.snd ("", []) none models [("query", [c])]).count
        (metricName c "v2" t) = 0 ∧
      (evaluationIncrements (σ := String × List String) Prod.fst Prod.snd ("", []) none models [("query", [c])]).count
        (metricName c "v2" "model_agnostic") = 1 := by
  rw [C162_metrics _ _ _ _ _ _ (by simp) (by simpa using hc) c t hc,
    C162_metrics _ _ _ _ _ _ (by simp) (by simpa using hc) c _ hc]
  simp [Logged, ht]

example : (evaluationIncrements (σ := String × List String) Prod.fst Prod.snd ("", []) none ["tf_keras"]
    [("", ["AUC", "ExampleCount"]), ("query", ["NDCG"]), ("", ["AUC"])]) =
    ["metric_computed_AUC_v2_tf_keras", "metric_computed_ExampleCount_v2_tf_keras", "metric_computed_AUC_v2_tf_keras",
      "metric_computed_NDCG_v2_model_agnostic"] := by decide
/-- The overall slice and one of two columns. -/
example : Distinct (fanOut [[[], [("a", 1)]], [[], [("a", 1)], []]]).flatten [[("a", 1)], []] := by
  simp [Distinct, fanOut, List.dedup_cons_of_notMem, List.dedup_cons_of_mem]
example : instances [[[], [("a", 1)]], [[], [("a", 1)], []]] = 4 := by decide

end Counters
end TFMA
