import Verif.Props.TfMetrics
import Mathlib.Data.List.Induction

/-!
# C93: which Keras metrics are computed, on which inputs and under which keys
-/

namespace TFMA
namespace TfMetrics

open MetricKeys Beam

variable {W V : Type} [AddCommMonoid W]

/-- The sub key a metric is reported under, if it is added with `sub`: its own class id or else its own `top_k`, or else `sub`. -/
def subKeyOf (sub : Option SubKey) (m : Metric W V) : Option SubKey :=
  match m.classId, m.topK with
  | some i, _ => some ⟨some i, none, none⟩
  | none, some k => some ⟨none, none, some k⟩
  | none, none => sub

/-- The metric has a class id or a `top_k` of its own that contradicts `sub`, or is no valid sub key. -/
def Clashes (sub : Option SubKey) (m : Metric W V) : Prop :=
  (∃ i, m.classId = some i ∧ ∃ s, sub = some s ∧ s.classId ≠ some i) ∨
    (m.classId = none ∧ ∃ k, m.topK = some k ∧ (k < 1 ∨ ∃ s, sub = some s ∧ s.topK ≠ some k))

/-- The metric is in the list and no later metric has the same name and sub key. -/
def Kept (sub : Option SubKey) (ms : List (Metric W V)) (m : Metric W V) : Prop :=
  ∃ l₁ l₂, ms = l₁ ++ m :: l₂ ∧ ∀ m' ∈ l₂, ¬(m'.name = m.name ∧ subKeyOf sub m' = subKeyOf sub m)

/-- The metric is one of those of the output, not replaced by a later one, and is not computed from confusion matrices. -/
def Wanted (sub : Option SubKey) (metrics : List (String × List (Metric W V))) (output : String) (m : Metric W V) : Prop :=
  ∃ ms, (output, ms) ∈ metrics ∧ Kept sub ms m ∧ ¬(m.matrix = true ∧ m.topK = none)

/-- The computation evaluates the metric for the output. -/
def Evaluates (c : Computation W V) (output : String) (m : Metric W V) : Prop :=
  ∃ ms, (output, ms) ∈ c.combiner.outputs ∧ m ∈ ms

/-! ### Helpers -/

omit [AddCommMonoid W] in
private theorem verify_ok {sub : Option SubKey} {m : Metric W V} (h : ¬Clashes sub m) : verifySubKey sub m = .ok (subKeyOf sub m) := by
  unfold Clashes at h
  push Not at h
  obtain ⟨h1, h2⟩ := h
  unfold verifySubKey subKeyOf
  rcases hc : m.classId with - | i
  · rcases hk : m.topK with - | k
    · rfl
    · obtain ⟨h3, h4⟩ := h2 hc k hk
      rcases sub with - | s
      · simp [SubKey.new, not_lt.2 h3, Except.map]
      · simp [SubKey.new, not_lt.2 h3, Except.map, h4 s rfl]
  · rcases sub with - | s
    · simp [SubKey.new, Except.map]
    · simp [SubKey.new, Except.map, h1 i hc s rfl]

omit [AddCommMonoid W] in
private theorem verify_error {sub : Option SubKey} {m : Metric W V} (h : Clashes sub m) : verifySubKey sub m = .error .valueError := by
  unfold verifySubKey
  rcases h with ⟨i, hi, s, rfl, hs⟩ | ⟨hc, k, hk, h⟩
  · simp [hi, hs]
  · rw [hc, hk]
    rcases h with h | ⟨s, rfl, hs⟩
    · rcases sub with - | s
      · simp [SubKey.new, h, Except.map]
      · by_cases h' : s.topK = some k <;> simp [SubKey.new, h, h', Except.map]
    · simp [hs]

private abbrev nameAndKey (sub : Option SubKey) (m : Metric W V) : String × Option SubKey := (m.name, subKeyOf sub m)

private abbrev assigned (sub : Option SubKey) (d : Dict (String × Option SubKey) (Metric W V)) (ms : List (Metric W V)) :
    Dict (String × Option SubKey) (Metric W V) := ms.foldl (fun d m => Dict.set d (nameAndKey sub m) m) d

omit [AddCommMonoid W] in
private theorem unique_ok {sub : Option SubKey} : ∀ (ms : List (Metric W V)) (d), (∀ m ∈ ms, ¬Clashes sub m) →
    uniqueMetrics sub d ms = .ok ((assigned sub d ms).map Prod.snd)
  | [], _, _ => rfl
  | m :: ms, d, h => by
    rw [uniqueMetrics, verify_ok (h m (by simp))]
    exact unique_ok ms _ fun m' h' => h m' (by simp [h'])

omit [AddCommMonoid W] in
private theorem unique_error {sub : Option SubKey} : ∀ (ms : List (Metric W V)) (d), (∃ m ∈ ms, Clashes sub m) →
    uniqueMetrics sub d ms = .error .valueError
  | m :: ms, d, h => by
    by_cases hm : Clashes sub m
    · rw [uniqueMetrics, verify_error hm]
    · rw [uniqueMetrics, verify_ok hm]
      refine unique_error ms _ ?_
      obtain ⟨m', h', hc⟩ := h
      rcases List.mem_cons.1 h' with rfl | h'
      · exact absurd hc hm
      · exact ⟨m', h', hc⟩

omit [AddCommMonoid W] in
private theorem assigned_wf {sub : Option SubKey} : ∀ (ms : List (Metric W V)) (d), Dict.WF d → Dict.WF (assigned sub d ms)
  | [], _, h => h
  | _ :: ms, _, h => assigned_wf ms _ (Dict.WF_set h _ _)

omit [AddCommMonoid W] in
private theorem assigned_get {sub : Option SubKey} (k : String × Option SubKey) (m : Metric W V) : ∀ (ms : List (Metric W V)) (d),
    Dict.get? (assigned sub d ms) k = some m ↔
      (nameAndKey sub m = k ∧ Kept sub ms m) ∨ ((∀ m' ∈ ms, nameAndKey sub m' ≠ k) ∧ Dict.get? d k = some m)
  | [], d => by simp [Kept]
  | x :: ms, d => by
    rw [show assigned sub d (x :: ms) = assigned sub (Dict.set d (nameAndKey sub x) x) ms from rfl, assigned_get k m ms]
    constructor
    · rintro (⟨h1, l₁, l₂, rfl, h2⟩ | ⟨h1, h2⟩)
      · exact .inl ⟨h1, x :: l₁, l₂, rfl, h2⟩
      · by_cases hx : nameAndKey sub x = k
        · subst hx
          rw [Dict.get?_set_self] at h2
          cases h2
          refine .inl ⟨rfl, [], ms, rfl, fun m' hm' e => h1 m' hm' (Prod.ext e.1 e.2)⟩
        · rw [Dict.get?_set_ne _ _ hx] at h2
          refine .inr ⟨fun m' hm' => ?_, h2⟩
          rcases List.mem_cons.1 hm' with rfl | hm'
          · exact hx
          · exact h1 m' hm'
    · rintro (⟨h1, l₁, l₂, h2, h3⟩ | ⟨h1, h2⟩)
      · rcases l₁ with - | ⟨y, l₁⟩
        · simp only [List.nil_append, List.cons.injEq] at h2
          obtain ⟨rfl, rfl⟩ := h2
          refine .inr ⟨fun m' hm' e => h3 m' hm' ?_, by rw [h1, Dict.get?_set_self]⟩
          rw [← h1] at e
          exact ⟨congrArg Prod.fst e, congrArg Prod.snd e⟩
        · simp only [List.cons_append, List.cons.injEq] at h2
          obtain ⟨rfl, rfl⟩ := h2
          exact .inl ⟨h1, l₁, l₂, rfl, h3⟩
      · refine .inr ⟨fun m' hm' => h1 m' (by simp [hm']), ?_⟩
        rw [Dict.get?_set_ne _ _ (h1 x (by simp)), h2]

private def keep (sub : Option SubKey) (ms : List (Metric W V)) : List (Metric W V) := (assigned sub [] ms).map Prod.snd

omit [AddCommMonoid W] in
private theorem mem_keep {sub : Option SubKey} {ms : List (Metric W V)} {m : Metric W V} : m ∈ keep sub ms ↔ Kept sub ms m := by
  simp only [keep, List.mem_map, Prod.exists, exists_eq_right]
  constructor
  · rintro ⟨a, b, h⟩
    rcases (assigned_get (a, b) m ms []).1 (Dict.get?_of_mem (assigned_wf ms [] Dict.WF_nil) h) with h | h
    · exact h.2
    · simp at h
  · intro h
    exact ⟨_, _, Dict.mem_of_get? ((assigned_get (nameAndKey sub m) m ms []).2 (.inl ⟨rfl, h⟩))⟩

omit [AddCommMonoid W] in
private theorem keep_nodup (sub : Option SubKey) (ms : List (Metric W V)) : ((keep sub ms).map (nameAndKey sub)).Nodup := by
  have hwf := assigned_wf (sub := sub) ms [] Dict.WF_nil
  have : (keep sub ms).map (nameAndKey sub) = Dict.keys (assigned sub [] ms) := by
    simp only [keep, List.map_map, Dict.keys]
    refine List.map_congr_left fun p hp => ?_
    rcases (assigned_get p.1 p.2 ms []).1 (Dict.get?_of_mem hwf hp) with h | h
    · exact h.1
    · simp at h
  rw [this]
  exact hwf

omit [AddCommMonoid W] in
private theorem filter_ok {sub : Option SubKey} : ∀ (os : List (String × List (Metric W V))), (∀ o ∈ os, ∀ m ∈ o.2, ¬Clashes sub m) →
    filterDuplicates sub os = .ok (os.map fun o => (o.1, keep sub o.2))
  | [], _ => rfl
  | o :: os, h => by
    simp only [filterDuplicates, unique_ok o.2 [] (h o (by simp)), filter_ok os fun o' h' => h o' (by simp [h']), List.map_cons, keep]

omit [AddCommMonoid W] in
private theorem filter_error {sub : Option SubKey} : ∀ (os : List (String × List (Metric W V))), (∃ o ∈ os, ∃ m ∈ o.2, Clashes sub m) →
    filterDuplicates sub os = .error .valueError
  | o :: os, h => by
    by_cases ho : ∃ m ∈ o.2, Clashes sub m
    · simp only [filterDuplicates, unique_error o.2 [] ho]
    · push Not at ho
      obtain ⟨o', h', hc⟩ := h
      rcases List.mem_cons.1 h' with rfl | h'
      · obtain ⟨m, hm, hc⟩ := hc
        exact absurd hc (ho m hm)
      · simp only [filterDuplicates, unique_ok o.2 [] ho, filter_error os ⟨o', h', hc⟩]

/-- One metric is put into its group. -/
private abbrev put (r : Request) (d : Dict (Option SubKey) (Group W V)) (p : String × Metric W V) : Dict (Option SubKey) (Group W V) :=
  Dict.set d (subKeyOf r.subKey p.2)
    (((Dict.get? d (subKeyOf r.subKey p.2)).getD {}).add (declaredKey r p.1 (subKeyOf r.subKey p.2) p.2) p.1 p.2)

omit [AddCommMonoid W] in
private theorem groups_ok {r : Request} : ∀ (l : List (String × Metric W V)) (d), (∀ p ∈ l, ¬Clashes r.subKey p.2) →
    groups r d l = .ok (l.foldl (put r) d)
  | [], _, _ => rfl
  | (o, m) :: l, d, h => by
    rw [groups, verify_ok (h (o, m) (by simp))]
    exact groups_ok l _ fun p hp => h p (by simp [hp])

/-- The metrics of sub key `k`. -/
private abbrev ofKey (r : Request) (k : Option SubKey) (l : List (String × Metric W V)) : List (String × Metric W V) :=
  l.filter fun p => decide (subKeyOf r.subKey p.2 = k)

private structure GroupOk (r : Request) (k : Option SubKey) (l : List (String × Metric W V)) (g : Group W V) : Prop where
  keys : g.keys = (ofKey r k l).map fun p => declaredKey r p.1 k p.2
  wf : Dict.WF g.outputs
  get : ∀ o, (Dict.get? g.outputs o).getD [] = ((ofKey r k l).filter fun p => decide (p.1 = o)).map Prod.snd
  ne : ofKey r k l ≠ []

omit [AddCommMonoid W] in
private theorem groups_inv (r : Request) (l : List (String × Metric W V)) :
    Dict.WF (l.foldl (put r) []) ∧ ∀ k, (Dict.get? (l.foldl (put r) []) k = none → ofKey r k l = []) ∧
      ∀ g, Dict.get? (l.foldl (put r) []) k = some g → GroupOk r k l g := by
  induction l using List.reverseRecOn with
  | nil => exact ⟨Dict.WF_nil, by simp⟩
  | append_singleton l p ih =>
    obtain ⟨i1, i2⟩ := ih
    rw [List.foldl_append, List.foldl_cons, List.foldl_nil]
    refine ⟨Dict.WF_set i1 _ _, fun k => ?_⟩
    by_cases hk : subKeyOf r.subKey p.2 = k
    · subst hk
      have hf : ofKey r (subKeyOf r.subKey p.2) (l ++ [p]) = ofKey r (subKeyOf r.subKey p.2) l ++ [p] := by
        simp [ofKey, List.filter_append]
      rw [Dict.get?_set_self, hf]
      refine ⟨by simp, fun g hg => ?_⟩
      cases hg
      obtain ⟨j1, j2⟩ := i2 (subKeyOf r.subKey p.2)
      have hg : ((Dict.get? (l.foldl (put r) []) (subKeyOf r.subKey p.2)).getD {}).keys =
            (ofKey r (subKeyOf r.subKey p.2) l).map (fun q => declaredKey r q.1 (subKeyOf r.subKey p.2) q.2) ∧
          Dict.WF ((Dict.get? (l.foldl (put r) []) (subKeyOf r.subKey p.2)).getD {}).outputs ∧
          ∀ o, (Dict.get? ((Dict.get? (l.foldl (put r) []) (subKeyOf r.subKey p.2)).getD {}).outputs o).getD [] =
            ((ofKey r (subKeyOf r.subKey p.2) l).filter fun q => decide (q.1 = o)).map Prod.snd := by
        rcases hd : Dict.get? (l.foldl (put r) []) (subKeyOf r.subKey p.2) with - | g
        · rw [j1 hd]
          exact ⟨rfl, Dict.WF_nil, fun o => rfl⟩
        · have := j2 g hd
          exact ⟨this.keys, this.wf, this.get⟩
      refine ⟨?_, ?_, ?_, by rw [hf]; simp⟩
      · rw [hf]
        simp only [Group.add, hg.1, List.map_append, List.map_cons, List.map_nil]
      · exact Dict.WF_set hg.2.1 _ _
      · intro o
        rw [hf]
        simp only [Group.add, Dict.get?_set]
        by_cases ho : p.1 = o
        · subst ho
          simp [hg.2.2]
        · rw [if_neg (by simpa using ho), hg.2.2]
          simp [List.filter_append, ho]
    · have hf : ofKey r k (l ++ [p]) = ofKey r k l := by
        simp [ofKey, List.filter_append, hk]
      rw [Dict.get?_set_ne _ _ hk]
      refine ⟨fun h => by rw [hf]; exact (i2 k).1 h, fun g hg => ?_⟩
      obtain ⟨a, b, c, d⟩ := (i2 k).2 g hg
      exact ⟨by rw [hf]; exact a, b, by rw [hf]; exact c, by rw [hf]; exact d⟩

/-- The metrics with their outputs, as they are put into groups. -/
private def flat (sub : Option SubKey) (metrics : List (String × List (Metric W V))) : List (String × Metric W V) :=
  (others (metrics.map fun o => (o.1, keep sub o.2))).flatMap fun o => o.2.map fun m => (o.1, m)

omit [AddCommMonoid W] in
private theorem flat_eq (sub : Option SubKey) : ∀ metrics : List (String × List (Metric W V)),
    flat sub metrics = metrics.flatMap fun o => ((keep sub o.2).filter fun m => !usesMatrices m).map fun m => (o.1, m)
  | [] => rfl
  | o :: metrics => by
    have ih := flat_eq sub metrics
    simp only [flat, others, List.map_cons, List.flatMap_cons] at ih ⊢
    rw [← ih, List.filter_cons]
    split_ifs with h
    · rfl
    · have : (keep sub o.2).filter (fun m => !usesMatrices m) = [] := by simpa using h
      rw [this]
      rfl

omit [AddCommMonoid W] in
private theorem usesMatrices_iff (m : Metric W V) : (!usesMatrices m) = true ↔ ¬(m.matrix = true ∧ m.topK = none) := by
  cases h : m.topK <;> simp [usesMatrices, h]

omit [AddCommMonoid W] in
private theorem mem_flat {sub : Option SubKey} {metrics : List (String × List (Metric W V))} {o : String} {m : Metric W V} :
    (o, m) ∈ flat sub metrics ↔ Wanted sub metrics o m := by
  rw [flat_eq]
  simp only [List.mem_flatMap, List.mem_map, List.mem_filter, Prod.mk.injEq, Prod.exists, mem_keep, usesMatrices_iff, Wanted]
  constructor
  · rintro ⟨o', ms, h, m', ⟨h1, h2⟩, rfl, rfl⟩
    exact ⟨ms, h, h1, h2⟩
  · rintro ⟨ms, h, h1, h2⟩
    exact ⟨o, ms, h, m, ⟨h1, h2⟩, rfl, rfl⟩

omit [AddCommMonoid W] in
private theorem kept_mem {sub : Option SubKey} {ms : List (Metric W V)} {m : Metric W V} (h : Kept sub ms m) : m ∈ ms := by
  obtain ⟨l₁, l₂, rfl, -⟩ := h
  simp

omit [AddCommMonoid W] in
private theorem flat_nodup (sub : Option SubKey) (metrics : List (String × List (Metric W V))) (h : (metrics.map Prod.fst).Nodup) :
    ((flat sub metrics).map fun p => (p.1, p.2.name, subKeyOf sub p.2)).Nodup := by
  rw [flat_eq]
  induction metrics with
  | nil => simp
  | cons o metrics ih =>
    simp only [List.map_cons, List.nodup_cons] at h
    simp only [List.flatMap_cons, List.map_append, List.nodup_append, List.map_map]
    refine ⟨?_, ih h.2, ?_⟩
    · have := (keep_nodup sub o.2)
      have h2 : (((keep sub o.2).filter fun m => !usesMatrices m).map (nameAndKey sub)).Nodup :=
        this.sublist (List.filter_sublist.map _)
      rw [List.nodup_map_iff_inj_on (List.Nodup.of_map _ h2)]
      intro x hx y hy e
      simp only [Function.comp_apply, Prod.mk.injEq, true_and] at e
      exact List.inj_on_of_nodup_map h2 hx hy (Prod.ext e.1 e.2)
    · intro a ha b hb e
      subst e
      obtain ⟨m, -, rfl⟩ := List.mem_map.1 ha
      obtain ⟨p, hp, e⟩ := List.mem_map.1 hb
      obtain ⟨o', ho', hp⟩ := List.mem_flatMap.1 hp
      obtain ⟨m', -, rfl⟩ := List.mem_map.1 hp
      simp only [Function.comp_apply, Prod.mk.injEq] at e
      exact h.1 (List.mem_map.2 ⟨o', ho', e.1⟩)

omit [AddCommMonoid W] in
private theorem insert_perm (x : String × List (Metric W V)) : ∀ l, (insertOutput x l).Perm (x :: l)
  | [] => .refl _
  | y :: ys => by
    unfold insertOutput
    split_ifs
    · exact .refl _
    · exact ((insert_perm x ys).cons y).trans (.swap x y ys)

omit [AddCommMonoid W] in
private theorem sort_perm : ∀ l : List (String × List (Metric W V)), (l.foldr insertOutput []).Perm l
  | [] => .refl _
  | x :: l => (insert_perm x _).trans ((sort_perm l).cons x)

omit [AddCommMonoid W] in
private theorem arrange_names (l : List (String × List (Metric W V))) : ((arrange l).map Prod.fst).Perm (l.map Prod.fst) := by
  simp only [arrange, List.map_map, Function.comp_def]
  exact (sort_perm l).map Prod.fst

omit [AddCommMonoid W] in
private theorem mem_arrange {l : List (String × List (Metric W V))} {o : String} {ms : List (Metric W V)}
    (h : (o, ms) ∈ arrange l) : ∃ ms', (o, ms') ∈ l ∧ ms.Perm ms' := by
  obtain ⟨p, hp, e⟩ := List.mem_map.1 h
  cases e
  refine ⟨p.2, (sort_perm l).mem_iff.1 hp, ?_⟩
  have := List.filter_append_perm (fun m : Metric W V => !m.isLoss) p.2
  simpa using this

omit [AddCommMonoid W] in
private theorem arrange_mem {l : List (String × List (Metric W V))} {o : String} {ms' : List (Metric W V)}
    (h : (o, ms') ∈ l) : ∃ ms, (o, ms) ∈ arrange l ∧ ms.Perm ms' := by
  refine ⟨_, List.mem_map.2 ⟨(o, ms'), (sort_perm l).mem_iff.2 h, rfl⟩, ?_⟩
  have := List.filter_append_perm (fun m : Metric W V => !m.isLoss) ms'
  simpa using this

/-! ### The property -/

/-- C93: an error is raised exactly if a sparse metric is aggregated, or a metric has a class id or `top_k` of its own that clashes with
the sub key it is added with. -/
theorem C93_error (r : Request) (padding : Option Padding) (metrics : List (String × List (Metric W V))) (e : Err) :
    computations r padding metrics = .error e ↔
      e = .valueError ∧ ((r.aggregation ≠ none ∧ ∃ o ∈ metrics, ∃ m ∈ o.2, m.sparse = true) ∨
        ∃ o ∈ metrics, ∃ m ∈ o.2, Clashes r.subKey m) := by
  unfold computations
  have hs : (r.aggregation.isSome && metrics.any fun o => o.2.any fun m => m.sparse) = true ↔
      (r.aggregation ≠ none ∧ ∃ o ∈ metrics, ∃ m ∈ o.2, m.sparse = true) := by
    simp only [Bool.and_eq_true, List.any_eq_true, Option.isSome_iff_ne_none]
  split_ifs with h
  · simp only [Except.error.injEq]
    constructor
    · rintro rfl
      exact ⟨rfl, .inl (hs.1 h)⟩
    · rintro ⟨rfl, -⟩
      rfl
  · have h' := fun x => h (hs.2 x)
    by_cases hc : ∃ o ∈ metrics, ∃ m ∈ o.2, Clashes r.subKey m
    · rw [filter_error _ hc]
      simp only [Except.error.injEq]
      constructor
      · rintro rfl
        exact ⟨rfl, .inr hc⟩
      · rintro ⟨rfl, -⟩
        rfl
    · have hc' : ∀ o ∈ metrics, ∀ m ∈ o.2, ¬Clashes r.subKey m := by push Not at hc; exact hc
      rw [filter_ok _ hc']
      simp only
      rw [show ((others (metrics.map fun o => (o.1, keep r.subKey o.2))).flatMap fun o => o.2.map fun m => (o.1, m)) =
        flat r.subKey metrics from rfl, groups_ok]
      · simp only [reduceCtorEq, false_iff, not_and, not_or]
        exact fun _ => ⟨fun x y => h' ⟨x, y⟩, hc⟩
      · rintro ⟨o, m⟩ hp
        obtain ⟨ms, h1, h2, -⟩ := mem_flat.1 hp
        exact hc' _ h1 m (kept_mem h2)

private theorem computations_ok {r : Request} {padding : Option Padding} {metrics : List (String × List (Metric W V))}
    {cs : List (Computation W V)} (h : computations r padding metrics = .ok cs) :
    cs = ((flat r.subKey metrics).foldl (put r) []).map (computation r padding) := by
  have hc : ∀ o ∈ metrics, ∀ m ∈ o.2, ¬Clashes r.subKey m := by
    intro o ho m hm hc
    have := (C93_error r padding metrics .valueError).2 ⟨rfl, .inr ⟨o, ho, m, hm, hc⟩⟩
    rw [h] at this
    cases this
  unfold computations at h
  split_ifs at h with hs
  rw [filter_ok _ hc] at h
  simp only at h
  rw [show ((others (metrics.map fun o => (o.1, keep r.subKey o.2))).flatMap fun o => o.2.map fun m => (o.1, m)) =
    flat r.subKey metrics from rfl, groups_ok] at h
  · simpa using h.symm
  · rintro ⟨o, m⟩ hp
    obtain ⟨ms, h1, h2, -⟩ := mem_flat.1 hp
    exact hc _ h1 m (kept_mem h2)

private theorem of_mem {r : Request} {padding : Option Padding} {metrics : List (String × List (Metric W V))}
    {cs : List (Computation W V)} (h : computations r padding metrics = .ok cs) {c : Computation W V} (hc : c ∈ cs) :
    ∃ k g, GroupOk r k (flat r.subKey metrics) g ∧ c = computation r padding (k, g) := by
  rw [computations_ok h] at hc
  obtain ⟨⟨k, g⟩, hg, rfl⟩ := List.mem_map.1 hc
  obtain ⟨hw, hi⟩ := groups_inv r (flat r.subKey metrics)
  exact ⟨k, g, (hi k).2 g (Dict.get?_of_mem hw hg), rfl⟩

omit [AddCommMonoid W] in
private theorem evaluates_iff {r : Request} {padding : Option Padding} {metrics : List (String × List (Metric W V))}
    {k : Option SubKey} {g : Group W V} (hg : GroupOk r k (flat r.subKey metrics) g) (o : String) (m : Metric W V) :
    Evaluates (computation r padding (k, g)) o m ↔ subKeyOf r.subKey m = k ∧ Wanted r.subKey metrics o m := by
  have key : m ∈ (Dict.get? g.outputs o).getD [] ↔ subKeyOf r.subKey m = k ∧ Wanted r.subKey metrics o m := by
    rw [hg.get o]
    simp only [List.mem_map, List.mem_filter, decide_eq_true_eq]
    constructor
    · rintro ⟨⟨o', m'⟩, ⟨⟨h1, h2⟩, rfl⟩, rfl⟩
      exact ⟨h2, mem_flat.1 h1⟩
    · rintro ⟨h1, h2⟩
      exact ⟨(o, m), ⟨⟨mem_flat.2 h2, h1⟩, rfl⟩, rfl⟩
  rw [← key]
  constructor
  · rintro ⟨ms, h1, h2⟩
    obtain ⟨ms', h3, h4⟩ := mem_arrange h1
    rw [Dict.get?_of_mem hg.wf h3]
    exact h4.mem_iff.1 h2
  · intro h
    rcases hd : Dict.get? g.outputs o with - | ms'
    · simp [hd] at h
    · rw [hd] at h
      obtain ⟨ms, h1, h2⟩ := arrange_mem (Dict.mem_of_get? hd)
      exact ⟨ms, h1, h2.mem_iff.2 h⟩

/-- C93: a metric is evaluated for an output exactly if it is one of the metrics of the output and not replaced by a later one of the same
name and sub key (or computed from confusion matrices); and it is evaluated by one computation, that of its sub key. -/
theorem C93_metrics (r : Request) (padding : Option Padding) (metrics : List (String × List (Metric W V)))
    (cs : List (Computation W V)) (h : computations r padding metrics = .ok cs) (o : String) (m : Metric W V) :
    ((∃ c ∈ cs, Evaluates c o m) ↔ Wanted r.subKey metrics o m) ∧
      (∀ c ∈ cs, Evaluates c o m → c.combiner.subKey = subKeyOf r.subKey m) ∧
      (cs.map fun c => c.combiner.subKey).Nodup := by
  refine ⟨⟨?_, fun hw => ?_⟩, ?_, ?_⟩
  · rintro ⟨c, hc, he⟩
    obtain ⟨k, g, hg, rfl⟩ := of_mem h hc
    exact ((evaluates_iff hg o m).1 he).2
  · obtain ⟨hwf, hi⟩ := groups_inv r (flat r.subKey metrics)
    have hne : ofKey r (subKeyOf r.subKey m) (flat r.subKey metrics) ≠ [] := by
      intro e
      have : (o, m) ∈ ofKey r (subKeyOf r.subKey m) (flat r.subKey metrics) := by
        simp only [List.mem_filter, decide_true, and_true]
        exact mem_flat.2 hw
      rw [e] at this
      cases this
    rcases hd : Dict.get? ((flat r.subKey metrics).foldl (put r) []) (subKeyOf r.subKey m) with - | g
    · exact absurd ((hi _).1 hd) hne
    · refine ⟨computation r padding (subKeyOf r.subKey m, g), ?_, (evaluates_iff ((hi _).2 g hd) o m).2 ⟨rfl, hw⟩⟩
      rw [computations_ok h]
      exact List.mem_map.2 ⟨_, Dict.mem_of_get? hd, rfl⟩
  · intro c hc he
    obtain ⟨k, g, hg, rfl⟩ := of_mem h hc
    exact ((evaluates_iff hg o m).1 he).1.symm
  · rw [computations_ok h, List.map_map]
    exact (groups_inv r (flat r.subKey metrics)).1

/-- C93: a computation declares the keys of its metrics: their names, the model, the output, the sub key and the aggregation type. -/
theorem C93_declared (r : Request) (padding : Option Padding) (metrics : List (String × List (Metric W V)))
    (cs : List (Computation W V)) (h : computations r padding metrics = .ok cs) (c : Computation W V) (hc : c ∈ cs) (key : MetricKey) :
    key ∈ c.keys ↔ ∃ o m, Evaluates c o m ∧
      key = ⟨m.name, r.modelName, o, subKeyOf r.subKey m, r.aggregation, some r.exampleWeighted, false⟩ := by
  obtain ⟨k, g, hg, rfl⟩ := of_mem h hc
  simp only [evaluates_iff hg]
  rw [show (computation r padding (k, g)).keys = g.keys from rfl, hg.keys]
  simp only [List.mem_map, List.mem_filter, decide_eq_true_eq, Prod.exists]
  constructor
  · rintro ⟨o, m, ⟨h1, rfl⟩, rfl⟩
    exact ⟨o, m, ⟨rfl, mem_flat.1 h1⟩, rfl⟩
  · rintro ⟨o, m, ⟨h1, h2⟩, rfl⟩
    subst h1
    exact ⟨o, m, ⟨mem_flat.2 h2, rfl⟩, rfl⟩

private theorem names_ok {r : Request} {padding : Option Padding} {metrics : List (String × List (Metric W V))}
    {cs : List (Computation W V)} (h : computations r padding metrics = .ok cs) (hm : (metrics.map Prod.fst).Nodup)
    {c : Computation W V} (hc : c ∈ cs) :
    c.combiner.outputs ≠ [] ∧ (c.combiner.outputs.map Prod.fst).Nodup ∧ ∀ o ∈ c.combiner.outputs, (o.2.map Metric.name).Nodup := by
  obtain ⟨k, g, hg, rfl⟩ := of_mem h hc
  refine ⟨?_, ?_, ?_⟩
  · obtain ⟨p, hp⟩ := List.exists_mem_of_ne_nil _ hg.ne
    have : Evaluates (computation r padding (k, g)) p.1 p.2 := by
      rw [evaluates_iff hg]
      simp only [List.mem_filter, decide_eq_true_eq] at hp
      exact ⟨hp.2, mem_flat.1 hp.1⟩
    obtain ⟨ms, h1, -⟩ := this
    exact List.ne_nil_of_mem h1
  · exact (arrange_names g.outputs).nodup_iff.2 hg.wf
  · rintro ⟨o, ms⟩ ho
    obtain ⟨ms', h1, h2⟩ := mem_arrange ho
    rw [(h2.map Metric.name).nodup_iff]
    have := hg.get o
    rw [Dict.get?_of_mem hg.wf h1] at this
    simp only [Option.getD_some] at this
    rw [this, List.map_map]
    have hn := flat_nodup r.subKey metrics hm
    have hsub : (((ofKey r k (flat r.subKey metrics)).filter fun p => decide (p.1 = o)).map
        fun p => (p.1, p.2.name, subKeyOf r.subKey p.2)).Nodup :=
      hn.sublist ((List.filter_sublist.trans List.filter_sublist).map _)
    rw [List.nodup_map_iff_inj_on (List.Nodup.of_map _ hsub)]
    intro x hx y hy e
    refine List.inj_on_of_nodup_map hsub hx hy ?_
    simp only [List.mem_filter, decide_eq_true_eq] at hx hy
    exact Prod.ext (hx.2.trans hy.2.symm) (Prod.ext e (hx.1.2.trans hy.1.2.symm))

private theorem foldl_set_keys {K X : Type} [DecidableEq K] (l : List (K × X)) (d : Dict K X) (k : K)
    (h : k ∈ Dict.keys (l.foldl (fun d p => Dict.set d p.1 p.2) d)) : k ∈ Dict.keys d ∨ k ∈ l.map Prod.fst := by
  induction l generalizing d with
  | nil => exact .inl h
  | cons p l ih =>
    rcases ih _ h with h | h
    · rw [Dict.mem_keys_iff] at h
      obtain ⟨v, hv⟩ := h
      rw [Dict.get?_set] at hv
      split_ifs at hv with e
      · exact .inr (by simp [← (show p.1 = k by simpa using e)])
      · exact .inl ((Dict.mem_keys_iff _ _).2 ⟨v, hv⟩)
    · exact .inr (by simp [h])

omit [AddCommMonoid W] in
private theorem results_keys {c : Combiner W V} {ws : List (List (Option W))} {key : MetricKey} (h : key ∈ Dict.keys (results c ws)) :
    ∃ o ms m w, (o, ms) ∈ c.outputs ∧ m ∈ ms ∧ key ∈ (metricResults c o m w).map Prod.fst := by
  rcases foldl_set_keys _ _ _ h with h | h
  · simp [Dict.keys] at h
  · obtain ⟨p, hp, rfl⟩ := List.mem_map.1 h
    obtain ⟨l, hl, hp⟩ := List.mem_flatten.1 hp
    obtain ⟨i, hi, rfl⟩ := List.getElem_of_mem hl
    simp only [List.getElem_zipWith] at hp
    obtain ⟨l', hl', hp⟩ := List.mem_flatten.1 hp
    obtain ⟨j, hj, rfl⟩ := List.getElem_of_mem hl'
    simp only [List.getElem_zipWith] at hp
    exact ⟨_, _, _, _, List.getElem_mem _, List.getElem_mem _, List.mem_map.2 ⟨p, hp, rfl⟩⟩

/-- C93: without aggregation, everything reported has been declared, if each metric yields one number. -/
theorem C93_reported (r : Request) (padding : Option Padding) (metrics : List (String × List (Metric W V)))
    (hm : ∀ o ∈ metrics, ∀ m ∈ o.2, ∀ w, ∃ v, m.result w = .single v) (hr : r.aggregation = none)
    (cs : List (Computation W V)) (h : computations r padding metrics = .ok cs) (c : Computation W V) (hc : c ∈ cs)
    (a : Acc W) (d : Dict MetricKey V) (hd : extract c.combiner a = .ok d) : ∀ key ∈ Dict.keys d, key ∈ c.keys := by
  intro key hk
  rw [C93_declared r padding metrics cs h c hc]
  unfold extract at hd
  split at hd
  · cases hd
  · cases hd
    obtain ⟨o, ms, m, w, h1, h2, h3⟩ := results_keys hk
    have he : Evaluates c o m := ⟨ms, h1, h2⟩
    refine ⟨o, m, he, ?_⟩
    obtain ⟨-, hsub, -⟩ := C93_metrics r padding metrics cs h o m
    obtain ⟨ms', hw, hkept, -⟩ := (C93_metrics r padding metrics cs h o m).1.1 ⟨c, hc, he⟩
    obtain ⟨v, hv⟩ := hm _ hw m (kept_mem hkept) (w.getD m.initial)
    rw [metricResults, hv] at h3
    simp only [List.map_cons, List.map_nil, List.mem_singleton] at h3
    rw [h3, ← hsub c hc he, hr]
    obtain ⟨k, g, -, rfl⟩ := of_mem h hc
    rfl

/-- C93: the value reported under the declared key of a metric is that of the metric over all the rows of its output, under the
assumptions of `C92_value_partial` (no padding, rows of equal widths, metrics that add up) and without aggregation. -/
theorem C93_values_partial (r : Request) (metrics : List (String × List (Metric W V))) (hn : (metrics.map Prod.fst).Nodup)
    (hm : ∀ o ∈ metrics, ∀ m ∈ o.2, ∀ w, ∃ v, m.result w = .single v) (hr : r.aggregation = none)
    (f : Metric W V → Row → W) (P : Row → Prop) (hadd : ∀ o ∈ metrics, ∀ m ∈ o.2, Additive m (f m) P)
    (cs : List (Computation W V)) (h : computations r none metrics = .ok cs) (c : Computation W V) (hc : c ∈ cs)
    (lw pw : ℕ → ℕ) (data : List (List (List Row)))
    (hd : Complete c.combiner.outputs.length (fun i r => P r ∧ r.label.vals.length = lw i ∧ r.pred.vals.length = pw i) data)
    (s : Sched Event) (hs : Processes s data) : ∃ a d, (combineFn c.combiner).run s = .ok a ∧ extract c.combiner a = .ok d ∧
      ∀ (i : ℕ) (o : String) (ms : List (Metric W V)) (m : Metric W V), c.combiner.outputs[i]? = some (o, ms) → m ∈ ms →
        ∃ key ∈ c.keys, key.name = m.name ∧ key.outputName = o ∧
          ∃ v, m.result ((column i data).map (f m)).sum = .single v ∧ Dict.get? d key = some v := by
  have hmem : ∀ o ms m, (o, ms) ∈ c.combiner.outputs → m ∈ ms → ∃ ms', (o, ms') ∈ metrics ∧ m ∈ ms' := by
    intro o ms m h1 h2
    obtain ⟨ms', hw, hkept, -⟩ := (C93_metrics r none metrics cs h o m).1.1 ⟨c, hc, ms, h1, h2⟩
    exact ⟨ms', hw, kept_mem hkept⟩
  obtain ⟨n1, n2, n3⟩ := names_ok h hn hc
  obtain ⟨a, d, h1, h2, h3⟩ := C92_value_partial c.combiner
    ⟨n1, n2, fun o ho => ⟨n3 o ho, fun m hm' => by
      obtain ⟨ms', x1, x2⟩ := hmem o.1 o.2 m ho hm'
      exact hm _ x1 m x2⟩⟩
    (by obtain ⟨k, g, -, rfl⟩ := of_mem h hc; rfl) f P
    (fun o ho m hm' => by
      obtain ⟨ms', x1, x2⟩ := hmem o.1 o.2 m ho hm'
      exact hadd _ x1 m x2) lw pw data hd s hs
  refine ⟨a, d, h1, h2, fun i o ms m hi hm' => ?_⟩
  obtain ⟨v, v1, v2⟩ := h3 i o ms m hi hm'
  exact ⟨_, C93_reported r none metrics hm hr cs h c hc a d h2 _ ((Dict.mem_keys_iff _ _).2 ⟨v, v2⟩), rfl, rfl, v, v1, v2⟩

/-- C93, negative: with any aggregation type nothing reported has been declared, since the reported keys lack the aggregation type.
So a threshold for the declared key finds no value. -/
theorem C93_aggregated_undeclared (r : Request) (padding : Option Padding) (metrics : List (String × List (Metric W V)))
    (hr : r.aggregation ≠ none) (cs : List (Computation W V)) (h : computations r padding metrics = .ok cs)
    (c : Computation W V) (hc : c ∈ cs) (a : Acc W) (d : Dict MetricKey V) (hd : extract c.combiner a = .ok d) :
    ∀ key ∈ Dict.keys d, key.aggregationType = none ∧ key ∉ c.keys := by
  intro key hk
  unfold extract at hd
  split at hd
  · cases hd
  · cases hd
    obtain ⟨o, ms, m, w, -, -, h3⟩ := results_keys hk
    have hnone : key.aggregationType = none := by
      unfold metricResults at h3
      split at h3
      · simp only [List.map_cons, List.map_nil, List.mem_singleton] at h3
        rw [h3]; rfl
      · simp only [List.map_map, List.mem_map, Function.comp_apply] at h3
        obtain ⟨p, -, rfl⟩ := h3
        rfl
    refine ⟨hnone, fun hkey => ?_⟩
    obtain ⟨o, m, -, rfl⟩ := (C93_declared r padding metrics cs h c hc key).1 hkey
    exact hr hnone

/-- C93: a metric that is not a loss and does not select the top `k` itself is given inputs restricted to the sub key it is reported
under. -/
theorem C93_inputs (r : Request) (padding : Option Padding) (metrics : List (String × List (Metric W V)))
    (cs : List (Computation W V)) (h : computations r padding metrics = .ok cs) (c : Computation W V) (hc : c ∈ cs)
    (o : String) (m : Metric W V) (hm : Evaluates c o m) (hl : m.isLoss = false) (hk : m.topK = none) :
    c.inputSubKey = subKeyOf r.subKey m := by
  rw [← (C93_metrics r padding metrics cs h o m).2.1 c hc hm]
  obtain ⟨k, g, hg, rfl⟩ := of_mem h hc
  obtain ⟨ms, h1, h2⟩ := hm
  obtain ⟨ms', h3, h4⟩ := mem_arrange h1
  have : subKeyInConfig k g.outputs = false := by
    unfold subKeyInConfig
    rcases k with - | s
    · rfl
    · simp only [Bool.and_eq_false_iff]
      right
      rw [List.all_eq_false]
      refine ⟨_, h3, ?_⟩
      simp only [List.all_eq_true, List.mem_filter, Bool.not_eq_true', not_forall]
      exact ⟨m, ⟨h4.mem_iff.1 h2, hl⟩, by simp [hk]⟩
  simp [computation, inputSubKey, this]

/-- C93, negative: the inputs of a loss depend on the other metrics.  With a sub key of the top 2 predictions, a loss alone is given all
the predictions, but together with another metric only the top 2; it is reported under the same key. -/
theorem C93_loss_inputs (loss : List ℚ → List ℚ → ℚ) :
    ∃ (r : Request) (other : Metric (ℚ × ℚ) ℚ) (c c' : Computation (ℚ × ℚ) ℚ),
      computations r none [("", [lossMetric "loss" loss])] = .ok [c] ∧
      computations r none [("", [lossMetric "loss" loss, other])] = .ok [c'] ∧
      (∃ key, key ∈ c.keys ∧ key ∈ c'.keys ∧ key.name = "loss") ∧
      c.inputSubKey = none ∧ c'.inputSubKey = some ⟨none, none, some 2⟩ :=
  ⟨{ subKey := some ⟨none, none, some 2⟩ }, meanError,
    computation { subKey := some ⟨none, none, some 2⟩ } none (some ⟨none, none, some 2⟩,
      Group.add {} (declaredKey { subKey := some ⟨none, none, some 2⟩ } "" (some ⟨none, none, some 2⟩) (lossMetric "loss" loss)) ""
        (lossMetric "loss" loss)),
    computation { subKey := some ⟨none, none, some 2⟩ } none (some ⟨none, none, some 2⟩,
      (Group.add {} (declaredKey { subKey := some ⟨none, none, some 2⟩ } "" (some ⟨none, none, some 2⟩) (lossMetric "loss" loss)) ""
        (lossMetric "loss" loss)).add (declaredKey { subKey := some ⟨none, none, some 2⟩ } "" (some ⟨none, none, some 2⟩) meanError) ""
        meanError),
    rfl, rfl, ⟨_, List.mem_cons_self, List.mem_cons_self, rfl⟩, rfl, rfl⟩

/-! ### Non-vacuity -/

/-- A metric for the examples: the mean error under another name, with its own `top_k`. -/
private def named (name : String) (topK : Option ℤ) : Metric (ℚ × ℚ) ℚ := { meanError with name := name, topK := topK }

/-- Three metrics, one replaced by a later one and one with a sub key of its own: two computations. -/
example : ∃ cs, computations {} none [("", [named "a" none, named "b" (some 2), { named "a" none with isLoss := true }])] = .ok cs ∧
    cs.map (fun c => (c.keys.map fun k => (k.name, k.subKey), c.inputSubKey)) =
      [([("a", none)], none), ([("b", some ⟨none, none, some 2⟩)], none)] := by
  refine ⟨_, rfl, ?_⟩
  decide +kernel

/-- A clash: a metric with `top_k` 2 is added with a class id. -/
example : computations { subKey := some ⟨some 1, none, none⟩ } none [("", [named "b" (some 2)])] = .error .valueError :=
  (C93_error _ _ _ _).2 ⟨rfl, .inr ⟨_, List.mem_cons_self, _, List.mem_cons_self,
    .inr ⟨rfl, 2, rfl, .inr ⟨_, rfl, by decide⟩⟩⟩⟩

/-- The mean error is reported under its declared key. -/
example : ∃ cs, computations {} none [("", [meanError])] = .ok cs ∧ ∀ c ∈ cs, ∃ a d,
    (combineFn c.combiner).run (.bundle [element [1] [0] 1]) = .ok a ∧ extract c.combiner a = .ok d ∧
      ∀ key ∈ Dict.keys d, key ∈ c.keys := by
  refine ⟨_, rfl, fun c hc => ?_⟩
  obtain ⟨a, d, h1, h2, -⟩ := C93_values_partial {} [("", [meanError])] (by simp)
    (by
      intro o ho m hm w
      simp only [List.mem_singleton] at ho
      subst ho
      simp only [List.mem_singleton] at hm
      subst hm
      exact ⟨_, rfl⟩) rfl (fun _ => squared) (fun _ => True)
    (by
      intro o ho m hm
      simp only [List.mem_singleton] at ho
      subst ho
      simp only [List.mem_singleton] at hm
      subst hm
      exact ⟨rfl, fun _ _ _ _ => rfl⟩) _ rfl c hc (fun _ => 1) (fun _ => 1)
    [[[{ label := { vals := [1] }, pred := { vals := [0] }, weight := 1 }]]]
    (by
      have hlen : c.combiner.outputs.length = 1 := by
        simp only [List.mem_singleton, List.map_cons, List.map_nil, put, Dict.set] at hc
        subst hc
        rfl
      rw [hlen]
      intro x hx
      simp only [List.mem_singleton] at hx
      subst hx
      refine ⟨rfl, fun i rows hr => ?_⟩
      rcases i with - | i <;> simp at hr <;> subst hr <;> simp)
    (.bundle [element [1] [0] 1]) (List.Perm.refl _)
  refine ⟨a, d, h1, h2, C93_reported {} none [("", [meanError])] ?_ rfl _ rfl c hc a d h2⟩
  intro o ho m hm w
  simp only [List.mem_singleton] at ho
  subst ho
  simp only [List.mem_singleton] at hm
  subst hm
  exact ⟨_, rfl⟩

/-- Micro averaging: one metric, whose declared key has the aggregation type. -/
example : ∃ c, computations { aggregation := some ⟨some true, none, none⟩ } none [("", [meanError])] = .ok [c] ∧
    c.keys = [⟨"error", "", "", none, some ⟨some true, none, none⟩, some false, false⟩] ∧
    (extract c.combiner (create c.combiner)).toOption = some [(⟨"error", "", "", none, none, some false, false⟩, 0)] := by
  refine ⟨_, rfl, rfl, ?_⟩
  decide +kernel

end TfMetrics
end TFMA
