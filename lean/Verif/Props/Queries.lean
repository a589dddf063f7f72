import Mathlib.Data.List.Forall2
import Verif.Model.Queries
import Verif.Props.Slicer
import Verif.Props.ExtractsMerge
import Verif.Props.Combiners

/-!
# C125: metrics by query key
-/

namespace TFMA
namespace Queries

open Beam Extracts VarLen Slicer

variable {ν α σ : Type}

/-! ### specification -/

/-- The example belongs to the query `q`: the one value of its query feature is printed as `q`, or it does not have the
feature and `q` is the empty text. -/
def Asks (text : ν → String) (q : String) (e : Example ν α) : Prop :=
  (e.query = none ∧ q = "") ∨ ∃ v, e.query = some [v] ∧ q = text v

/-- The example is in the slice. -/
def InSlice (k : SliceKey) (e : Example ν α) : Prop := ∃ k' ∈ e.slices, SameKey k k'

instance (k : SliceKey) (e : Example ν α) : Decidable (InSlice k e) := by unfold InSlice; infer_instance

/-- Some example of the query is in the slice. -/
def QueryInSlice (k : SliceKey) (es : List (Example ν α)) : Prop := ∃ e ∈ es, InSlice k e

instance (k : SliceKey) (es : List (Example ν α)) : Decidable (QueryInSlice k es) := by
  unfold QueryInSlice; infer_instance

/-- The records of a slice. -/
def recordsOf (k : SliceKey) (out : List (SliceKey × Forest (Leaf α))) : List (Forest (Leaf α)) :=
  (out.filter fun p => decide (SameKey k p.1)).map Prod.snd

/-- The queries of the data: every example is in the list of exactly one text, the one it asks for. -/
structure IsGrouping (text : ν → String) (data : List (Example ν α))
    (groups : List (String × List (Example ν α))) : Prop where
  distinct : (groups.map Prod.fst).Nodup
  nonempty : ∀ g ∈ groups, g.2 ≠ []
  all : (groups.map Prod.snd).flatten.Perm data
  asks : ∀ g ∈ groups, ∀ e ∈ g.2, Asks text g.1 e

/-! ### lemmas -/

private theorem toList_addAll {ε : Type} (xs : List ε) (a : List ε) :
    (toListCombineFn (ε := ε)).addAll a xs = .ok (a ++ xs) := by
  induction xs generalizing a with
  | nil => simp [CombineFn.addAll]
  | cons x xs ih =>
    simp only [CombineFn.addAll, toListCombineFn, bind, Except.bind]
    have := ih (a ++ [x])
    simp only [toListCombineFn] at this
    rw [this]; simp

mutual
private theorem toList_run {ε : Type} : ∀ s : Sched ε, (toListCombineFn (ε := ε)).run s = .ok s.inputs
  | .bundle xs => by
    simp only [CombineFn.run, Sched.inputs]
    rw [toList_addAll]; simp [toListCombineFn]
  | .extend s xs => by
    simp only [CombineFn.run, Sched.inputs, toList_run s, bind, Except.bind]
    exact toList_addAll _ _
  | .merge ss => by
    obtain ⟨l, h1, h2⟩ := toList_runs ss
    simp only [CombineFn.run, Sched.inputs, h1, bind, Except.bind]
    simp [toListCombineFn, h2]
private theorem toList_runs {ε : Type} : ∀ ss : Scheds ε,
    ∃ l, (toListCombineFn (ε := ε)).runs ss = .ok l ∧ l.flatten = ss.inputs
  | .one s => ⟨[s.inputs], by simp [CombineFn.runs, toList_run s, bind, Except.bind, pure, Except.pure], by
      simp [Scheds.inputs]⟩
  | .cons s ss => by
    obtain ⟨l, h1, h2⟩ := toList_runs ss
    exact ⟨s.inputs :: l, by simp [CombineFn.runs, toList_run s, h1, bind, Except.bind, pure, Except.pure], by
      simp [Scheds.inputs, h2]⟩
end

private theorem queryKey_ok {text : ν → String} {e : Example ν α} {q : String} :
    queryKey text e = .ok q ↔ Asks text q e := by
  unfold queryKey Asks
  rcases e with ⟨_ | ⟨_ | ⟨v, _ | ⟨w, vs⟩⟩⟩, s, x⟩ <;> simp [toScalar, eq_comm]

private theorem keyByQuery_ok {text : ν → String} {data : List (Example ν α)} {keyed : List (String × Example ν α)}
    (h : keyByQuery text data = .ok keyed) :
    keyed.map Prod.snd = data ∧ ∀ p ∈ keyed, Asks text p.1 p.2 := by
  induction data generalizing keyed with
  | nil => simp only [keyByQuery, Except.ok.injEq] at h; subst h; simp
  | cons e es ih =>
    simp only [keyByQuery] at h
    cases h1 : queryKey text e with
    | error err => rw [h1] at h; cases h
    | ok q =>
      cases h2 : keyByQuery text es with
      | error err => rw [h1, h2] at h; cases h
      | ok rest =>
        rw [h1, h2] at h
        simp only [Except.ok.injEq] at h
        subst h
        obtain ⟨i1, i2⟩ := ih h2
        refine ⟨by simp [i1], ?_⟩
        intro p hp
        rcases List.mem_cons.1 hp with rfl | hp
        · exact queryKey_ok.1 h1
        · exact i2 p hp

/-- Collecting the values of all the keys gives all the values. -/
private theorem valuesOf_flatten {ε : Type} (ks : List String) (hks : ks.Nodup) (l : List (String × ε))
    (hl : ∀ p ∈ l, p.1 ∈ ks) : (ks.map fun k => valuesOf k l).flatten.Perm (l.map Prod.snd) := by
  induction ks generalizing l with
  | nil =>
    have : l = [] := List.eq_nil_iff_forall_not_mem.2 fun p hp => by simpa using hl p hp
    subst this; simp
  | cons k ks ih =>
    obtain ⟨hk, hks⟩ := List.nodup_cons.1 hks
    have hrest : (ks.map fun k' => valuesOf k' l) =
        ks.map fun k' => valuesOf k' (l.filter fun p => !decide (p.1 = k)) := by
      apply List.map_congr_left
      intro k' hk'
      unfold valuesOf
      rw [List.filter_filter]
      congr 1
      apply List.filter_congr
      intro p _
      by_cases h : p.1 = k'
      · have hne : p.1 ≠ k := fun e => hk (by rw [← e, h]; exact hk')
        have hne' : k' ≠ k := h ▸ hne
        simp [h, hne']
      · simp [h]
    rw [List.map_cons, List.flatten_cons, hrest]
    have h1 := ih hks (l.filter fun p => !decide (p.1 = k)) (by
      intro p hp
      obtain ⟨hp1, hp2⟩ := List.mem_filter.1 hp
      rcases List.mem_cons.1 (hl p hp1) with h | h
      · simp [h] at hp2
      · exact h)
    refine (List.Perm.append_left _ h1).trans ?_
    unfold valuesOf
    rw [← List.map_append]
    exact (List.filter_append_perm _ l).map Prod.snd

private theorem grouping_of {text : ν → String} {data : List (Example ν α)} {keyed groups}
    (h1 : keyByQuery text data = .ok keyed) (h2 : CombinesPerKey toListCombineFn keyed groups) :
    IsGrouping text data groups := by
  obtain ⟨hd, ha⟩ := keyByQuery_ok h1
  obtain ⟨hn, hk, hv⟩ := h2
  have hperm : ∀ g ∈ groups, g.2.Perm (valuesOf g.1 keyed) := by
    intro g hg
    obtain ⟨s, hs, hr⟩ := hv g.1 g.2 hg
    rw [toList_run] at hr
    have hr := Except.ok.inj hr
    rw [← hr]; exact hs
  refine ⟨hn, ?_, ?_, ?_⟩
  · intro g hg he
    have hp := hperm g hg
    rw [he] at hp
    have := (hk g.1).1 (List.mem_map_of_mem hg)
    obtain ⟨p, hp1, hp2⟩ := List.mem_map.1 this
    have hmem : p.2 ∈ valuesOf g.1 keyed := by
      unfold valuesOf
      exact List.mem_map_of_mem (List.mem_filter.2 ⟨hp1, by simp [hp2]⟩)
    rw [← hp.mem_iff] at hmem
    cases hmem
  · have hall := valuesOf_flatten (groups.map Prod.fst) hn keyed fun p hp => (hk p.1).2 (List.mem_map_of_mem hp)
    rw [hd] at hall
    refine List.Perm.trans ?_ hall
    rw [List.map_map]
    clear hall hn hk hv
    induction groups with
    | nil => simp
    | cons g gs ih =>
      simp only [List.map_cons, List.flatten_cons]
      exact (hperm g (by simp)).append (ih fun g' hg' => hperm g' (by simp [hg']))
  · intro g hg e he
    rw [(hperm g hg).mem_iff] at he
    unfold valuesOf at he
    obtain ⟨p, hp, rfl⟩ := List.mem_map.1 he
    obtain ⟨hp1, hp2⟩ := List.mem_filter.1 hp
    have := ha p hp1
    rw [of_decide_eq_true hp2] at this
    exact this

/-- The slice keys read from the merged record are those of the examples. -/
private theorem mergedSlices (es : List (Example ν α)) (hne : es ≠ []) :
    ∃ v, mergeLeaf true (es.map fun e => Leaf.nd [e.slices.length] e.slices) = .ok v ∧
      sliceKeys v = .ok (es.map Example.slices).flatten := by
  have hmap : (es.map fun e => Leaf.nd [e.slices.length] e.slices) =
      (es.map Example.slices).map fun d => Leaf.nd [d.length] d := by simp [Function.comp_def]
  rw [hmap]
  generalize hds : es.map Example.slices = ds
  have hdne : ds ≠ [] := by rw [← hds]; simpa using hne
  clear hmap hds hne es
  rw [mergeLeaf_plain true _ (by
    intro v hv
    obtain ⟨r, _, rfl⟩ := List.mem_map.mp hv
    rfl)]
  unfold mergePlain
  rw [allNd?_map_nd (fun r : List SliceKey => [r.length])]
  cases ds with
  | nil => exact absurd rfl hdne
  | cons d ds =>
    simp only [List.map_cons]
    by_cases hany : ((ds.map fun r => (([r.length], r) : List ℕ × List SliceKey)).any
        fun a => decide (a.1 ≠ [d.length])) = true
    · rw [if_pos hany]
      obtain ⟨t, m, e1, e2, _⟩ := C14_encode
        ((([d.length], d) :: ds.map fun r => ([r.length], r)).map squeezeRow) (by
          intro r hr
          have hr' : r ∈ ((d :: ds).map fun r => (([r.length], r) : List ℕ × List SliceKey)).map squeezeRow := by
            simpa using hr
          rw [List.map_map, List.mem_map] at hr'
          obtain ⟨y, _, rfl⟩ := hr'
          right
          simp only [Function.comp, squeezeRow]
          exact Nat.le_trans (List.length_filter_le _ _) (by simp))
      rw [List.map_cons] at e1
      rw [e1]
      refine ⟨_, rfl, ?_⟩
      simp only [sliceKeys, e2]
      simp [squeezeRow, Function.comp_def]
    · rw [if_neg hany]
      simp only [List.map_map, Function.comp_def, List.map_id']
      split
      · exact ⟨_, rfl, by simp [sliceKeys]⟩
      · exact ⟨_, rfl, by simp [sliceKeys]⟩

private theorem mergeGroup_ok {es : List (Example ν α)} (hne : es ≠ []) {m : Merged α} (h : mergeGroup es = .ok m) :
    sliceKeys m.slices = .ok (es.map Example.slices).flatten ∧
      mergeExtracts true (es.map Example.extracts) = .ok m.extracts := by
  obtain ⟨v, h1, h2⟩ := mergedSlices es hne
  unfold mergeGroup at h
  rw [h1] at h
  cases h3 : mergeExtracts true (es.map Example.extracts) with
  | error err => rw [h3] at h; cases h
  | ok x =>
    rw [h3] at h
    simp only [Except.ok.injEq] at h
    subst h
    exact ⟨h2, rfl⟩

private theorem filter_map_pair {β : Type} (p : SliceKey → Bool) (l : List SliceKey) (x : β) :
    (((l.map fun k => (k, x)).filter fun q => p q.1).map Prod.snd) = List.replicate (l.countP p) x := by
  induction l with
  | nil => simp
  | cons k l ih =>
    by_cases h : p k = true
    · simp [h, ih, List.replicate_succ]
    · simp [h, ih]

private theorem records_fanout {es : List (Example ν α)} {m : Merged α} {ps} (k : SliceKey)
    (hs : sliceKeys m.slices = .ok (es.map Example.slices).flatten) (h : fanoutMerged m = .ok ps) :
    recordsOf k ps = if QueryInSlice k es then [m.extracts] else [] := by
  unfold fanoutMerged at h
  rw [hs] at h
  simp only [Except.ok.injEq] at h
  subst h
  unfold recordsOf
  rw [filter_map_pair (fun k' => decide (SameKey k k')), keySet_count]
  have he : (∃ k' ∈ (es.map Example.slices).flatten, SameKey k k') ↔ QueryInSlice k es := by
    unfold QueryInSlice InSlice
    constructor
    · rintro ⟨k', hk', hs⟩
      obtain ⟨l, hl, hkl⟩ := List.mem_flatten.1 hk'
      obtain ⟨e, he, rfl⟩ := List.mem_map.1 hl
      exact ⟨e, he, k', hkl, hs⟩
    · rintro ⟨e, he, k', hk', hs⟩
      exact ⟨k', List.mem_flatten.2 ⟨_, List.mem_map_of_mem he, hk'⟩, hs⟩
  by_cases hq : QueryInSlice k es
  · rw [if_pos (he.2 hq), if_pos hq]; rfl
  · rw [if_neg (fun h => hq (he.1 h)), if_neg hq]; rfl

private theorem records_all {groups : List (String × List (Example ν α))} (hne : ∀ g ∈ groups, g.2 ≠ [])
    {merged : List (Merged α)} (h1 : mergeGroups groups = .ok merged) {out} (h2 : fanoutAll merged = .ok out)
    (k : SliceKey) :
    List.Forall₂ (fun g r => mergeExtracts true (g.2.map Example.extracts) = .ok r)
      (groups.filter fun g => decide (QueryInSlice k g.2)) (recordsOf k out) := by
  induction groups generalizing merged out with
  | nil =>
    simp only [mergeGroups, Except.ok.injEq] at h1; subst h1
    simp only [fanoutAll, Except.ok.injEq] at h2; subst h2
    simp [recordsOf]
  | cons g gs ih =>
    simp only [mergeGroups] at h1
    cases e1 : mergeGroup g.2 with
    | error err => rw [e1] at h1; cases h1
    | ok m =>
      cases e2 : mergeGroups gs with
      | error err => rw [e1, e2] at h1; cases h1
      | ok ms =>
        rw [e1, e2] at h1
        simp only [Except.ok.injEq] at h1
        subst h1
        simp only [fanoutAll] at h2
        cases e3 : fanoutMerged m with
        | error err => rw [e3] at h2; cases h2
        | ok ps =>
          cases e4 : fanoutAll ms with
          | error err => rw [e3, e4] at h2; cases h2
          | ok qs =>
            rw [e3, e4] at h2
            simp only [Except.ok.injEq] at h2
            subst h2
            have ih' := ih (fun g' hg' => hne g' (by simp [hg'])) e2 e4
            obtain ⟨hs, hx⟩ := mergeGroup_ok (hne g (by simp)) e1
            have hr := records_fanout k hs e3
            have happ : recordsOf k (ps ++ qs) = recordsOf k ps ++ recordsOf k qs := by simp [recordsOf]
            rw [happ, hr]
            by_cases hq : QueryInSlice k g.2
            · rw [if_pos hq, List.filter_cons, if_pos (by simpa using hq)]
              exact List.Forall₂.cons hx ih'
            · rw [if_neg hq, List.filter_cons, if_neg (by simpa using hq)]
              exact ih'

/-! ### the theorems -/

/-- **C125 (queries and slices).**  Whatever the runner does, the data is divided into queries, every example being in
the query it asks for and in no other.  A slice receives exactly one record for each query that has some example in the
slice, and none for the others; the record holds *all* the examples of the query, also those outside of the slice. -/
theorem C125_queries {text : ν → String} {data : List (Example ν α)} {out} (h : QueryRun text data out) :
    ∃ groups, IsGrouping text data groups ∧ ∀ k,
      List.Forall₂ (fun g r => mergeExtracts true (g.2.map Example.extracts) = .ok r)
        (groups.filter fun g => decide (QueryInSlice k g.2)) (recordsOf k out) := by
  obtain ⟨keyed, groups, merged, h1, h2, h3, h4⟩ := h
  have hg := grouping_of h1 h2
  exact ⟨groups, hg, fun k => records_all hg.nonempty h3 h4 k⟩

/-- **C125 (two examples).**  In a grouping two examples are in the same query exactly if they ask for the same text. -/
theorem C125_same_query {text : ν → String} {data : List (Example ν α)} {groups}
    (h : IsGrouping text data groups) {e e' : Example ν α} (he : e ∈ data) (he' : e' ∈ data) :
    (∃ q, Asks text q e ∧ Asks text q e') ↔ ∃ g ∈ groups, e ∈ g.2 ∧ e' ∈ g.2 := by
  have huniq : ∀ {q q' : String} {x : Example ν α}, Asks text q x → Asks text q' x → q = q' := by
    intro q q' x h1 h2
    have h1 := queryKey_ok.2 h1
    have h2 := queryKey_ok.2 h2
    rw [h1] at h2; cases h2; rfl
  have hfind : ∀ x ∈ data, ∃ g ∈ groups, x ∈ g.2 := by
    intro x hx
    obtain ⟨l, hl, hxl⟩ := List.mem_flatten.1 (h.all.mem_iff.2 hx)
    obtain ⟨g, hg, rfl⟩ := List.mem_map.1 hl
    exact ⟨g, hg, hxl⟩
  constructor
  · rintro ⟨q, h1, h2⟩
    obtain ⟨g, hg, heg⟩ := hfind e he
    obtain ⟨g', hg', heg'⟩ := hfind e' he'
    have e1 := huniq (h.asks g hg e heg) h1
    have e2 := huniq (h.asks g' hg' e' heg') h2
    have : g = g' := List.inj_on_of_nodup_map h.distinct hg hg' (e1.trans e2.symm)
    subst this
    exact ⟨g, hg, heg, heg'⟩
  · rintro ⟨g, hg, h1, h2⟩
    exact ⟨g.1, h.asks g hg e h1, h.asks g hg e' h2⟩

/-- **C125 (refusal).**  If some example has a query feature with no value or with several values, nothing is
computed. -/
theorem C125_refused (text : ν → String) (data : List (Example ν α)) (e : Example ν α) (he : e ∈ data)
    (vs : List ν) (hq : e.query = some vs) (hn : vs.length ≠ 1) (out) : ¬ QueryRun text data out := by
  rintro ⟨keyed, _, _, h1, _⟩
  obtain ⟨hd, ha⟩ := keyByQuery_ok h1
  rw [← hd] at he
  obtain ⟨p, hp, rfl⟩ := List.mem_map.1 he
  rcases ha p hp with ⟨h, _⟩ | ⟨v, h, _⟩
  · rw [hq] at h; cases h
  · rw [hq] at h; cases h; exact hn rfl

/-! ### the number of documents -/

private theorem mergeItems_find (n i : ℕ) (target : Forest (List (Leaf α))) (f : Forest (Leaf α))
    (target' : Forest (List (Leaf α))) (h : mergeItems n i target f = .ok target') (hw : f.WF) (k : String) :
    (f.find? k = none → target'.find? k = target.find? k) ∧
    ∀ v, f.find? k = some (.leaf v) →
      (target.find? k = none → target'.find? k = some (.leaf ((List.replicate n (Leaf.nd [0] [])).set i v))) ∧
      ∀ l, target.find? k = some (.leaf l) → target'.find? k = some (.leaf (l.set i v)) := by
  match f with
  | .nil =>
    simp only [mergeItems, Except.ok.injEq] at h
    subst h
    simp [Forest.find?]
  | .cons k' t rest =>
    simp only [mergeItems] at h
    cases h1 : mergeTree n i target k' t with
    | error err => rw [h1] at h; cases h
    | ok t1 =>
      rw [h1] at h
      simp only at h
      unfold Forest.WF at hw
      obtain ⟨i1, i2⟩ := mergeItems_find n i t1 rest target' h hw.2.2 k
      have hother : k' ≠ k → t1.find? k = target.find? k := by
        intro hne
        cases t with
        | leaf v =>
          simp only [mergeTree] at h1
          split at h1
          · simp only [Except.ok.injEq] at h1; subst h1; simp [Forest.find?_set, hne]
          · simp only [Except.ok.injEq] at h1; subst h1; simp [Forest.find?_set, hne]
          · cases h1
        | node g =>
          simp only [mergeTree] at h1
          split at h1
          · split at h1
            · cases h1
            · simp only [Except.ok.injEq] at h1; subst h1; simp [Forest.find?_set, hne]
          · split at h1
            · cases h1
            · simp only [Except.ok.injEq] at h1; subst h1; simp [Forest.find?_set, hne]
          · cases h1
      by_cases hk : k' = k
      · subst hk
        have hrest : rest.find? k' = none := (Forest.find?_eq_none_iff _ _).2 hw.1
        rw [i1 hrest]
        refine ⟨by simp [Forest.find?], ?_⟩
        intro v hv
        simp only [Forest.find?, if_true, Option.some.injEq] at hv
        subst hv
        simp only [mergeTree] at h1
        refine ⟨?_, ?_⟩
        · intro hn
          rw [hn] at h1
          simp only [Except.ok.injEq] at h1; subst h1
          simp [Forest.find?_set]
        · intro l hl
          rw [hl] at h1
          simp only [Except.ok.injEq] at h1; subst h1
          simp [Forest.find?_set]
      · simp only [Forest.find?, hk, if_false]
        rw [← hother hk]
        exact ⟨i1, i2⟩

/-- The list built for a key whose values are arrays of one shape. -/
private def Filled (shape : List ℕ) (n i : ℕ) (l : List (Leaf α)) : Prop :=
  l.length = n ∧ ∀ j < i, ∃ d, l[j]? = some (.nd shape d)

private theorem filled_set {shape : List ℕ} {n i : ℕ} {l : List (Leaf α)} {d : List α} (hi : i < n)
    (h : Filled shape n i l) : Filled shape n (i + 1) (l.set i (.nd shape d)) := by
  refine ⟨by simp [h.1], ?_⟩
  intro j hj
  by_cases hji : j = i
  · subst hji
    exact ⟨d, by rw [List.getElem?_set_self]; rw [h.1]; exact hi⟩
  · obtain ⟨d', hd'⟩ := h.2 j (by omega)
    exact ⟨d', by rw [List.getElem?_set_ne (by omega)]; exact hd'⟩

private theorem mergeAll_find (n : ℕ) (shape : List ℕ) (k : String) (xs : List (Forest (Leaf α))) :
    ∀ (i : ℕ) (target target' : Forest (List (Leaf α))), mergeAll n i target xs = .ok target' →
      (∀ x ∈ xs, x.WF ∧ ∃ d, x.find? k = some (.leaf (.nd shape d))) → i + xs.length ≤ n →
      ((i = 0 ∧ target.find? k = none ∧ xs ≠ []) ∨ ∃ l, target.find? k = some (.leaf l) ∧ Filled shape n i l) →
      ∃ l, target'.find? k = some (.leaf l) ∧ Filled shape n (i + xs.length) l := by
  induction xs with
  | nil =>
    intro i target target' h _ _ h0
    simp only [mergeAll, Except.ok.injEq] at h
    subst h
    rcases h0 with ⟨_, _, h⟩ | h
    · exact absurd rfl h
    · simpa using h
  | cons x xs ih =>
    intro i target target' h hx hn h0
    simp only [mergeAll] at h
    cases h1 : mergeItems n i target x with
    | error err => rw [h1] at h; cases h
    | ok t1 =>
      rw [h1] at h
      simp only at h
      obtain ⟨hw, d, hd⟩ := hx x (by simp)
      obtain ⟨_, hf⟩ := mergeItems_find n i target x t1 h1 hw k
      obtain ⟨f1, f2⟩ := hf _ hd
      simp only [List.length_cons] at hn ⊢
      obtain ⟨l, hl1, hl2⟩ := ih (i + 1) t1 target' h (fun y hy => hx y (by simp [hy])) (by omega) (Or.inr (by
        rcases h0 with ⟨rfl, h0, _⟩ | ⟨l, h0, hl⟩
        · exact ⟨_, f1 h0, filled_set (by omega) ⟨by simp, by omega⟩⟩
        · exact ⟨_, f2 l h0, filled_set (by omega) hl⟩))
      exact ⟨l, hl1, by rw [show i + (xs.length + 1) = i + 1 + xs.length by omega]; exact hl2⟩

private theorem mergeListsItems_find (sq : Bool) (k : String) (f : Forest (List (Leaf α))) (g : Forest (Leaf α))
    (h : mergeListsItems sq f = .ok g) (l : List (Leaf α)) (hl : f.find? k = some (.leaf l)) :
    ∃ v, mergeLeaf sq l = .ok v ∧ g.find? k = some (.leaf v) := by
  match f with
  | .nil => simp [Forest.find?] at hl
  | .cons k' t rest =>
    simp only [mergeListsItems] at h
    cases h1 : mergeListsTree sq t with
    | error err => rw [h1] at h; cases h
    | ok t1 =>
      cases h2 : mergeListsItems sq rest with
      | error err => rw [h1, h2] at h; cases h
      | ok r1 =>
        rw [h1, h2] at h
        simp only [Except.ok.injEq] at h
        subst h
        by_cases hk : k' = k
        · subst hk
          simp only [Forest.find?, if_true, Option.some.injEq] at hl ⊢
          subst hl
          simp only [mergeListsTree] at h1
          cases h3 : mergeLeaf sq l with
          | error err => rw [h3] at h1; cases h1
          | ok v =>
            rw [h3] at h1
            simp only [Except.ok.injEq] at h1
            exact ⟨v, rfl, h1.symm⟩
        · simp only [Forest.find?, hk, if_false] at hl ⊢
          exact mergeListsItems_find sq k rest r1 h2 l hl

private theorem all_nd (shape : List ℕ) (l : List (Leaf α)) (h : ∀ x ∈ l, ∃ d, x = Leaf.nd shape d) :
    ∃ ds : List (List α), l = ds.map (Leaf.nd shape) := by
  induction l with
  | nil => exact ⟨[], rfl⟩
  | cons x l ih =>
    obtain ⟨d, rfl⟩ := h x (by simp)
    obtain ⟨ds, rfl⟩ := ih fun y hy => h y (by simp [hy])
    exact ⟨d :: ds, rfl⟩

/-- **C125 (documents).**  If the predictions of the examples of a query are arrays of one shape (one model with one
output) then the number of documents of the query is the number of its examples. -/
theorem C125_documents_partial (es : List (Example ν α)) (hne : es ≠ []) (shape : List ℕ)
    (h : ∀ e ∈ es, e.extracts.WF ∧ ∃ d, e.extracts.find? "predictions" = some (.leaf (.nd shape d)))
    {r} (hr : mergeExtracts true (es.map Example.extracts) = .ok r) : documents r = .ok es.length := by
  unfold mergeExtracts at hr
  cases h1 : mergeAll (es.map Example.extracts).length 0 .nil (es.map Example.extracts) with
  | error err => rw [h1] at hr; cases hr
  | ok target =>
    rw [h1] at hr
    simp only at hr
    obtain ⟨l, hl1, hl2, hl3⟩ := mergeAll_find _ shape "predictions" _ 0 .nil target h1 (by
      intro x hx
      obtain ⟨e, he, rfl⟩ := List.mem_map.1 hx
      exact h e he) (by simp) (Or.inl ⟨rfl, by simp [Forest.find?], by simpa using hne⟩)
    obtain ⟨v, hv1, hv2⟩ := mergeListsItems_find true "predictions" target r hr l hl1
    obtain ⟨ds, hds⟩ := all_nd shape l (by
      intro x hx
      obtain ⟨j, hj, rfl⟩ := List.mem_iff_getElem.1 hx
      obtain ⟨d, hd⟩ := hl3 j (by rw [← Nat.zero_add (List.length _)] at *; omega)
      rw [List.getElem?_eq_getElem hj] at hd
      exact ⟨d, Option.some.inj hd⟩)
    have hlen : ds.length = es.length := by
      have : l.length = es.length := by simpa using hl2
      rw [← this, hds]; simp
    have hdne : ds ≠ [] := by
      intro e
      rw [e] at hlen
      exact hne (List.eq_nil_of_length_eq_zero hlen.symm)
    rw [hds, mergeLeaf_nd true shape ds hdne, Except.ok.injEq] at hv1
    unfold documents
    rw [hv2]
    split at hv1 <;> (subst hv1; simp [hlen])


private theorem addAll_ok (xs : List (Except Err (List (ℕ × ℚ)))) (h : ∀ x ∈ xs, ∃ l, x = .ok l)
    (a : Combiners.QueryAcc) : ∃ b, Combiners.queryCombiner.addAll a xs = .ok b := by
  induction xs generalizing a with
  | nil => exact ⟨a, rfl⟩
  | cons x xs ih =>
    obtain ⟨l, rfl⟩ := h x (by simp)
    have hl : ∀ (l : List (ℕ × ℚ)) a, ∃ b, loop (fun a t => .ok (Combiners.queryStep a t)) a l = .ok b := by
      intro l
      induction l with
      | nil => intro a; exact ⟨a, rfl⟩
      | cons t ts ih => intro a; simp only [loop, bind, Except.bind]; exact ih _
    obtain ⟨b, hb⟩ := hl l a
    simp only [CombineFn.addAll, Combiners.queryCombiner, Except.bind, hb, bind]
    exact ih (fun y hy => h y (by simp [hy])) b

private theorem allFlat_single (gs : List (String × List (Example ν α))) :
    allFlat (gs.map fun g => (.ok [(g.2.length, 1)] : Except Err (List (ℕ × ℚ)))) =
      some (gs.map fun g => (g.2.length, (1 : ℚ))) := by
  induction gs with
  | nil => rfl
  | cons g gs ih => simp [allFlat, ih]

/-- **C125 (query statistics).**  If the predictions of all the examples are arrays of one shape and there are no
example weights, then for each slice, whatever the runner does, `total_queries` is the number of queries with some
example in the slice, and `total_documents` is the number of all the examples of these queries. -/
theorem C125_statistics_partial {text : ν → String} {data : List (Example ν α)} {out} (h : QueryRun text data out)
    (shape : List ℕ)
    (hp : ∀ e ∈ data, e.extracts.WF ∧ ∃ d, e.extracts.find? "predictions" = some (.leaf (.nd shape d))) :
    ∃ groups, IsGrouping text data groups ∧ ∀ (k : SliceKey) (s : Sched _),
      s.inputs.Perm ((recordsOf k out).map statisticsInput) →
      ∃ a, Combiners.queryCombiner.run s = .ok a ∧
        a.queries = ((groups.filter fun g => decide (QueryInSlice k g.2)).length : ℚ) ∧
        a.documents = (((groups.filter fun g => decide (QueryInSlice k g.2)).map fun g => g.2.length).sum : ℕ) := by
  obtain ⟨groups, hg, hr⟩ := C125_queries h
  refine ⟨groups, hg, fun k s hs => ?_⟩
  have hin : (recordsOf k out).map statisticsInput =
      (groups.filter fun g => decide (QueryInSlice k g.2)).map fun g => .ok [(g.2.length, 1)] := by
    have hk := hr k
    have hsub : ∀ g ∈ groups.filter fun g => decide (QueryInSlice k g.2), g ∈ groups := fun g hg =>
      (List.mem_filter.1 hg).1
    generalize groups.filter (fun g => decide (QueryInSlice k g.2)) = gs at hk hsub
    generalize recordsOf k out = rs at hk
    clear hs
    induction hk with
    | nil => rfl
    | @cons g r gs rs hgr _ ih =>
      have hgm := hsub g (by simp)
      have hd := C125_documents_partial g.2 (hg.nonempty g hgm) shape (fun e he => hp e (hg.all.mem_iff.1
        (List.mem_flatten.2 ⟨g.2, List.mem_map_of_mem hgm, he⟩))) hgr
      simp only [List.map_cons]
      rw [ih fun g' hg' => hsub g' (by simp [hg'])]
      simp [statisticsInput, hd]
  rw [hin] at hs
  obtain ⟨b, hb⟩ := addAll_ok ((groups.filter fun g => decide (QueryInSlice k g.2)).map
      fun g => (.ok [(g.2.length, 1)] : Except Err (List (ℕ × ℚ)))) (by
    intro x hx
    obtain ⟨g, _, rfl⟩ := List.mem_map.1 hx
    exact ⟨_, rfl⟩) Combiners.queryCombiner.create
  have htot := Combiners.C15_query_statistics _ s hs
  have hb' : Combiners.queryCombiner.run (.bundle ((groups.filter fun g => decide (QueryInSlice k g.2)).map
      fun g => (.ok [(g.2.length, 1)] : Except Err (List (ℕ × ℚ))))) = .ok b := hb
  rw [hb'] at htot
  cases hrun : Combiners.queryCombiner.run s with
  | error err => rw [hrun] at htot; cases htot
  | ok a =>
    obtain ⟨ts, ht, h1, h2, _⟩ := Combiners.C15_query_statistics_value _ s hs a hrun
    refine ⟨a, rfl, ?_⟩
    rw [allFlat_single] at ht
    cases ht
    rw [h1, h2]
    refine ⟨by simp [Function.comp_def], ?_⟩
    generalize groups.filter (fun g => decide (QueryInSlice k g.2)) = gs
    induction gs with
    | nil => simp
    | cons g gs ih =>
      simp only [List.map_cons, List.sum_cons, Nat.cast_add] at ih ⊢
      rw [ih, mul_one]

/-! ### the specs -/

private theorem addSpec_mem (key : String) (spec : σ) (gs : List (String × List σ)) :
    (addSpec key spec gs).map Prod.fst = if key ∈ gs.map Prod.fst then gs.map Prod.fst else gs.map Prod.fst ++ [key] := by
  induction gs with
  | nil => simp [addSpec]
  | cons g gs ih =>
    rcases g with ⟨k, l⟩
    by_cases h : k = key
    · simp [addSpec, h]
    · simp only [addSpec, h, if_false, List.map_cons, ih, List.mem_cons, Ne.symm h, false_or]
      split <;> simp

/-- What the groups are after the loop. -/
private def Grouped (queryKeyOf : σ → String) (specs : List σ) (gs : List (String × List σ)) : Prop :=
  (gs.map Prod.fst).Nodup ∧ (∀ s ∈ specs, queryKeyOf s ∈ gs.map Prod.fst) ∧
    ∀ g ∈ gs, g.2 = specs.filter (fun s => decide (queryKeyOf s = g.1)) ∧ g.2 ≠ []

private theorem addSpec_other {key : String} {spec : σ} {gs : List (String × List σ)} {g : String × List σ}
    (hn : (gs.map Prod.fst).Nodup) (hg : g ∈ addSpec key spec gs) :
    (g.1 = key ∧ ((∃ l, (key, l) ∈ gs ∧ g.2 = l ++ [spec]) ∨ (key ∉ gs.map Prod.fst ∧ g.2 = [spec]))) ∨
      (g.1 ≠ key ∧ g ∈ gs) := by
  induction gs with
  | nil => simp only [addSpec, List.mem_singleton] at hg; subst hg; simp
  | cons g0 gs ih =>
    rcases g0 with ⟨k, l⟩
    simp only [List.map_cons, List.nodup_cons] at hn
    by_cases h : k = key
    · subst h
      simp only [addSpec, if_true, List.mem_cons] at hg
      rcases hg with rfl | hg
      · exact Or.inl ⟨rfl, Or.inl ⟨l, by simp, rfl⟩⟩
      · right
        refine ⟨?_, by simp [hg]⟩
        intro e
        exact hn.1 (e ▸ List.mem_map_of_mem hg)
    · simp only [addSpec, h, if_false, List.mem_cons] at hg
      rcases hg with rfl | hg
      · exact Or.inr ⟨h, by simp⟩
      · rcases ih hn.2 hg with ⟨e, ⟨l', h1, h2⟩ | ⟨h1, h2⟩⟩ | ⟨e, h1⟩
        · exact Or.inl ⟨e, Or.inl ⟨l', by simp [h1], h2⟩⟩
        · exact Or.inl ⟨e, Or.inr ⟨by simp only [List.map_cons, List.mem_cons, not_or]; exact ⟨Ne.symm h, h1⟩, h2⟩⟩
        · exact Or.inr ⟨e, by simp [h1]⟩

private theorem grouped_foldl (queryKeyOf : σ → String) (specs done : List σ) (gs : List (String × List σ))
    (h : Grouped queryKeyOf done gs) :
    Grouped queryKeyOf (done ++ specs) (specs.foldl (fun gs s => addSpec (queryKeyOf s) s gs) gs) := by
  induction specs generalizing done gs with
  | nil => simpa using h
  | cons s specs ih =>
    rw [List.foldl_cons]
    have := ih (done ++ [s]) (addSpec (queryKeyOf s) s gs) ?_
    · simpa using this
    obtain ⟨h1, h2, h3⟩ := h
    have hk := addSpec_mem (queryKeyOf s) s gs
    refine ⟨?_, ?_, ?_⟩
    · rw [hk]
      split
      · exact h1
      · rename_i hnot
        exact List.nodup_append.2 ⟨h1, by simp, by
          intro a ha b hb
          rw [List.mem_singleton] at hb
          subst hb
          exact fun e => hnot (e ▸ ha)⟩
    · intro x hx
      rw [hk]
      rcases List.mem_append.1 hx with hx | hx
      · have := h2 x hx
        split
        · exact this
        · exact List.mem_append_left _ this
      · rw [List.mem_singleton] at hx
        subst hx
        split
        · assumption
        · simp
    · intro g hg
      rcases addSpec_other h1 hg with ⟨e, ⟨l, h5, h6⟩ | ⟨h5, h6⟩⟩ | ⟨e, h5⟩
      · have := (h3 _ h5).1
        simp only at this
        rw [h6, this]
        simp [List.filter_append, e]
      · have hnone : done.filter (fun s' => decide (queryKeyOf s' = g.1)) = [] := by
          rw [List.filter_eq_nil_iff]
          intro x hx
          simp only [decide_eq_true_eq]
          intro hxe
          exact h5 (e ▸ hxe ▸ h2 x hx)
        rw [h6, List.filter_append, hnone]
        simp [e]
      · rw [List.filter_append, ← (h3 g h5).1]
        simp [Ne.symm e, (h3 g h5).2]

/-- **C125 (specs).**  Each query key among the specs gets one evaluation, which has exactly the specs with this key in
their order and groups by the key; specs without query key are evaluated on the examples themselves. -/
theorem C125_specs (queryKeyOf : σ → String) (empty : σ) (option : Option Bool) (specs : List σ) (hne : specs ≠ []) :
    let js := jobs queryKeyOf empty option specs
    (js.map Job.groupBy).Nodup ∧
    (∀ s ∈ specs, (if queryKeyOf s = "" then none else some (queryKeyOf s)) ∈ js.map Job.groupBy) ∧
    ∀ j ∈ js, j.groupBy ≠ some "" ∧ j.specs ≠ [] ∧
      j.specs = specs.filter fun s => decide (queryKeyOf s = j.groupBy.getD "") := by
  have hg := grouped_foldl queryKeyOf specs [] [] ⟨by simp, by simp, by simp⟩
  rw [List.nil_append] at hg
  unfold jobs
  simp only
  generalize specs.foldl (fun gs s => addSpec (queryKeyOf s) s gs) [] = gs at hg
  obtain ⟨h1, h2, h3⟩ := hg
  have hgne : gs ≠ [] := by
    rintro rfl
    obtain ⟨s, hs⟩ := List.exists_mem_of_ne_nil specs hne
    simpa using h2 s hs
  have hemp : gs.isEmpty = false := by cases gs <;> simp_all
  simp only [hemp, Bool.false_eq_true, if_false]
  have hgb : ∀ g : String × List σ, (jobOf option g).groupBy = if g.1 = "" then none else some g.1 := by
    intro g; unfold jobOf; split <;> rfl
  have hsp : ∀ g : String × List σ, (jobOf option g).specs = g.2 := by
    intro g; unfold jobOf; split <;> rfl
  refine ⟨?_, ?_, ?_⟩
  · rw [List.map_map]
    have : (Job.groupBy ∘ jobOf option : String × List σ → Option String) =
        (fun k : String => if k = "" then none else some k) ∘ Prod.fst := by
      funext g; simp [hgb]
    rw [this, ← List.map_map]
    refine h1.map ?_
    intro a b hab
    simp only at hab
    split at hab <;> split at hab <;> simp_all
  · intro s hs
    obtain ⟨g, hg, hge⟩ := List.mem_map.1 (h2 s hs)
    rw [List.map_map]
    refine List.mem_map.2 ⟨g, hg, ?_⟩
    simp [hgb, hge]
  · intro j hj
    obtain ⟨g, hg, rfl⟩ := List.mem_map.1 hj
    obtain ⟨h4, h5⟩ := h3 g hg
    rw [hgb, hsp]
    refine ⟨by split <;> simp_all, h5, ?_⟩
    rw [h4]
    apply List.filter_congr
    intro s _
    by_cases hz : g.1 = "" <;> simp [hz]

/-- **C125 (no specs).**  Without specs there is one evaluation, for the metrics saved with the models. -/
theorem C125_no_specs (queryKeyOf : σ → String) (empty : σ) (option : Option Bool) :
    jobs queryKeyOf empty option [] = [⟨none, [empty], option.getD true⟩] := rfl

/-- **C125 (metrics saved with the models).**  They are computed exactly if the option does not forbid it and there are
no specs at all or some spec has no query key: with query keys in all specs they are dropped without notice. -/
theorem C125_default_metrics (queryKeyOf : σ → String) (empty : σ) (option : Option Bool) (specs : List σ) :
    (∃ j ∈ jobs queryKeyOf empty option specs, j.includeDefault = true) ↔
      option ≠ some false ∧ (specs = [] ∨ ∃ s ∈ specs, queryKeyOf s = "") := by
  by_cases hne : specs = []
  · subst hne
    rw [C125_no_specs]
    rcases option with _ | _ | _ <;> simp
  · obtain ⟨_, h2, h3⟩ := C125_specs queryKeyOf empty option specs hne
    have hinc : ∀ j ∈ jobs queryKeyOf empty option specs,
        j.includeDefault = (j.groupBy.isNone && option.getD true) := by
      intro j hj
      unfold jobs at hj
      obtain ⟨g, _, rfl⟩ := List.mem_map.1 hj
      unfold jobOf
      split <;> simp
    have hopt : option.getD true = true ↔ option ≠ some false := by rcases option with _ | _ | _ <;> simp
    simp only [hne, false_or]
    constructor
    · rintro ⟨j, hj, hi⟩
      rw [hinc j hj, Bool.and_eq_true] at hi
      obtain ⟨_, h5, h6⟩ := h3 j hj
      obtain ⟨s, hs⟩ := List.exists_mem_of_ne_nil _ h5
      rw [h6, List.mem_filter] at hs
      have hnone : j.groupBy = none := by simpa using hi.1
      rw [hnone] at hs
      exact ⟨hopt.1 hi.2, s, hs.1, by simpa using hs.2⟩
    · rintro ⟨ho, s, hs, he⟩
      have := h2 s hs
      rw [if_pos he] at this
      obtain ⟨j, hj, hjn⟩ := List.mem_map.1 this
      exact ⟨j, hj, by rw [hinc j hj, hjn]; simp [hopt.2 ho]⟩


/-! ### where the claims fail, and concrete cases -/

/-- **C125 (documents) fails with several models**: the predictions of a query are then a dictionary with one entry for
each model, and it is the models that are counted.  Three examples of two models count as two documents. -/
theorem C125_documents_models_fails :
    ∃ r, mergeExtracts true (List.replicate 3 (.cons "predictions"
        (.node (.cons "a" (.leaf (.nd [1] [1])) (.cons "b" (.leaf (.nd [1] [2])) .nil))) .nil : Forest (Leaf ℕ))) =
          .ok r ∧ documents r = .ok 2 :=
  ⟨_, rfl, rfl⟩

/-- **C125 (documents) fails with predictions of different lengths**: the merged predictions are then a tuple of three
fields, and any number of examples counts as three documents. -/
theorem C125_documents_lengths_fails :
    ∃ r, mergeExtracts true [(.cons "predictions" (.leaf (.nd [1] [1])) .nil : Forest (Leaf ℕ)),
        .cons "predictions" (.leaf (.nd [2] [1, 2])) .nil] = .ok r ∧ documents r = .ok 3 :=
  ⟨_, rfl, rfl⟩

/-- `f"{v}"` for numbers and texts (in the examples below a value is a number or a text). -/
private def printed : ℕ ⊕ String → String
  | .inl n => toString n
  | .inr s => s

private def demoExample (q : Option (List (ℕ ⊕ String))) (ks : List SliceKey) (x : ℕ) : Example (ℕ ⊕ String) ℕ :=
  ⟨q, ks, .cons "predictions" (.leaf (.nd [1] [x])) .nil⟩

private def us : SliceKey := [("country", .str "us")]
private def fr : SliceKey := [("country", .str "fr")]

/-- query 7 has an example in "us" and one in "fr"; the third example prints its text as "7" too; the fourth has no
query feature, the fifth has the empty text. -/
private def demoData : List (Example (ℕ ⊕ String) ℕ) :=
  [demoExample (some [.inl 7]) [[], us] 1, demoExample (some [.inl 8]) [[], fr] 2,
   demoExample (some [.inr "7"]) [[], fr] 3, demoExample none [[]] 4, demoExample (some [.inr ""]) [[]] 5]

private def demoGroups : List (String × List (Example (ℕ ⊕ String) ℕ)) :=
  [("7", [demoExample (some [.inl 7]) [[], us] 1, demoExample (some [.inr "7"]) [[], fr] 3]),
   ("8", [demoExample (some [.inl 8]) [[], fr] 2]),
   ("", [demoExample none [[]] 4, demoExample (some [.inr ""]) [[]] 5])]

private def demoKeyed : List (String × Example (ℕ ⊕ String) ℕ) :=
  [("7", demoExample (some [.inl 7]) [[], us] 1), ("8", demoExample (some [.inl 8]) [[], fr] 2),
   ("7", demoExample (some [.inr "7"]) [[], fr] 3), ("", demoExample none [[]] 4),
   ("", demoExample (some [.inr ""]) [[]] 5)]

private theorem demoCombines : CombinesPerKey toListCombineFn demoKeyed demoGroups := by
  refine ⟨by decide, ?_, ?_⟩
  · intro k
    simp [demoGroups, demoKeyed]
    tauto
  · intro k a h
    simp only [demoGroups, List.mem_cons, Prod.mk.injEq, List.not_mem_nil, or_false] at h
    rcases h with ⟨rfl, rfl⟩ | ⟨rfl, rfl⟩ | ⟨rfl, rfl⟩
    · exact ⟨.bundle _, .of_eq rfl, rfl⟩
    · exact ⟨.bundle _, .of_eq rfl, rfl⟩
    · exact ⟨.bundle _, .of_eq rfl, rfl⟩

private theorem demoRun : ∃ out, QueryRun printed demoData out ∧
    (recordsOf fr out).map documents = [.ok 2, .ok 1] ∧ (recordsOf us out).map documents = [.ok 2] ∧
    (recordsOf [] out).map documents = [.ok 2, .ok 1, .ok 2] :=
  ⟨_, ⟨demoKeyed, demoGroups, _, rfl, demoCombines, rfl, rfl⟩, rfl, rfl, rfl⟩

/-- the hypotheses of `C125_queries` and `C125_statistics_partial` are met: the query 7 counts with both its examples in the
slices "us" and "fr". -/
example : ∃ out, QueryRun printed demoData out ∧
    ∀ e ∈ demoData, e.extracts.WF ∧ ∃ d, e.extracts.find? "predictions" = some (.leaf (.nd [1] d)) := by
  obtain ⟨out, h, _⟩ := demoRun
  refine ⟨out, h, ?_⟩
  intro e he
  simp only [demoData, List.mem_cons, List.not_mem_nil, or_false] at he
  rcases he with rfl | rfl | rfl | rfl | rfl <;>
    exact ⟨by simp [demoExample, Forest.WF, Tree.WF, Forest.keys], _, rfl⟩

/-- `C125_refused`: an example with two values. -/
example (out) : ¬ QueryRun printed (demoExample (some [.inl 1, .inl 2]) [] 0 :: demoData) out :=
  C125_refused printed _ (demoExample (some [.inl 1, .inl 2]) [] 0) (by simp) _ rfl (by decide) out

/-- specs as pairs of query key and name. -/
example : jobs (σ := String × String) Prod.fst ("", "") none [("q", "ndcg"), ("", "auc"), ("q", "stats")] =
    [⟨some "q", [("q", "ndcg"), ("q", "stats")], false⟩, ⟨none, [("", "auc")], true⟩] := by decide

/-- the metrics saved with the models are lost if all specs have a query key, although the option is on. -/
theorem C125_default_metrics_fails :
    ¬ ∃ j ∈ jobs (σ := String × String) Prod.fst ("", "") (some true) [("q", "ndcg")], j.includeDefault = true := by
  decide

end Queries
end TFMA
