import Verif.Props.Evaluate

/-!
# C32, C33: differences between models and between slices
-/

namespace TFMA
namespace Evaluate

open Slicer MetricKeys

variable {V : Type}

/-! ### C32: diff metrics -/

/-- The metric `k` with value `v` is compared to the value `w` of the baseline model `b`: it is not private, not itself a
difference, belongs to another model, and its value supports subtraction. -/
def Compared (ops : Ops V) (b : String) (d : Results V) (k : MetricKey) (kd : Kind) (v w : V) : Prop :=
  Dict.get? d k = some (kd, v) ∧ ¬ PrivateName k.name ∧ k.isDiff = false ∧ k.modelName ≠ b ∧
    (∃ kd', Dict.get? d { k with modelName := b, isDiff := false } = some (kd', w)) ∧ ops.diffable v = true

private theorem makeDiff_inj {k k' : MetricKey} (h : k.isDiff = false) (h' : k'.isDiff = false)
    (he : k.makeDiffKey = k'.makeDiffKey) : k = k' := by
  cases k; cases k'
  simp only [MetricKey.makeDiffKey, MetricKey.mk.injEq] at he h h'
  simp_all

private theorem diffLoop_spec (ops : Ops V) (b : String) (all items acc r : Results V) (hwf : Dict.WF items)
    (hsub : ∀ p ∈ items, Dict.get? all p.1 = some p.2) (h : diffLoop ops b all items acc = .ok r) (key : MetricKey) :
    (∀ k kd v w, k ∈ Dict.keys items → Compared ops b all k kd v w → k.makeDiffKey = key →
      ∃ x, ops.sub v w = .ok x ∧ Dict.get? r key = some (((Dict.get? acc key).map Prod.fst).getD kd, x)) ∧
    ((∀ k kd v w, k ∈ Dict.keys items → Compared ops b all k kd v w → k.makeDiffKey ≠ key) →
      Dict.get? r key = Dict.get? acc key) := by
  induction items generalizing acc with
  | nil => cases h; exact ⟨fun k kd v w hk => (by cases hk), fun _ => rfl⟩
  | cons p items ih =>
    obtain ⟨k0, kd0, v0⟩ := p
    have hwf' : Dict.WF items := (List.nodup_cons.1 hwf).2
    have hnot : k0 ∉ Dict.keys items := (List.nodup_cons.1 hwf).1
    have hget0 : Dict.get? all k0 = some (kd0, v0) := hsub (k0, kd0, v0) (by simp)
    have hsub' : ∀ p ∈ items, Dict.get? all p.1 = some p.2 := fun p hp => hsub p (by simp [hp])
    have skip : (∀ kd v w, ¬ Compared ops b all k0 kd v w) → diffLoop ops b all items acc = .ok r →
        (∀ k kd v w, k ∈ Dict.keys ((k0, kd0, v0) :: items) → Compared ops b all k kd v w → k.makeDiffKey = key →
          ∃ x, ops.sub v w = .ok x ∧ Dict.get? r key = some (((Dict.get? acc key).map Prod.fst).getD kd, x)) ∧
        ((∀ k kd v w, k ∈ Dict.keys ((k0, kd0, v0) :: items) → Compared ops b all k kd v w → k.makeDiffKey ≠ key) →
          Dict.get? r key = Dict.get? acc key) := by
      intro hno h'
      obtain ⟨h1, h2⟩ := ih acc hwf' hsub' h'
      refine ⟨fun k kd v w hk hc => ?_, fun hall => h2 fun k kd v w hk => hall k kd v w (List.mem_cons_of_mem _ hk)⟩
      rcases List.mem_cons.1 hk with rfl | hk
      · exact absurd hc (hno kd v w)
      · exact h1 k kd v w hk hc
    unfold diffLoop at h
    by_cases hp : isPrivate k0 = true
    · rw [if_pos hp] at h
      exact skip (fun kd v w hc => hc.2.1 ((isPrivate_iff k0).1 hp)) h
    rw [if_neg hp] at h
    by_cases hd : k0.isDiff = true
    · rw [if_pos hd] at h
      exact skip (fun kd v w hc => by have := hc.2.2.1; rw [hd] at this; cases this) h
    rw [if_neg hd] at h
    by_cases hm : k0.modelName = b
    · rw [if_pos hm] at h
      exact skip (fun kd v w hc => hc.2.2.2.1 hm) h
    rw [if_neg hm] at h
    · cases hb : Dict.get? all (k0.makeBaselineKey b) with
      | none =>
        rw [hb] at h
        refine skip (fun kd v w hc => ?_) h
        obtain ⟨kd', hw⟩ := hc.2.2.2.2.1
        have : Dict.get? all (k0.makeBaselineKey b) = some (kd', w) := hw
        rw [hb] at this; cases this
      | some y =>
        obtain ⟨kdb, w0⟩ := y
        rw [hb] at h
        simp only at h
        by_cases hdf : ops.diffable v0 = true
        · rw [if_pos hdf] at h
          have hcomp : Compared ops b all k0 kd0 v0 w0 :=
            ⟨hget0, fun hp' => hp ((isPrivate_iff k0).2 hp'), by simpa using hd, hm, ⟨kdb, hb⟩, hdf⟩
          cases hs : ops.sub v0 w0 with
          | error e => rw [hs] at h; cases h
          | ok x =>
            rw [hs] at h
            obtain ⟨h1, h2⟩ := ih _ hwf' hsub' h
            constructor
            · intro k kd v w hk hc hkey
              rcases List.mem_cons.1 hk with heq | hk'
              · have heq : k = k0 := heq
                subst heq
                have e1 := hc.1
                rw [hget0] at e1; cases e1
                obtain ⟨kd', e2⟩ := hc.2.2.2.2.1
                have e2 : Dict.get? all (k.makeBaselineKey b) = some (kd', w) := e2
                rw [hb] at e2; cases e2
                refine ⟨x, hs, ?_⟩
                rw [h2, get?_put, if_pos hkey, hkey]
                intro k' kd' v' w' hk' hc' he
                have : k' = k := makeDiff_inj hc'.2.2.1 (by simpa using hd) (he.trans hkey.symm)
                subst this
                exact hnot hk'
              · have hne : k0.makeDiffKey ≠ key := by
                  intro he
                  have : k = k0 := makeDiff_inj hc.2.2.1 (by simpa using hd) (hkey.trans he.symm)
                  subst this
                  exact hnot hk'
                have := h1 k kd v w hk' hc hkey
                rwa [get?_put, if_neg hne] at this
            · intro hall
              have hne : k0.makeDiffKey ≠ key := hall k0 kd0 v0 w0 (by simp [Dict.keys]) hcomp
              rw [h2 fun k kd v w hk => hall k kd v w (List.mem_cons_of_mem _ hk), get?_put, if_neg hne]
        · rw [if_neg hdf] at h
          refine skip (fun kd v w hc => ?_) h
          have e1 := hc.1
          rw [hget0] at e1; cases e1
          exact hdf hc.2.2.2.2.2

private theorem diffLoop_WF (ops : Ops V) (b : String) (all items acc r : Results V) (hwf : Dict.WF acc)
    (h : diffLoop ops b all items acc = .ok r) : Dict.WF r := by
  induction items generalizing acc with
  | nil => cases h; exact hwf
  | cons p items ih =>
    obtain ⟨k0, kd0, v0⟩ := p
    unfold diffLoop at h
    repeat' split at h
    all_goals first
      | exact ih acc hwf h
      | exact ih _ (WF_put hwf _ _ _) h
      | cases h

private theorem addDiff_get (ops : Ops V) (b : String) (hb : b ≠ "") (d r : Results V) (hwf : Dict.WF d)
    (h : addDiff ops (some b) d = .ok r) (key : MetricKey) :
    (∀ k kd v w, Compared ops b d k kd v w → k.makeDiffKey = key →
      ∃ x, ops.sub v w = .ok x ∧ Dict.get? r key = some (((Dict.get? d key).map Prod.fst).getD kd, x)) ∧
    ((∀ k kd v w, Compared ops b d k kd v w → k.makeDiffKey ≠ key) → Dict.get? r key = Dict.get? d key) := by
  unfold addDiff at h
  simp only [hb, if_false] at h
  split at h
  · cases h
  · rename_i diff hdiff
    cases h
    have hdw := diffLoop_WF ops b d d [] diff Dict.WF_nil hdiff
    obtain ⟨h1, h2⟩ := diffLoop_spec ops b d d [] diff hwf (fun p hp => Dict.get?_of_mem hwf hp) hdiff key
    have hin : ∀ k kd v w, Compared ops b d k kd v w → k ∈ Dict.keys d := fun k kd v w hc =>
      (Dict.mem_keys_iff d k).2 ⟨_, hc.1⟩
    constructor
    · intro k kd v w hc hk
      obtain ⟨x, hx, hg⟩ := h1 k kd v w (hin k kd v w hc) hc hk
      refine ⟨x, hx, ?_⟩
      rw [get?_updateWith d diff hdw, hg]
      rfl
    · intro hall
      have := h2 fun k kd v w _ hc => hall k kd v w hc
      rw [get?_updateWith d diff hdw, this]
      rfl

/-- C32: for every metric that is compared to the baseline there is a difference, and it is its value minus the value of
the baseline model. -/
theorem C32_difference (ops : Ops V) (b : String) (hb : b ≠ "") (d r : Results V) (hwf : Dict.WF d)
    (h : addDiff ops (some b) d = .ok r) (k : MetricKey) (kd : Kind) (v w : V) (hc : Compared ops b d k kd v w) :
    ∃ x kd', ops.sub v w = .ok x ∧ Dict.get? r { k with isDiff := true } = some (kd', x) ∧
      (Dict.get? d { k with isDiff := true } = none → kd' = kd) := by
  obtain ⟨x, hx, hg⟩ := (addDiff_get ops b hb d r hwf h { k with isDiff := true }).1 k kd v w hc rfl
  refine ⟨x, _, hx, hg, ?_⟩
  intro hn
  rw [hn]; rfl

/-- C32: nothing else changes: a key that is not such a difference has the entry it had before. -/
theorem C32_others_unchanged (ops : Ops V) (b : String) (hb : b ≠ "") (d r : Results V) (hwf : Dict.WF d)
    (h : addDiff ops (some b) d = .ok r) (key : MetricKey)
    (hkey : ∀ k kd v w, Compared ops b d k kd v w → { k with isDiff := true } ≠ key) :
    Dict.get? r key = Dict.get? d key :=
  (addDiff_get ops b hb d r hwf h key).2 hkey

/-- C32: in particular all entries that are not differences stay. -/
theorem C32_values_unchanged (ops : Ops V) (b : String) (hb : b ≠ "") (d r : Results V) (hwf : Dict.WF d)
    (h : addDiff ops (some b) d = .ok r) (key : MetricKey) (hd : key.isDiff = false) :
    Dict.get? r key = Dict.get? d key := by
  refine C32_others_unchanged ops b hb d r hwf h key fun k kd v w _ he => ?_
  rw [← he] at hd
  cases hd

/-- C32: without a baseline model, or with one that has no name, nothing is added. -/
theorem C32_no_baseline (ops : Ops V) (d : Results V) : addDiff ops none d = .ok d ∧ addDiff ops (some "") d = .ok d :=
  ⟨rfl, rfl⟩

/-- C32: a difference that a metric computed itself is overwritten. -/
theorem C32_overwrites :
    ∃ (ops : Ops ℤ) (d r : Results ℤ), Dict.WF d ∧ addDiff ops (some "base") d = .ok r ∧
      Dict.get? d { name := "m", modelName := "cand", isDiff := true } = some (.metric, 100) ∧
      Dict.get? r { name := "m", modelName := "cand", isDiff := true } = some (.metric, 2) := by
  refine ⟨⟨fun _ => true, fun a b => .ok (a - b)⟩, [({ name := "m", modelName := "cand" }, .metric, 5),
    ({ name := "m", modelName := "base" }, .metric, 3), ({ name := "m", modelName := "cand", isDiff := true }, .metric, 100)],
    [({ name := "m", modelName := "cand" }, .metric, 5), ({ name := "m", modelName := "base" }, .metric, 3),
      ({ name := "m", modelName := "cand", isDiff := true }, .metric, 2)], ?_, ?_, ?_, ?_⟩
  · unfold Dict.WF Dict.keys; decide
  · rfl
  · rfl
  · rfl

/-! ### C33: cross slice metrics -/

/-- The spec asks for a comparison of the two slices. -/
def Asked (c : NumCodec) (spec : CrossSpec) (base comp : SliceKey) : Prop :=
  spec.baseline.isSliceApplicable c base = true ∧
    if spec.slicing = [] then spec.baseline.isSliceApplicable c comp = false
    else ∃ s ∈ spec.slicing, s.isSliceApplicable c comp = true

private theorem mem_crossSlices (ops : Ops V) (cs : List (Computation (CrossFn V))) (b : SliceKey × Results V)
    (comps : List (SliceKey × Results V)) (out : List ((SliceKey × SliceKey) × Results V))
    (h : crossSlices ops cs b comps = .ok out) (o : (SliceKey × SliceKey) × Results V) :
    o ∈ out ↔ ∃ x ∈ comps, o.1 = (b.1, x.1) ∧ crossMetrics ops cs b.2 x.2 = .ok o.2 := by
  induction comps generalizing out with
  | nil => cases h; simp
  | cons x comps ih =>
    unfold crossSlices at h
    cases hm : crossMetrics ops cs b.2 x.2 with
    | error e => rw [hm] at h; cases h
    | ok m =>
      rw [hm] at h
      simp only at h
      cases hr : crossSlices ops cs b comps with
      | error e => rw [hr] at h; cases h
      | ok out' =>
        rw [hr] at h
        cases h
        rw [List.mem_cons, ih out' hr]
        constructor
        · rintro (rfl | ⟨y, hy, hy'⟩)
          · exact ⟨x, by simp, rfl, hm⟩
          · exact ⟨y, by simp [hy], hy'⟩
        · rintro ⟨y, hy, h1, h2⟩
          rcases List.mem_cons.1 hy with rfl | hy
          · left
            rw [hm] at h2
            cases h2
            exact Prod.ext h1 rfl
          · exact .inr ⟨y, hy, h1, h2⟩

private theorem mem_crossBaselines (ops : Ops V) (cs : List (Computation (CrossFn V)))
    (comps bases : List (SliceKey × Results V)) (out : List ((SliceKey × SliceKey) × Results V))
    (h : crossBaselines ops cs comps bases = .ok out) (o : (SliceKey × SliceKey) × Results V) :
    o ∈ out ↔ ∃ b ∈ bases, ∃ x ∈ comps, o.1 = (b.1, x.1) ∧ crossMetrics ops cs b.2 x.2 = .ok o.2 := by
  induction bases generalizing out with
  | nil => cases h; simp
  | cons b bases ih =>
    unfold crossBaselines at h
    cases hm : crossSlices ops cs b comps with
    | error e => rw [hm] at h; cases h
    | ok m =>
      rw [hm] at h
      simp only at h
      cases hr : crossBaselines ops cs comps bases with
      | error e => rw [hr] at h; cases h
      | ok out' =>
        rw [hr] at h
        cases h
        rw [List.mem_append, ih out' hr, mem_crossSlices ops cs b comps m hm]
        simp

private theorem asked_iff (c : NumCodec) (slices : List (SliceKey × Results V)) (spec : CrossSpec)
    (b x : SliceKey × Results V) :
    (b ∈ slices.filter (fun s => applicable c s.1 [spec.baseline]) ∧ x ∈ comparisons c slices spec) ↔
      b ∈ slices ∧ x ∈ slices ∧ Asked c spec b.1 x.1 := by
  unfold comparisons Asked
  by_cases h : spec.slicing = []
  · simp only [h, ne_eq, not_true, if_false, if_true, List.mem_filter, applicable, List.any_cons, List.any_nil, Bool.or_false,
      Bool.not_eq_true']
    tauto
  · simp only [h, ne_eq, not_false_iff, if_true, if_false, List.mem_filter, applicable, List.any_cons, List.any_nil, Bool.or_false,
      List.any_eq_true]
    tauto

/-- C33: the records of pairs are exactly those of two slices that some spec asks to compare. -/
theorem C33_pairs (c : NumCodec) (ops : Ops V) (cs : List (Computation (CrossFn V))) (slices : List (SliceKey × Results V))
    (specs : List CrossSpec) (out : List ((SliceKey × SliceKey) × Results V)) (h : crossAll c ops cs slices specs = .ok out)
    (base comp : SliceKey) (m : Results V) :
    ((base, comp), m) ∈ out ↔ ∃ spec ∈ specs, ∃ mb mc, (base, mb) ∈ slices ∧ (comp, mc) ∈ slices ∧
      Asked c spec base comp ∧ crossMetrics ops cs mb mc = .ok m := by
  induction specs generalizing out with
  | nil => cases h; simp
  | cons spec specs ih =>
    unfold crossAll at h
    split at h
    · cases h
    · rename_i out1 h1
      split at h
      · cases h
      · rename_i out2 h2
        cases h
        rw [List.mem_append, ih out2 h2, mem_crossBaselines ops cs _ _ out1 h1]
        constructor
        · rintro (⟨b, hb, x, hx, he, hm⟩ | ⟨s, hs, hrest⟩)
          · obtain ⟨h3, h4, h5⟩ := (asked_iff c slices spec b x).1 ⟨hb, hx⟩
            simp only [Prod.mk.injEq] at he
            obtain ⟨rfl, rfl⟩ := he
            exact ⟨spec, by simp, b.2, x.2, h3, h4, h5, hm⟩
          · exact ⟨s, by simp [hs], hrest⟩
        · rintro ⟨s, hs, mb, mc, h3, h4, h5, hm⟩
          rcases List.mem_cons.1 hs with rfl | hs
          · obtain ⟨h6, h7⟩ := (asked_iff c slices s (base, mb) (comp, mc)).2 ⟨h3, h4, h5⟩
            exact .inl ⟨_, h6, _, h7, rfl, hm⟩
          · exact .inr ⟨s, hs, mb, mc, h3, h4, h5, hm⟩

/-- C33: the records of the single slices are passed on, before those of the pairs. -/
theorem C33_slices_kept (c : NumCodec) (ops : Ops V) (cs : List (Computation (CrossFn V))) (specs : List CrossSpec)
    (slices : List (SliceKey × Results V)) (out : List (AnyKey × Results V)) (h : addCross c ops cs specs slices = .ok out) :
    (∀ k m, (AnyKey.single k, m) ∈ out ↔ (k, m) ∈ slices) ∧
    ∃ pairs, crossAll c ops cs slices specs = .ok pairs ∧ ∀ a b m, (AnyKey.cross a b, m) ∈ out ↔ ((a, b), m) ∈ pairs := by
  unfold addCross at h
  cases hp : crossAll c ops cs slices specs with
  | error e => rw [hp] at h; cases h
  | ok pairs =>
    rw [hp] at h
    cases h
    refine ⟨fun k m => ?_, pairs, rfl, fun a b m => ?_⟩
    · simp only [List.mem_append, List.mem_map, Prod.mk.injEq, AnyKey.single.injEq, reduceCtorEq, false_and, and_false,
        exists_false, or_false]
      constructor
      · rintro ⟨s, hs, rfl, rfl⟩; exact hs
      · intro hs; exact ⟨(k, m), hs, rfl, rfl⟩
    · simp only [List.mem_append, List.mem_map, Prod.mk.injEq, AnyKey.cross.injEq, reduceCtorEq, false_and, and_false,
        exists_false, false_or]
      constructor
      · rintro ⟨⟨⟨x, y⟩, z⟩, hs, ⟨rfl, rfl⟩, rfl⟩; exact hs
      · intro hs; exact ⟨((a, b), m), hs, ⟨rfl, rfl⟩, rfl⟩

private theorem countP_crossSlices (ops : Ops V) (cs : List (Computation (CrossFn V))) (b : SliceKey × Results V)
    (comps : List (SliceKey × Results V)) (out : List ((SliceKey × SliceKey) × Results V))
    (h : crossSlices ops cs b comps = .ok out) : out.map Prod.fst = comps.map fun x => (b.1, x.1) := by
  induction comps generalizing out with
  | nil => cases h; rfl
  | cons x comps ih =>
    unfold crossSlices at h
    split at h
    · cases h
    · split at h
      · cases h
      · rename_i out' hr
        cases h
        simp [ih out' hr]

private theorem countP_crossBaselines (ops : Ops V) (cs : List (Computation (CrossFn V)))
    (comps bases : List (SliceKey × Results V)) (out : List ((SliceKey × SliceKey) × Results V))
    (h : crossBaselines ops cs comps bases = .ok out) :
    out.map Prod.fst = bases.flatMap fun b => comps.map fun x => (b.1, x.1) := by
  induction bases generalizing out with
  | nil => cases h; rfl
  | cons b bases ih =>
    unfold crossBaselines at h
    split at h
    · cases h
    · rename_i out1 h1
      split at h
      · cases h
      · rename_i out2 h2
        cases h
        simp [ih out2 h2, countP_crossSlices ops cs b comps out1 h1]

private theorem count_pairs (bases comps : List SliceKey) (hb : bases.Nodup) (hc : comps.Nodup) (p : SliceKey × SliceKey) :
    (bases.flatMap fun b => comps.map fun x => (b, x)).count p = if p.1 ∈ bases ∧ p.2 ∈ comps then 1 else 0 := by
  have hnd : (bases.flatMap fun b => comps.map fun x => (b, x)).Nodup := by
    have := List.Nodup.product hb hc
    simpa [List.product, SProd.sprod] using this
  rw [List.Nodup.count hnd]
  congr 1
  simp only [List.mem_flatMap, List.mem_map, eq_iff_iff]
  constructor
  · rintro ⟨b, hb, x, hx, rfl⟩; exact ⟨hb, hx⟩
  · rintro ⟨h1, h2⟩; exact ⟨p.1, h1, p.2, h2, rfl⟩

open Classical in
/-- C33: if every slice has one record, the number of records of a pair is the number of specs that ask for it. -/
theorem C33_pair_count (c : NumCodec) (ops : Ops V) (cs : List (Computation (CrossFn V)))
    (slices : List (SliceKey × Results V)) (hnd : (slices.map Prod.fst).Nodup)
    (specs : List CrossSpec) (out : List ((SliceKey × SliceKey) × Results V)) (h : crossAll c ops cs slices specs = .ok out)
    (base comp : SliceKey) (hb : base ∈ slices.map Prod.fst) (hc : comp ∈ slices.map Prod.fst) :
    (out.map Prod.fst).count (base, comp) = specs.countP fun spec => decide (Asked c spec base comp) := by
  induction specs generalizing out with
  | nil => cases h; rfl
  | cons spec specs ih =>
    unfold crossAll at h
    split at h
    · cases h
    · rename_i out1 h1
      split at h
      · cases h
      · rename_i out2 h2
        cases h
        have nd : ∀ p : SliceKey × Results V → Bool, ((slices.filter p).map Prod.fst).Nodup := fun p =>
          (List.filter_sublist.map Prod.fst).nodup hnd
        have ndc : ((comparisons c slices spec).map Prod.fst).Nodup := by
          unfold comparisons; split_ifs <;> exact nd _
        rw [List.map_append, List.count_append, ih out2 h2, countP_crossBaselines ops cs _ _ out1 h1, List.countP_cons, add_comm]
        congr 1
        have hflat : (List.flatMap (fun b => List.map (fun x => (b.1, x.1)) (comparisons c slices spec))
            (slices.filter fun s => applicable c s.1 [spec.baseline])) =
            ((slices.filter fun s => applicable c s.1 [spec.baseline]).map Prod.fst).flatMap fun b =>
              ((comparisons c slices spec).map Prod.fst).map fun x => (b, x) := by
          rw [List.flatMap_map]
          simp [List.map_map, Function.comp_def]
        rw [hflat, count_pairs _ _ (nd _) ndc]
        obtain ⟨⟨b', mb⟩, hb', rfl⟩ := List.mem_map.1 hb
        obtain ⟨⟨c', mc⟩, hc', rfl⟩ := List.mem_map.1 hc
        have : (b' ∈ (slices.filter fun s => applicable c s.1 [spec.baseline]).map Prod.fst ∧
            c' ∈ (comparisons c slices spec).map Prod.fst) ↔ Asked c spec b' c' := by
          constructor
          · rintro ⟨h3, h4⟩
            obtain ⟨x, hx, rfl⟩ := List.mem_map.1 h3
            obtain ⟨y, hy, rfl⟩ := List.mem_map.1 h4
            exact ((asked_iff c slices spec x y).1 ⟨hx, hy⟩).2.2
          · intro ha
            obtain ⟨h3, h4⟩ := (asked_iff c slices spec (b', mb) (c', mc)).2 ⟨hb', hc', ha⟩
            exact ⟨List.mem_map.2 ⟨_, h3, rfl⟩, List.mem_map.2 ⟨_, h4, rfl⟩⟩
        simp only [this, decide_eq_true_eq]

private theorem crossLoop_get (ops : Ops V) (base items acc r : Results V) (hwf : Dict.WF items)
    (h : crossLoop ops base items acc = .ok r) (k : MetricKey) (hacc : k ∈ Dict.keys items → Dict.get? acc k = none)
    (kd : Kind) (x : V) :
    Dict.get? r k = some (kd, x) ↔ Dict.get? acc k = some (kd, x) ∨
      ∃ v kd' w, Dict.get? items k = some (kd, v) ∧ Dict.get? base k = some (kd', w) ∧ isPrivate k = false ∧ kd = .metric ∧
        ops.sub w v = .ok x := by
  induction items generalizing acc with
  | nil => cases h; simp
  | cons p items ih =>
    obtain ⟨k0, kd0, v0⟩ := p
    have hwf' : Dict.WF items := (List.nodup_cons.1 hwf).2
    have hnot : k0 ∉ Dict.keys items := (List.nodup_cons.1 hwf).1
    have hacc' : k ∈ Dict.keys items → Dict.get? acc k = none := fun hk => hacc (List.mem_cons_of_mem _ hk)
    have skip : crossLoop ops base items acc = .ok r →
        (∀ kd' w, Dict.get? base k0 = some (kd', w) → isPrivate k0 = false → kd0 = .metric → False) →
        (Dict.get? r k = some (kd, x) ↔ Dict.get? acc k = some (kd, x) ∨
          ∃ v kd' w, Dict.get? ((k0, kd0, v0) :: items) k = some (kd, v) ∧ Dict.get? base k = some (kd', w) ∧
            isPrivate k = false ∧ kd = .metric ∧ ops.sub w v = .ok x) := by
      intro h' hno
      rw [ih acc hwf' h' hacc']
      by_cases hk : k0 = k
      · subst hk
        have hn : Dict.get? items k0 = none := (Dict.get?_eq_none_iff items k0).2 hnot
        simp only [hn, Dict.get?_cons, if_true, reduceCtorEq, false_and, exists_false, or_false]
        constructor
        · exact .inl
        · rintro (h | ⟨v, kd', w, he, hb, hp, hm, _⟩)
          · exact h
          · cases he
            exact (hno kd' w hb hp hm).elim
      · simp only [Dict.get?_cons, hk, if_false]
    unfold crossLoop at h
    cases hb : Dict.get? base k0 with
    | none =>
      rw [hb] at h
      exact skip h fun kd' w h' => by rw [hb] at h'; cases h'
    | some y =>
      obtain ⟨kdb, w0⟩ := y
      rw [hb] at h
      simp only at h
      split_ifs at h with hp h1 h2
      · exact skip h fun _ _ _ h' _ => by rw [hp] at h'; cases h'
      · exact skip h fun _ _ _ _ h' => by rw [h1] at h'; cases h'
      · exact skip h fun _ _ _ _ h' => by rw [h2] at h'; cases h'
      · have hm : kd0 = .metric := by cases kd0 <;> simp_all
        cases hs : ops.sub w0 v0 with
        | error e => rw [hs] at h; cases h
        | ok x0 =>
          rw [hs] at h
          have hacc'' : k ∈ Dict.keys items → Dict.get? (put acc k0 kd0 x0) k = none := by
            intro hk
            have hne : k0 ≠ k := fun he => hnot (he ▸ hk)
            rw [get?_put, if_neg hne]; exact hacc' hk
          rw [ih _ hwf' h hacc'']
          by_cases hk : k0 = k
          · subst hk
            have hn : Dict.get? items k0 = none := (Dict.get?_eq_none_iff items k0).2 hnot
            have ha : Dict.get? acc k0 = none := hacc (by simp [Dict.keys])
            simp only [hn, get?_put, if_true, ha, Option.map_none, Option.getD_none, Dict.get?_cons, reduceCtorEq, false_and,
              exists_false, or_false, false_or, hb, Option.some.injEq, Prod.mk.injEq]
            constructor
            · rintro ⟨rfl, rfl⟩
              exact ⟨v0, kdb, w0, ⟨rfl, rfl⟩, ⟨rfl, rfl⟩, by simpa using hp, hm, hs⟩
            · rintro ⟨v, kd', w, ⟨rfl, rfl⟩, ⟨rfl, rfl⟩, _, _, hx⟩
              rw [hs] at hx
              cases hx
              exact ⟨rfl, rfl⟩
          · simp only [get?_put, hk, if_false, Dict.get?_cons]

/-- C33: the record of a pair has, for each metric that is not private and in both slices, the value of the baseline slice
minus the value of the comparison slice, and nothing else (no cross slice computations given; the code base has none). -/
theorem C33_values (ops : Ops V) (base comp m : Results V) (hwf : Dict.WF comp) (h : crossMetrics ops [] base comp = .ok m)
    (k : MetricKey) (kd : Kind) (x : V) :
    Dict.get? m k = some (kd, x) ↔ ∃ v kd' w, Dict.get? comp k = some (.metric, v) ∧ Dict.get? base k = some (kd', w) ∧
      ¬ PrivateName k.name ∧ kd = .metric ∧ ops.sub w v = .ok x := by
  unfold crossMetrics at h
  split at h
  · cases h
  · rename_i r hr
    cases h
    rw [crossLoop_get ops base comp [] _ hwf hr k (fun _ => rfl), ← isPrivate_iff, Bool.not_eq_true]
    simp only [Dict.get?_nil, reduceCtorEq, false_or]
    constructor
    · rintro ⟨v, kd', w, h1, h2, h3, rfl, h5⟩
      exact ⟨v, kd', w, h1, h2, h3, rfl, h5⟩
    · rintro ⟨v, kd', w, h1, h2, h3, rfl, h5⟩
      exact ⟨v, kd', w, h1, h2, h3, rfl, h5⟩

/-- C33: with cross slice computations the keys that none of them writes are as without. -/
theorem C33_values_computed (ops : Ops V) (cs : List (Computation (CrossFn V))) (base comp m : Results V)
    (h : crossMetrics ops cs base comp = .ok m) (k : MetricKey)
    (hk : ∀ c ∈ cs, ∀ r, c.body base comp = .ok r → Dict.WF r ∧ k ∉ Dict.keys r) :
    ∃ m0, crossMetrics ops [] base comp = .ok m0 ∧ Dict.get? m k = Dict.get? m0 k := by
  unfold crossMetrics at h ⊢
  split at h
  · cases h
  · rename_i r hr
    refine ⟨r, by simp [crossComputed], ?_⟩
    clear hr
    induction cs generalizing r with
    | nil => cases h; rfl
    | cons c cs ih =>
      unfold crossComputed at h
      cases hc : c.body base comp with
      | error e => rw [hc] at h; cases h
      | ok r' =>
        rw [hc] at h
        obtain ⟨h1, h2⟩ := hk c (by simp) r' hc
        rw [ih (fun c hc => hk c (List.mem_cons_of_mem _ hc)) (updateWith r r') h, get?_updateWith r r' h1,
          (Dict.get?_eq_none_iff r' k).2 h2]

/-- C33 (negation of "a different slice"): if slicing specs are given, a slice that matches both the baseline spec and one
of them is compared to itself. -/
theorem C33_same_slice (c : NumCodec) :
    ∃ (spec : CrossSpec) (slices : List (SliceKey × Results ℤ)) (out : List ((SliceKey × SliceKey) × Results ℤ)),
      crossAll c ⟨fun _ => true, fun a b => .ok (a - b)⟩ [] slices [spec] = .ok out ∧
      (([], []), [({ name := "m" }, .metric, 0)]) ∈ out :=
  ⟨⟨⟨[], []⟩, [⟨[], []⟩]⟩, [([], [({ name := "m" }, .metric, 7)])], [(([], []), [({ name := "m" }, .metric, 0)])], by rfl, by simp⟩

/-- C33 (negation of "one record per pair"): two specs that ask for the same pair give two records of it. -/
theorem C33_pair_twice (c : NumCodec) :
    ∃ (specs : List CrossSpec) (slices : List (SliceKey × Results ℤ)) (out : List ((SliceKey × SliceKey) × Results ℤ)),
      (slices.map Prod.fst).Nodup ∧
      crossAll c ⟨fun _ => true, fun a b => .ok (a - b)⟩ [] slices specs = .ok out ∧ (out.map Prod.fst).count ([], []) = 2 :=
  ⟨[⟨⟨[], []⟩, [⟨[], []⟩]⟩, ⟨⟨[], []⟩, [⟨[], []⟩]⟩], [([], [({ name := "m" }, .metric, 7)])], _, by simp, rfl, by decide +kernel⟩

/-- C33: a metric whose values cannot be subtracted makes the whole stage fail. -/
theorem C33_not_subtractable (c : NumCodec) :
    ∃ (spec : CrossSpec) (slices : List (SliceKey × Results (Option ℤ))),
      crossAll c ⟨Option.isSome, fun a b => match a, b with | some x, some y => .ok (some (x - y)) | _, _ => .error .typeError⟩
        [] slices [spec] = .error .typeError :=
  ⟨⟨⟨[], []⟩, [⟨[], []⟩]⟩, [([], [({ name := "m" }, .metric, none)])], by rfl⟩

/-- The overall slice against a slice of the feature `f`: values in both, one private. -/
example (c : NumCodec) :
    crossAll c ⟨fun _ => true, fun a b => .ok (a - b)⟩ [] [([], [({ name := "m" }, .metric, 7), ({ name := "_p" }, .metric, 1)]),
      ([("f", .str "x")], [({ name := "m" }, .metric, 5), ({ name := "_p" }, .metric, 1), ({ name := "q" }, .metric, (2 : ℤ))])]
      [⟨⟨[], []⟩, []⟩] = .ok [(([], [("f", .str "x")]), [({ name := "m" }, .metric, 2)])] := by
  rfl

end Evaluate
end TFMA
