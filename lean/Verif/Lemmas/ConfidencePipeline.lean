import Verif.Model.ConfidencePipeline
import Verif.Props.Jackknife
import Verif.Props.CrossSlice

/-!
# The records of a slice or of a pair of slices over all samples
-/

namespace TFMA
namespace Confidence

open Beam Evaluate MetricKeys Slicer

section
variable {K L D M : Type} [DecidableEq L]

theorem mem_valuesOf {β : Type} (k : L) (v : β) (l : List (L × β)) : v ∈ valuesOf k l ↔ (k, v) ∈ l := by
  simp [valuesOf]

theorem valuesOf_length {β : Type} (k : L) (l : List (L × β)) : (valuesOf k l).length = (l.map Prod.fst).count k := by
  induction l with
  | nil => rfl
  | cons p l ih =>
    unfold valuesOf at ih ⊢
    by_cases h : p.1 = k
    · simp [h] at ih ⊢; exact ih
    · simp [h] at ih ⊢; exact ih

theorem valuesOf_tag (id : ℤ) (l : List (L × MetricsDict M)) (k : L) :
    valuesOf k (tag id l) = (valuesOf k l).map fun m => ⟨m, id⟩ :=
  valuesOf_map k l fun m => (⟨m, id⟩ : SampleMetrics M)

omit [DecidableEq L] in
theorem sampleLoop_ok {derive : List (K × D) → Except Err (List (L × MetricsDict M))} {sample : ℕ → List (K × D)}
    {is : List ℕ} {recs : List (L × SampleMetrics M)} (h : sampleLoop derive sample is = .ok recs) :
    ∃ outs : ℕ → List (L × MetricsDict M), (∀ i ∈ is, derive (sample i) = .ok (outs i)) ∧
      recs = is.flatMap fun i => tag (i : ℕ) (outs i) := by
  refine ⟨fun i => match derive (sample i) with | .ok l => l | .error _ => [], ?_⟩
  induction is generalizing recs with
  | nil => cases h; simp
  | cons i is ih =>
    unfold sampleLoop sampleOf at h
    cases hd : derive (sample i) with
    | error e => rw [hd] at h; cases h
    | ok l =>
      rw [hd] at h
      simp only at h
      cases hr : sampleLoop derive sample is with
      | error e => rw [hr] at h; cases h
      | ok b =>
        rw [hr] at h
        cases h
        obtain ⟨h1, h2⟩ := ih hr
        refine ⟨fun j hj => ?_, ?_⟩
        · rcases List.mem_cons.1 hj with rfl | hj
          · simp only [hd]
          · exact h1 j hj
        · rw [List.flatMap_cons, ← h2]
          simp only [hd]

omit [DecidableEq L] in
theorem records_ok {derive : List (K × D) → Except Err (List (L × MetricsDict M))} {n : ℕ} {sample : ℕ → List (K × D)}
    {full : List (K × D)} {recs : List (L × SampleMetrics M)} (h : records derive n sample full = .ok recs) :
    ∃ (outs : ℕ → List (L × MetricsDict M)) (out : List (L × MetricsDict M)),
      (∀ i < n, derive (sample i) = .ok (outs i)) ∧ derive full = .ok out ∧
      recs = ((List.range n).flatMap fun i => tag (i : ℕ) (outs i)) ++ tag fullSampleId out := by
  unfold records at h
  split at h
  · cases h
  · rename_i a ha
    obtain ⟨outs, h1, rfl⟩ := sampleLoop_ok ha
    unfold sampleOf at h
    cases hd : derive full with
    | error e => rw [hd] at h; cases h
    | ok l =>
      rw [hd] at h
      cases h
      exact ⟨outs, l, fun i hi => h1 i (List.mem_range.2 hi), rfl, rfl⟩

/-- The records of a key: those of the samples, then those of all data. -/
def together (n : ℕ) (ms : ℕ → List (MetricsDict M)) (full : List (MetricsDict M)) : List (SampleMetrics M) :=
  ((List.range n).flatMap fun i => (ms i).map fun m => ⟨m, (i : ℤ)⟩) ++ full.map fun m => ⟨m, fullSampleId⟩

theorem valuesOf_records (n : ℕ) (outs : ℕ → List (L × MetricsDict M)) (out : List (L × MetricsDict M)) (k : L) :
    valuesOf k (((List.range n).flatMap fun i => tag (i : ℕ) (outs i)) ++ tag fullSampleId out) =
      together n (fun i => valuesOf k (outs i)) (valuesOf k out) := by
  rw [valuesOf_append, valuesOf_flatMap, valuesOf_tag]
  unfold together
  congr 1
  apply List.flatMap_congr
  intro i _
  exact valuesOf_tag _ _ _

private theorem filter_samples (b : Bool) (l : List ℕ) (ms : ℕ → List (MetricsDict M)) :
    (l.flatMap fun i => (ms i).map fun m => (⟨m, (i : ℤ)⟩ : SampleMetrics M)).filter (fun s => s.isFull == b) =
      if b then [] else l.flatMap fun i => (ms i).map fun m => (⟨m, (i : ℤ)⟩ : SampleMetrics M) := by
  have h : ∀ x ∈ l.flatMap fun i => (ms i).map fun m => (⟨m, (i : ℤ)⟩ : SampleMetrics M), x.isFull = false := by
    intro x hx
    obtain ⟨i, _, hx⟩ := List.mem_flatMap.1 hx
    obtain ⟨m, _, rfl⟩ := List.mem_map.1 hx
    have : (i : ℤ) ≠ -1 := by omega
    simp [SampleMetrics.isFull, fullSampleId, this]
  cases b
  · simp only [Bool.false_eq_true, if_false, List.filter_eq_self]
    intro x hx; simp [h x hx]
  · simp only [if_true, List.filter_eq_nil_iff]
    intro x hx; simp [h x hx]

theorem fulls_together (n : ℕ) (ms : ℕ → List (MetricsDict M)) (full : List (MetricsDict M)) :
    fulls (together n ms full) = full.map fun m => ⟨m, fullSampleId⟩ := by
  have h1 := filter_samples true (List.range n) ms
  have h2 : (full.map fun m => (⟨m, fullSampleId⟩ : SampleMetrics M)).filter (fun s => s.isFull) =
      full.map fun m => (⟨m, fullSampleId⟩ : SampleMetrics M) := by
    rw [List.filter_eq_self]
    intro x hx
    obtain ⟨m, _, rfl⟩ := List.mem_map.1 hx
    simp [SampleMetrics.isFull]
  simp only [beq_true, if_true] at h1
  unfold fulls together
  rw [List.filter_append, h1, h2, List.nil_append]

theorem proper_together (n : ℕ) (ms : ℕ → List (MetricsDict M)) (full : List (MetricsDict M)) :
    proper (together n ms full) = (List.range n).flatMap fun i => (ms i).map fun m => ⟨m, (i : ℤ)⟩ := by
  have h1 := filter_samples false (List.range n) ms
  have h2 : (full.map fun m => (⟨m, fullSampleId⟩ : SampleMetrics M)).filter (fun s => !s.isFull) = [] := by
    rw [List.filter_eq_nil_iff]
    intro x hx
    obtain ⟨m, _, rfl⟩ := List.mem_map.1 hx
    simp [SampleMetrics.isFull]
  simp only [beq_false, Bool.false_eq_true, if_false] at h1
  unfold proper together
  rw [List.filter_append, h1, h2, List.append_nil]

end

/-! ### The transform that adds the derived metrics -/

section
variable {V : Type}

theorem mapValues_values {X A : Type} [DecidableEq X] {f : A → Except Err A} {l out : List (X × A)}
    (h : mapValues f l = .ok out) (k : X) : List.Forall₂ (fun a b => f a = .ok b) (valuesOf k l) (valuesOf k out) := by
  induction l generalizing out with
  | nil => cases h; exact .nil
  | cons p l ih =>
    obtain ⟨x, a⟩ := p
    unfold mapValues at h
    cases ha : f a with
    | error e => rw [ha] at h; cases h
    | ok b =>
      rw [ha] at h
      simp only at h
      cases hr : mapValues f l with
      | error e => rw [hr] at h; cases h
      | ok out' =>
        rw [hr] at h
        cases h
        have := ih hr
        unfold valuesOf at this ⊢
        by_cases hk : x = k
        · simp only [List.filter_cons, hk, decide_true, if_true, List.map_cons]
          exact .cons ha this
        · simp only [List.filter_cons, hk, decide_false, Bool.false_eq_true, if_false]
          exact this

theorem mapValues_keys {X A : Type} {f : A → Except Err A} {l out : List (X × A)}
    (h : mapValues f l = .ok out) : out.map Prod.fst = l.map Prod.fst := by
  induction l generalizing out with
  | nil => cases h; rfl
  | cons p l ih =>
    obtain ⟨x, a⟩ := p
    unfold mapValues at h
    cases ha : f a with
    | error e => rw [ha] at h; cases h
    | ok b =>
      rw [ha] at h
      simp only at h
      cases hr : mapValues f l with
      | error e => rw [hr] at h; cases h
      | ok out' =>
        rw [hr] at h
        cases h
        simp [ih hr]

theorem replicate_values {A : Type} {f : A → Except Err A} {a : A} {j : ℕ} {out : List A} (hj : 0 < j)
    (h : List.Forall₂ (fun a b => f a = .ok b) (List.replicate j a) out) :
    ∃ b, f a = .ok b ∧ out = List.replicate j b := by
  have hlen : out.length = j := by
    have := h.length_eq
    simpa using this.symm
  obtain ⟨j, rfl⟩ : ∃ i, j = i + 1 := ⟨j - 1, by omega⟩
  cases out with
  | nil => simp at hlen
  | cons b out =>
    rw [List.replicate_succ] at h
    cases h with
    | cons hb hrest =>
      refine ⟨b, hb, ?_⟩
      rw [List.eq_replicate_iff]
      refine ⟨hlen, fun x hx => ?_⟩
      rcases List.mem_cons.1 hx with rfl | hx
      · rfl
      · clear hlen
        have : ∀ (n : ℕ) (out : List A), List.Forall₂ (fun a b => f a = .ok b) (List.replicate n a) out → ∀ x ∈ out, x = b := by
          intro n
          induction n with
          | zero => intro out h x hx; cases h; cases hx
          | succ n ih =>
            intro out h x hx
            rw [List.replicate_succ] at h
            cases h with
            | cons h1 h2 =>
              rcases List.mem_cons.1 hx with rfl | hx
              · rw [hb] at h1; exact (Except.ok.inj h1).symm
              · exact ih _ h2 x hx
        exact this _ _ hrest x hx

theorem valuesOf_unique {X A : Type} [DecidableEq X] {l : List (X × A)} (hnd : (l.map Prod.fst).Nodup) {k : X} {a : A}
    (h : (k, a) ∈ l) : valuesOf k l = [a] := by
  rcases valuesOf_nodup k l hnd with ⟨h1, _⟩ | ⟨b, h1, h2⟩
  · exact absurd (List.mem_map.2 ⟨_, h, rfl⟩) h1
  · have := (mem_valuesOf k a l).2 h
    rw [h2, List.mem_singleton] at this
    rw [h2, this]

private theorem addCross_single {c : NumCodec} {ops : Ops V} {cs : List (Computation (CrossFn V))} {specs : List CrossSpec}
    {slices : List (SliceKey × Results V)} {out : List (AnyKey × Results V)} (h : addCross c ops cs specs slices = .ok out)
    (k : SliceKey) : valuesOf (.single k) out = valuesOf k slices := by
  unfold addCross at h
  split at h
  · cases h
  · rename_i outs houts
    cases h
    clear houts
    rw [valuesOf_append, valuesOf_eq_nil (AnyKey.single k) (outs.map _), List.append_nil]
    · induction slices with
      | nil => rfl
      | cons p l ih =>
        unfold valuesOf at ih ⊢
        by_cases hk : p.1 = k
        · simp only [List.map_cons, List.filter_cons, hk, decide_true, if_true, ih]
        · simp only [List.map_cons, List.filter_cons, AnyKey.single.injEq, hk, decide_false, Bool.false_eq_true, if_false, ih]
    · simp

private theorem addCross_cross {c : NumCodec} {ops : Ops V} {cs : List (Computation (CrossFn V))} {specs : List CrossSpec}
    {slices : List (SliceKey × Results V)} {out : List (AnyKey × Results V)} (h : addCross c ops cs specs slices = .ok out)
    (a b : SliceKey) : ∃ outs, crossAll c ops cs slices specs = .ok outs ∧ valuesOf (.cross a b) out = valuesOf (a, b) outs := by
  unfold addCross at h
  split at h
  · cases h
  · rename_i outs houts
    cases h
    refine ⟨outs, houts, ?_⟩
    rw [valuesOf_append, valuesOf_eq_nil (AnyKey.cross a b) (slices.map _), List.nil_append]
    · clear houts
      induction outs with
      | nil => rfl
      | cons p l ih =>
        unfold valuesOf at ih ⊢
        obtain ⟨⟨x, y⟩, m⟩ := p
        by_cases hk : x = a ∧ y = b
        · simp only [List.map_cons, List.filter_cons, hk, decide_true, if_true, ih]
        · simp only [List.map_cons, List.filter_cons, AnyKey.cross.injEq, Prod.mk.injEq, hk, decide_false, Bool.false_eq_true,
            if_false, ih]
    · simp

/-- The record of one slice. -/
theorem derived_single {c : NumCodec} {ops : Ops V} {derived : List (Computation (Results V → Except Err (Results V)))}
    {cross : List (Computation (CrossFn V))} {specs : List CrossSpec} {baseline : Option String}
    {slices : List (SliceKey × Results V)} {out : List (AnyKey × Results V)} (hnd : (slices.map Prod.fst).Nodup)
    (h : addAllDerived c ops derived cross specs baseline slices = .ok out) {k : SliceKey} {m : Results V}
    (hk : (k, m) ∈ slices) :
    ∃ d r, addDerived derived m = .ok d ∧ addDiff ops baseline d = .ok r ∧ valuesOf (.single k) out = [r] := by
  unfold addAllDerived at h
  split at h
  · cases h
  · rename_i s hs
    split at h
    · cases h
    · rename_i s' hs'
      have h1 := mapValues_values hs k
      rw [valuesOf_unique hnd hk] at h1
      obtain ⟨d, hd, hd'⟩ := replicate_values (j := 1) (by omega) h1
      have h2 := mapValues_values h (.single k)
      rw [addCross_single hs' k, hd'] at h2
      obtain ⟨r, hr, hr'⟩ := replicate_values (by omega) h2
      exact ⟨d, r, hd, hr, hr'⟩

open Classical in
/-- The records of a pair: one for every spec that asks for it. -/
theorem derived_cross {c : NumCodec} {ops : Ops V} {derived : List (Computation (Results V → Except Err (Results V)))}
    {cross : List (Computation (CrossFn V))} {specs : List CrossSpec} {baseline : Option String}
    {slices : List (SliceKey × Results V)} {out : List (AnyKey × Results V)} (hnd : (slices.map Prod.fst).Nodup)
    (h : addAllDerived c ops derived cross specs baseline slices = .ok out) {a b : SliceKey} {ma mb : Results V}
    (ha : (a, ma) ∈ slices) (hb : (b, mb) ∈ slices) (j : ℕ) (hj : specs.countP (fun s => decide (Asked c s a b)) = j)
    (hpos : 0 < j) :
    ∃ da db x r, addDerived derived ma = .ok da ∧ addDerived derived mb = .ok db ∧ crossMetrics ops cross da db = .ok x ∧
      addDiff ops baseline x = .ok r ∧ valuesOf (.cross a b) out = List.replicate j r := by
  unfold addAllDerived at h
  split at h
  · cases h
  · rename_i s hs
    split at h
    · cases h
    · rename_i s' hs'
      have hkeys := mapValues_keys hs
      have hnd' : (s.map Prod.fst).Nodup := by rw [hkeys]; exact hnd
      have h1 := mapValues_values hs a
      rw [valuesOf_unique hnd ha] at h1
      obtain ⟨da, hda, hda'⟩ := replicate_values (j := 1) (by omega) h1
      have h2 := mapValues_values hs b
      rw [valuesOf_unique hnd hb] at h2
      obtain ⟨db, hdb, hdb'⟩ := replicate_values (j := 1) (by omega) h2
      have hina : (a, da) ∈ s := (mem_valuesOf a da s).1 (by rw [hda']; simp)
      have hinb : (b, db) ∈ s := (mem_valuesOf b db s).1 (by rw [hdb']; simp)
      obtain ⟨outs, houts, hv⟩ := addCross_cross hs' a b
      have hcount : (valuesOf (a, b) outs).length = j := by
        rw [valuesOf_length, ← hj]
        have := C33_pair_count c ops cross s hnd' specs outs houts a b (List.mem_map.2 ⟨_, hina, rfl⟩)
          (List.mem_map.2 ⟨_, hinb, rfl⟩)
        convert this
      have huniq : ∀ m ∈ valuesOf (a, b) outs, crossMetrics ops cross da db = .ok m := by
        intro m hm
        obtain ⟨sp, _, m1, m2, h3, h4, _, h5⟩ := (C33_pairs c ops cross s specs outs houts a b m).1 ((mem_valuesOf _ _ _).1 hm)
        have e1 := (mem_valuesOf a m1 s).2 h3
        have e2 := (mem_valuesOf b m2 s).2 h4
        rw [hda'] at e1
        rw [hdb'] at e2
        simp only [List.mem_replicate] at e1 e2
        rw [e1.2, e2.2] at h5
        exact h5
      obtain ⟨x, hx⟩ : ∃ x, crossMetrics ops cross da db = .ok x := by
        cases hl : valuesOf (a, b) outs with
        | nil => rw [hl] at hcount; simp at hcount; omega
        | cons x l => exact ⟨x, huniq x (by rw [hl]; simp)⟩
      have hrep : valuesOf (a, b) outs = List.replicate j x := by
        rw [List.eq_replicate_iff]
        refine ⟨hcount, fun m hm => ?_⟩
        have := huniq m hm
        rw [hx] at this
        exact (Except.ok.inj this).symm
      have h3 := mapValues_values h (.cross a b)
      rw [hv, hrep] at h3
      obtain ⟨r, hr, hr'⟩ := replicate_values hpos h3
      exact ⟨da, db, x, r, hda, hdb, hx, hr, hr'⟩

/-- A pair of which one slice is missing has no record. -/
theorem derived_cross_missing {c : NumCodec} {ops : Ops V}
    {derived : List (Computation (Results V → Except Err (Results V)))}
    {cross : List (Computation (CrossFn V))} {specs : List CrossSpec} {baseline : Option String}
    {slices : List (SliceKey × Results V)} {out : List (AnyKey × Results V)}
    (h : addAllDerived c ops derived cross specs baseline slices = .ok out) {a b : SliceKey}
    (hm : a ∉ slices.map Prod.fst ∨ b ∉ slices.map Prod.fst) : valuesOf (.cross a b) out = [] := by
  unfold addAllDerived at h
  split at h
  · cases h
  · rename_i s hs
    split at h
    · cases h
    · rename_i s' hs'
      have hkeys := mapValues_keys hs
      obtain ⟨outs, houts, hv⟩ := addCross_cross hs' a b
      have : valuesOf (a, b) outs = [] := by
        rw [List.eq_nil_iff_forall_not_mem]
        intro m hmem
        obtain ⟨_, _, m1, m2, h3, h4, _⟩ := (C33_pairs c ops cross s specs outs houts a b m).1 ((mem_valuesOf _ _ _).1 hmem)
        rw [← hkeys] at hm
        rcases hm with hm | hm
        · exact hm (List.mem_map.2 ⟨_, h3, rfl⟩)
        · exact hm (List.mem_map.2 ⟨_, h4, rfl⟩)
      have h3 := mapValues_values h (.cross a b)
      rw [hv, this] at h3
      exact List.forall₂_nil_left_iff.1 h3

/-! ### Dictionaries stay dictionaries -/

theorem addDerived_WF {derived : List (Computation (Results V → Except Err (Results V)))} {m d : Results V}
    (hm : Dict.WF m) (h : addDerived derived m = .ok d) : Dict.WF d := by
  induction derived generalizing m with
  | nil => cases h; exact hm
  | cons c cs ih =>
    unfold addDerived at h
    split at h
    · cases h
    · exact ih (WF_updateWith hm _) h

theorem addDiff_WF {ops : Ops V} {baseline : Option String} {d r : Results V} (hd : Dict.WF d)
    (h : addDiff ops baseline d = .ok r) : Dict.WF r := by
  unfold addDiff at h
  split at h
  · cases h; exact hd
  · split at h
    · cases h; exact hd
    · split at h
      · cases h
      · cases h; exact WF_updateWith hd _

theorem crossMetrics_WF {ops : Ops V} {cross : List (Computation (CrossFn V))} {base comp m : Results V}
    (h : crossMetrics ops cross base comp = .ok m) : Dict.WF m := by
  unfold crossMetrics at h
  split at h
  · cases h
  · rename_i r hr
    have h1 : ∀ (items acc r : Results V), Dict.WF acc → crossLoop ops base items acc = .ok r → Dict.WF r := by
      intro items
      induction items with
      | nil => intro acc r hacc h; cases h; exact hacc
      | cons p items ih =>
        intro acc r hacc h
        obtain ⟨k, kd, v⟩ := p
        unfold crossLoop at h
        repeat' split at h
        all_goals first
          | exact ih acc r hacc h
          | exact ih _ r (WF_put hacc _ _ _) h
          | cases h
    have h2 : ∀ (cs : List (Computation (CrossFn V))) (acc r : Results V), Dict.WF acc →
        crossComputed base comp cs acc = .ok r → Dict.WF r := by
      intro cs
      induction cs with
      | nil => intro acc r hacc h; cases h; exact hacc
      | cons c cs ih =>
        intro acc r hacc h
        unfold crossComputed at h
        split at h
        · cases h
        · exact ih _ r (WF_updateWith hacc _) h
    exact h2 cross r m (h1 comp [] r Dict.WF_nil hr) h

end

/-! ### The numbers of a record -/

theorem get?_plain (r : Results (MV MetricKey)) (k : MetricKey) : Dict.get? (plain r) k = (Dict.get? r k).map Prod.snd := by
  induction r with
  | nil => rfl
  | cons p r ih =>
    obtain ⟨k', kd, v⟩ := p
    have : plain ((k', kd, v) :: r) = (k', v) :: plain r := rfl
    rw [this, Dict.get?_cons, Dict.get?_cons, ih]
    split <;> rfl

theorem numbersFor_plain {r : Results (MV MetricKey)} (h : Dict.WF r) {k : MetricKey} {kd : Kind} {x : ℝ}
    (hx : Dict.get? r k = some (kd, .num x)) : numbersFor k (plain r) = [x] := by
  induction r with
  | nil => cases hx
  | cons p r ih =>
    obtain ⟨k', kd', v⟩ := p
    have hwf' : Dict.WF r := (List.nodup_cons.1 h).2
    have hnot : k' ∉ Dict.keys r := (List.nodup_cons.1 h).1
    rw [Dict.get?_cons] at hx
    have hp : plain ((k', kd', v) :: r) = (k', v) :: plain r := rfl
    rw [hp]
    by_cases hk : k' = k
    · subst hk
      simp only [if_true, Option.some.injEq, Prod.mk.injEq] at hx
      obtain ⟨rfl, rfl⟩ := hx
      have : numbersFor k' (plain r) = [] := by
        unfold numbersFor
        rw [List.filterMap_eq_nil_iff]
        intro q hq
        have : q.1 ≠ k' := by
          rintro rfl
          obtain ⟨y, hy, rfl⟩ := List.mem_map.1 hq
          exact hnot (List.mem_map.2 ⟨y, hy, rfl⟩)
        simp [this]
      have hn : numbersFor k' ((k', .num x) :: plain r) = x :: numbersFor k' (plain r) := by
        simp [numbersFor, MV.number?]
      rw [hn, this]
    · simp only [hk, if_false] at hx
      have := ih hwf' hx
      unfold numbersFor at this ⊢
      simp only [List.filterMap_cons, hk, if_false]
      exact this

end Confidence
end TFMA
