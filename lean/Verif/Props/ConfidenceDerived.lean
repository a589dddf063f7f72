import Verif.Lemmas.ConfidencePipeline

/-!
# C130: confidence intervals of derived metrics, of differences between models and of differences between slices
-/

namespace TFMA
namespace Confidence

open Beam Evaluate MetricKeys Slicer

variable {ε α : Type} {c : CombineFn ε α} {n : ℕ}

/-! ### Specification -/

/-- The accumulators of the slices: the slices with `present`, each with the outcome of some execution of the combiner over
the elements `elems`. -/
structure Computed (c : CombineFn ε α) (present : SliceKey → Prop) (elems : SliceKey → List ε)
    (out : List (SliceKey × α)) : Prop where
  nodup : (out.map Prod.fst).Nodup
  keys : ∀ k, k ∈ out.map Prod.fst ↔ present k
  runs : ∀ k a, (k, a) ∈ out → ∃ s : Sched ε, s.inputs.Perm (elems k) ∧ c.run s = .ok a

/-- A resampling of the data: for each of the `n` samples and for all the data, which slices are present, the elements of
each slice, and the accumulators. -/
structure Resampling (c : CombineFn ε α) (n : ℕ) where
  present : ℕ → SliceKey → Prop
  elems : ℕ → SliceKey → List ε
  sample : ℕ → List (SliceKey × α)
  sample_ok : ∀ i < n, Computed c (present i) (elems i) (sample i)
  fullPresent : SliceKey → Prop
  fullElems : SliceKey → List ε
  full : List (SliceKey × α)
  full_ok : Computed c fullPresent fullElems full

/-- The jackknife: sample `i` has the elements that are not in bucket `i`. -/
def JackknifeRun.resampling {data : List ((SliceKey × ε) × ℕ)} (r : JackknifeRun c n data) : Resampling c n where
  present i k := ∃ p ∈ data, p.1.1 = k ∧ p.2 ≠ i
  elems i k := valuesOf k (without data i)
  sample := r.sample
  sample_ok i hi := by
    obtain ⟨h1, h2⟩ := C40_sample r i hi
    refine ⟨(r.sample_ok i hi).1, fun k => (h1 k).trans ?_, h2⟩
    simp only [without, List.mem_map, List.mem_filter, decide_eq_true_eq]
    constructor
    · rintro ⟨q, ⟨p, ⟨hp, hi⟩, rfl⟩, rfl⟩
      exact ⟨p, hp, rfl, hi⟩
    · rintro ⟨p, hp, hk, hi⟩
      exact ⟨p.1, ⟨p, ⟨hp, hi⟩, rfl⟩, hk⟩
  fullPresent k := ∃ p ∈ data, p.1.1 = k
  fullElems k := valuesOf k (data.map Prod.fst)
  full := r.full
  full_ok := by
    obtain ⟨h1, h2⟩ := C40_full r
    refine ⟨r.full_ok.1, fun k => (h1 k).trans ?_, h2⟩
    simp

/-- poisson_bootstrap.py 158–243 up to the combination of the samples: for each sample the sliced extracts, each with the
number of repetitions that was drawn for it. -/
structure BootstrapRun (c : CombineFn ε α) (n : ℕ) (data : List (SliceKey × ε)) where
  drawn : ℕ → List (SliceKey × ε × ℕ)
  drawn_ok : ∀ i < n, (drawn i).map (fun p => (p.1, p.2.1)) = data
  sample : ℕ → List (SliceKey × α)
  sample_ok : ∀ i < n, CombinesPerKey (bootstrapCombineFn c) (drawn i) (sample i)
  full : List (SliceKey × α)
  full_ok : CombinesPerKey c data full

/-- The bootstrap: sample `i` has each element as often as drawn; the slices are those of the data. -/
def BootstrapRun.resampling {data : List (SliceKey × ε)} (r : BootstrapRun c n data) : Resampling c n where
  present _ k := ∃ p ∈ data, p.1 = k
  elems i k := (valuesOf k (r.drawn i)).flatMap fun x => List.replicate x.2 x.1
  sample := r.sample
  sample_ok i hi := by
    obtain ⟨h1, h2⟩ := C63_sample c (r.drawn i) (r.sample i) (r.sample_ok i hi)
    refine ⟨(r.sample_ok i hi).1, fun k => (h1 k).trans ?_, h2⟩
    have hkeys : (r.drawn i).map Prod.fst = data.map Prod.fst := by
      conv_rhs => rw [← r.drawn_ok i hi]
      simp
    rw [hkeys]
    simp
  fullPresent k := ∃ p ∈ data, p.1 = k
  fullElems k := valuesOf k data
  full := r.full
  full_ok := ⟨r.full_ok.1, fun k => (r.full_ok.2.1 k).trans (by simp), r.full_ok.2.2⟩

/-- The results of a slice before the differences between models, computed directly from its elements: what the combiner
gives, and the derived metrics. -/
def SliceHas (derived : List (Computation (Results (MV MetricKey) → Except Err (Results (MV MetricKey)))))
    (direct : List ε → Results (MV MetricKey)) (xs : List ε) (key : MetricKey) (kd : Kind) (x : ℝ) : Prop :=
  ∃ d, addDerived derived (direct xs) = .ok d ∧ Dict.get? d key = some (kd, .num x)

/-- The results of a combiner computed directly from the elements. -/
def LawfulResults (c : CombineFn ε α) (metrics : α → Results (MV MetricKey)) (direct : List ε → Results (MV MetricKey)) :
    Prop :=
  (∀ (s : Sched ε) (a : α) (xs : List ε), s.inputs.Perm xs → c.run s = .ok a → metrics a = direct xs) ∧
    ∀ xs, Dict.WF (direct xs)

/-- A whole evaluation with confidence intervals: the records of all samples were computed and combined per slice. -/
structure Evaluation (R : Resampling c n) (metrics : α → Results (MV MetricKey)) (codec : NumCodec)
    (ops : Ops (MV MetricKey)) (derived : List (Computation (Results (MV MetricKey) → Except Err (Results (MV MetricKey)))))
    (specs : List CrossSpec) (baseline : Option String) (skip : List MetricKey) where
  recs : List (AnyKey × SampleMetrics MetricKey)
  recs_ok : records (deriveAll codec ops derived [] specs baseline) n
    (fun i => (R.sample i).map fun p => (p.1, metrics p.2)) (R.full.map fun p => (p.1, metrics p.2)) = .ok recs
  out : List (AnyKey × SampleAcc MetricKey)
  out_ok : CombinesPerKey (sampleCombineFn skip) recs out

/-- The entry of a metric with the numbers `xs` in the samples and `x` for all the data. -/
def HasInterval (errKey : MetricKey) (n : ℕ) (acc : SampleAcc MetricKey) (key : MetricKey) (x : ℝ) (xs : ℕ → ℝ) : Prop :=
  (∀ res, jackknifeExtract errKey n acc = .ok res → Dict.get? res key = some (.dist
    { mean := avg ((List.range n).map xs), std := Real.sqrt ((n - 1) / n * ssd ((List.range n).map xs)), dof := n - 1, unsampled := .num x })) ∧
  ∀ res, bootstrapExtract errKey n acc = .ok res → Dict.get? res key = some (.dist
    { mean := avg ((List.range n).map xs), std := Real.sqrt (ssd ((List.range n).map xs) / (n - 1)), dof := n - 1, unsampled := .num x })

/-! ### Entries of combined records -/

private theorem together_values (key : MetricKey) (skip : List MetricKey) (hskip : key ∉ skip) (j : ℕ)
    (ms : ℕ → Results (MV MetricKey)) (full : List (MetricsDict MetricKey)) (xs : ℕ → ℝ)
    (h : ∀ i < n, Dict.WF (ms i) ∧ ∃ kd, Dict.get? (ms i) key = some (kd, .num (xs i))) :
    sampleValues skip key (together n (fun i => List.replicate j (plain (ms i))) full) =
      (List.range n).flatMap fun i => List.replicate j (xs i) := by
  unfold sampleValues
  rw [if_neg hskip, proper_together, List.flatMap_assoc]
  apply List.flatMap_congr
  intro i hi
  obtain ⟨hwf, kd, hx⟩ := h i (List.mem_range.1 hi)
  rw [List.flatMap_map]
  have : ∀ j : ℕ, ((List.replicate j (plain (ms i))).flatMap fun m => numbersFor key m) = List.replicate j (xs i) := by
    intro j
    induction j with
    | zero => rfl
    | succ j ih => rw [List.replicate_succ, List.replicate_succ, List.flatMap_cons, ih, numbersFor_plain hwf hx]; rfl
  exact this j

private theorem flatMap_singleton' {A B : Type} (l : List A) (f : A → B) : (l.flatMap fun i => List.replicate 1 (f i)) = l.map f := by
  induction l with
  | nil => rfl
  | cons a l ih => rw [List.flatMap_cons, ih]; rfl

private theorem flatMap_replicate_length {A B : Type} (l : List A) (f : A → B) (j : ℕ) :
    (l.flatMap fun i => List.replicate j (f i)).length = l.length * j := by
  induction l with
  | nil => simp
  | cons a l ih => rw [List.flatMap_cons, List.length_append, ih, List.length_replicate, List.length_cons]; ring

private theorem proper_length (j : ℕ) (ms : ℕ → MetricsDict MetricKey) (full : List (MetricsDict MetricKey)) :
    (proper (together n (fun i => List.replicate j (ms i)) full)).length = n * j := by
  rw [proper_together]
  have := flatMap_replicate_length (List.range n) (fun i => (⟨ms i, (i : ℤ)⟩ : SampleMetrics MetricKey)) j
  rw [List.length_range] at this
  simpa using this

private theorem interval_once (errKey : MetricKey) (skip : List MetricKey) (hn : 2 ≤ n) {s : Sched (SampleMetrics MetricKey)}
    {acc : SampleAcc MetricKey} (hrun : (sampleCombineFn skip).run s = .ok acc) (ms : ℕ → Results (MV MetricKey))
    (mf : Results (MV MetricKey))
    (hs : s.inputs.Perm (together n (fun i => List.replicate 1 (plain (ms i))) (List.replicate 1 (plain mf))))
    (key : MetricKey) (hkey : key ≠ errKey) (hskip : key ∉ skip) (x : ℝ) (xs : ℕ → ℝ)
    (hx : ∃ kd, Dict.get? mf key = some (kd, .num x))
    (hxs : ∀ i < n, Dict.WF (ms i) ∧ ∃ kd, Dict.get? (ms i) key = some (kd, .num (xs i))) :
    HasInterval errKey n acc key x xs := by
  have hf := fulls_together n (fun i => List.replicate 1 (plain (ms i))) (List.replicate 1 (plain mf))
  have hp := proper_length (n := n) 1 (fun i => plain (ms i)) (List.replicate 1 (plain mf))
  have hv := together_values key skip hskip 1 ms (List.replicate 1 (plain mf)) xs hxs
  rw [flatMap_singleton'] at hv
  obtain ⟨kd, hx⟩ := hx
  have hx' : Dict.get? (plain mf) key = some (.num x) := by rw [get?_plain, hx]; rfl
  have hl : ((List.range n).map xs).length = n := by simp
  constructor
  · intro res hres
    have h := entry_of_records errKey n (by omega) skip (jackknifeValue n) (jackknifeValue_perm n) hs (plain mf)
      (by rw [hf]; simp) (by rw [hf]; simp) (by omega) res (by rw [hrun]; exact hres) key hkey (.num x) hx'
    rw [hv, if_pos hl] at h
    obtain ⟨o, h1, h2⟩ := h
    rw [C41_jackknife n hn x _ hl] at h1
    cases h1
    exact h2
  · intro res hres
    have h := entry_of_records errKey n (by omega) skip (bootstrapValue n) (bootstrapValue_perm n) hs (plain mf)
      (by rw [hf]; simp) (by rw [hf]; simp) (by omega) res (by rw [hrun]; exact hres) key hkey (.num x) hx'
    rw [hv, if_pos hl] at h
    obtain ⟨o, h1, h2⟩ := h
    rw [C41_bootstrap n hn (.num x) _ hl] at h1
    cases h1
    exact h2

section
variable {R : Resampling c n} {metrics : α → Results (MV MetricKey)} {direct : List ε → Results (MV MetricKey)}
  {codec : NumCodec} {ops : Ops (MV MetricKey)}
  {derived : List (Computation (Results (MV MetricKey) → Except Err (Results (MV MetricKey))))}
  {specs : List CrossSpec} {baseline : Option String} {skip : List MetricKey}

private theorem computed_mem (hl : LawfulResults c metrics direct) {present : SliceKey → Prop} {elems : SliceKey → List ε}
    {out : List (SliceKey × α)} (h : Computed c present elems out) {k : SliceKey} (hk : present k) :
    (k, direct (elems k)) ∈ out.map fun p => (p.1, metrics p.2) := by
  obtain ⟨⟨k', a⟩, hm, rfl⟩ := List.mem_map.1 ((h.keys k).2 hk)
  obtain ⟨s, hs, hr⟩ := h.runs k' a hm
  exact List.mem_map.2 ⟨_, hm, by rw [hl.1 s a _ hs hr]⟩

private theorem computed_keys {present : SliceKey → Prop} {elems : SliceKey → List ε}
    {out : List (SliceKey × α)} (h : Computed c present elems out) :
    ((out.map fun p => (p.1, metrics p.2)).map Prod.fst).Nodup ∧
      ∀ k, k ∈ (out.map fun p => (p.1, metrics p.2)).map Prod.fst ↔ present k := by
  have : (out.map fun p => (p.1, metrics p.2)).map Prod.fst = out.map Prod.fst := by simp
  rw [this]
  exact ⟨h.nodup, h.keys⟩

private theorem deriveAll_ok {codec : NumCodec} {slices : List (SliceKey × Results (MV MetricKey))}
    {l : List (AnyKey × MetricsDict MetricKey)} (h : deriveAll codec ops derived [] specs baseline slices = .ok l) :
    ∃ out, addAllDerived codec ops derived [] specs baseline slices = .ok out ∧
      ∀ k, valuesOf k l = (valuesOf k out).map plain := by
  unfold deriveAll at h
  split at h
  · cases h
  · rename_i out hout
    cases h
    exact ⟨out, hout, fun k => valuesOf_map k out plain⟩

/-- The records of a slice in an evaluation. -/
private theorem slice_records (hl : LawfulResults c metrics direct)
    (E : Evaluation R metrics codec ops derived specs baseline skip) (k : SliceKey)
    (hk : ∀ i < n, R.present i k) (hkf : R.fullPresent k) :
    ∃ (ms : ℕ → Results (MV MetricKey)) (mf : Results (MV MetricKey)),
      (∀ i < n, ∃ d, addDerived derived (direct (R.elems i k)) = .ok d ∧ addDiff ops baseline d = .ok (ms i)) ∧
      (∃ d, addDerived derived (direct (R.fullElems k)) = .ok d ∧ addDiff ops baseline d = .ok mf) ∧
      (valuesOf (.single k) E.recs).Perm
        (together n (fun i => List.replicate 1 (plain (ms i))) (List.replicate 1 (plain mf))) := by
  obtain ⟨outs, out, h1, h2, h3⟩ := records_ok E.recs_ok
  have hs : ∀ i, ∃ m, i < n → (∃ d, addDerived derived (direct (R.elems i k)) = .ok d ∧ addDiff ops baseline d = .ok m) ∧
      valuesOf (.single k) (outs i) = [plain m] := by
    intro i
    by_cases hi : i < n
    · obtain ⟨o, ho, hv⟩ := deriveAll_ok (h1 i hi)
      obtain ⟨d, r, hd, hr, hval⟩ := derived_single (computed_keys (R.sample_ok i hi)).1 ho
        (computed_mem hl (R.sample_ok i hi) (hk i hi))
      exact ⟨r, fun _ => ⟨⟨d, hd, hr⟩, by rw [hv, hval]; rfl⟩⟩
    · exact ⟨[], fun h => absurd h hi⟩
  choose ms hms using hs
  obtain ⟨o, ho, hv⟩ := deriveAll_ok h2
  obtain ⟨d, mf, hd, hr, hval⟩ := derived_single (computed_keys R.full_ok).1 ho (computed_mem hl R.full_ok hkf)
  refine ⟨ms, mf, fun i hi => (hms i hi).1, ⟨d, hd, hr⟩, List.Perm.of_eq ?_⟩
  rw [h3, valuesOf_records]
  unfold together
  congr 1
  · apply List.flatMap_congr
    intro i hi
    simp only [(hms i (List.mem_range.1 hi)).2]; rfl
  · rw [hv, hval]; rfl

open Classical in
/-- The records of a pair of slices in an evaluation. -/
private theorem pair_records (hl : LawfulResults c metrics direct)
    (E : Evaluation R metrics codec ops derived specs baseline skip) (a b : SliceKey) (j : ℕ)
    (hj : specs.countP (fun s => decide (Asked codec s a b)) = j) (hpos : 0 < j)
    (ha : ∀ i < n, R.present i a) (hb : ∀ i < n, R.present i b) (haf : R.fullPresent a) (hbf : R.fullPresent b) :
    ∃ (ms : ℕ → Results (MV MetricKey)) (mf : Results (MV MetricKey)),
      (∀ i < n, ∃ da db x, addDerived derived (direct (R.elems i a)) = .ok da ∧
        addDerived derived (direct (R.elems i b)) = .ok db ∧ crossMetrics ops [] da db = .ok x ∧
        addDiff ops baseline x = .ok (ms i)) ∧
      (∃ da db x, addDerived derived (direct (R.fullElems a)) = .ok da ∧
        addDerived derived (direct (R.fullElems b)) = .ok db ∧ crossMetrics ops [] da db = .ok x ∧
        addDiff ops baseline x = .ok mf) ∧
      (valuesOf (.cross a b) E.recs).Perm
        (together n (fun i => List.replicate j (plain (ms i))) (List.replicate j (plain mf))) := by
  obtain ⟨outs, out, h1, h2, h3⟩ := records_ok E.recs_ok
  have hs : ∀ i, ∃ m, i < n → (∃ da db x, addDerived derived (direct (R.elems i a)) = .ok da ∧
        addDerived derived (direct (R.elems i b)) = .ok db ∧ crossMetrics ops [] da db = .ok x ∧
        addDiff ops baseline x = .ok m) ∧
      valuesOf (.cross a b) (outs i) = List.replicate j (plain m) := by
    intro i
    by_cases hi : i < n
    · obtain ⟨o, ho, hv⟩ := deriveAll_ok (h1 i hi)
      obtain ⟨da, db, x, r, e1, e2, e3, e4, hval⟩ := derived_cross (computed_keys (R.sample_ok i hi)).1 ho
        (computed_mem hl (R.sample_ok i hi) (ha i hi)) (computed_mem hl (R.sample_ok i hi) (hb i hi)) j
        (by convert hj) hpos
      exact ⟨r, fun _ => ⟨⟨da, db, x, e1, e2, e3, e4⟩, by rw [hv, hval, List.map_replicate]⟩⟩
    · exact ⟨[], fun h => absurd h hi⟩
  choose ms hms using hs
  obtain ⟨o, ho, hv⟩ := deriveAll_ok h2
  obtain ⟨da, db, x, mf, e1, e2, e3, e4, hval⟩ := derived_cross (computed_keys R.full_ok).1 ho
    (computed_mem hl R.full_ok haf) (computed_mem hl R.full_ok hbf) j (by convert hj) hpos
  refine ⟨ms, mf, fun i hi => (hms i hi).1, ⟨da, db, x, e1, e2, e3, e4⟩, List.Perm.of_eq ?_⟩
  rw [h3, valuesOf_records]
  unfold together
  congr 1
  · apply List.flatMap_congr
    intro i hi
    simp only [(hms i (List.mem_range.1 hi)).2]
  · rw [hv, hval, List.map_replicate]

private theorem addDiff_keeps {d r : Results (MV MetricKey)} (hwf : Dict.WF d) (h : addDiff ops baseline d = .ok r)
    (key : MetricKey) (hd : key.isDiff = false) : Dict.get? r key = Dict.get? d key := by
  cases hb : baseline with
  | none => rw [hb] at h; cases h; rfl
  | some b =>
    rw [hb] at h
    by_cases hb' : b = ""
    · subst hb'
      rw [(C32_no_baseline ops d).2] at h
      cases h; rfl
    · exact C32_values_unchanged ops b hb' d r hwf h key hd

/-! ### Theorems -/

/-- C130: a metric of a slice that is present in all samples, computed by the combiner or derived from others: the interval
is that of the values computed from the elements of the slice in each sample, with the value for all the data. -/
theorem C130_slice (errKey : MetricKey) (hn : 2 ≤ n) (hl : LawfulResults c metrics direct)
    (E : Evaluation R metrics codec ops derived specs baseline skip) (k : SliceKey) (acc : SampleAcc MetricKey)
    (hacc : (AnyKey.single k, acc) ∈ E.out) (hk : ∀ i < n, R.present i k) (hkf : R.fullPresent k)
    (key : MetricKey) (hkey : key ≠ errKey) (hskip : key ∉ skip) (hd : key.isDiff = false) (kd : Kind) (x : ℝ) (xs : ℕ → ℝ)
    (hx : SliceHas derived direct (R.fullElems k) key kd x)
    (hxs : ∀ i < n, SliceHas derived direct (R.elems i k) key kd (xs i)) : HasInterval errKey n acc key x xs := by
  obtain ⟨s, hs, hr⟩ := E.out_ok.2.2 _ acc hacc
  obtain ⟨ms, mf, h1, h2, h3⟩ := slice_records hl E k hk hkf
  refine interval_once errKey skip hn hr ms mf (hs.trans h3) key hkey hskip x xs ?_ ?_
  · obtain ⟨d, e1, e2⟩ := hx
    obtain ⟨d', e3, e4⟩ := h2
    rw [e1] at e3; cases e3
    exact ⟨kd, by rw [addDiff_keeps (addDerived_WF (hl.2 _) e1) e4 key hd, e2]⟩
  · intro i hi
    obtain ⟨d, e1, e2⟩ := hxs i hi
    obtain ⟨d', e3, e4⟩ := h1 i hi
    rw [e1] at e3; cases e3
    have hwf := addDerived_WF (hl.2 _) e1
    exact ⟨addDiff_WF hwf e4, kd, by rw [addDiff_keeps hwf e4 key hd, e2]⟩

/-- C130: the difference between a model and the baseline model has an interval of its own, computed from the difference of
the two values in each sample. -/
theorem C130_model_difference (errKey : MetricKey) (hn : 2 ≤ n) (hl : LawfulResults c metrics direct) (b : String) (hb : b ≠ "")
    (E : Evaluation R metrics codec ops derived specs (some b) skip) (k : SliceKey) (acc : SampleAcc MetricKey)
    (hacc : (AnyKey.single k, acc) ∈ E.out) (hk : ∀ i < n, R.present i k) (hkf : R.fullPresent k)
    (hsub : ∀ u v : ℝ, ops.diffable (.num u) = true ∧ ops.sub (.num u) (.num v) = .ok (.num (u - v)))
    (key : MetricKey) (hd : key.isDiff = false) (hm : key.modelName ≠ b) (hp : ¬ PrivateName key.name)
    (hkey : { key with isDiff := true } ≠ errKey) (hskip : { key with isDiff := true } ∉ skip) (kd kd' : Kind) (u v : ℝ) (us vs : ℕ → ℝ)
    (hu : SliceHas derived direct (R.fullElems k) key kd u)
    (hv : SliceHas derived direct (R.fullElems k) { key with modelName := b } kd' v)
    (hus : ∀ i < n, SliceHas derived direct (R.elems i k) key kd (us i))
    (hvs : ∀ i < n, SliceHas derived direct (R.elems i k) { key with modelName := b } kd' (vs i)) :
    HasInterval errKey n acc { key with isDiff := true } (u - v) fun i => us i - vs i := by
  obtain ⟨s, hs, hr⟩ := E.out_ok.2.2 _ acc hacc
  obtain ⟨ms, mf, h1, h2, h3⟩ := slice_records hl E k hk hkf
  have hbk : ({ key with modelName := b, isDiff := false } : MetricKey) = { key with modelName := b } := by rw [← hd]
  have main : ∀ (xs : List ε) (u v : ℝ) (m : Results (MV MetricKey)), SliceHas derived direct xs key kd u →
      SliceHas derived direct xs { key with modelName := b } kd' v →
      (∃ d, addDerived derived (direct xs) = .ok d ∧ addDiff ops (some b) d = .ok m) →
      Dict.WF m ∧ ∃ kd, Dict.get? m { key with isDiff := true } = some (kd, .num (u - v)) := by
    rintro xs u v m ⟨d, e1, e2⟩ ⟨d1, e3, e4⟩ ⟨d2, e5, e6⟩
    rw [e1] at e3; cases e3
    rw [e1] at e5; cases e5
    have hwf := addDerived_WF (hl.2 _) e1
    obtain ⟨x, kd2, e7, e8, _⟩ := C32_difference ops b hb d m hwf e6 key kd (.num u) (.num v)
      ⟨e2, hp, hd, hm, ⟨kd', by rw [hbk]; exact e4⟩, (hsub u v).1⟩
    rw [(hsub u v).2] at e7
    cases e7
    exact ⟨addDiff_WF hwf e6, kd2, e8⟩
  refine interval_once errKey skip hn hr ms mf (hs.trans h3) _ hkey hskip _ _ (main _ u v mf hu hv h2).2 ?_
  intro i hi
  exact main _ _ _ (ms i) (hus i hi) (hvs i hi) (h1 i hi)

private theorem pair_number (hl : LawfulResults c metrics direct)
    (hsub : ∀ u v : ℝ, ops.sub (.num u) (.num v) = .ok (.num (u - v))) (key : MetricKey) (hd : key.isDiff = false)
    (hp : ¬ PrivateName key.name) (kd : Kind) (xa xb : List ε) (u v : ℝ) (m : Results (MV MetricKey))
    (hu : SliceHas derived direct xa key kd u) (hv : SliceHas derived direct xb key .metric v)
    (h : ∃ da db x, addDerived derived (direct xa) = .ok da ∧ addDerived derived (direct xb) = .ok db ∧
      crossMetrics ops [] da db = .ok x ∧ addDiff ops baseline x = .ok m) :
    Dict.WF m ∧ ∃ kd, Dict.get? m key = some (kd, .num (u - v)) := by
  obtain ⟨da, db, x, e1, e2, e3, e4⟩ := h
  obtain ⟨d1, e5, e6⟩ := hu
  obtain ⟨d2, e7, e8⟩ := hv
  rw [e1] at e5; cases e5
  rw [e2] at e7; cases e7
  have hwf := crossMetrics_WF e3
  refine ⟨addDiff_WF hwf e4, .metric, ?_⟩
  rw [addDiff_keeps hwf e4 key hd, C33_values ops da db x (addDerived_WF (hl.2 _) e2) e3]
  exact ⟨_, _, _, e8, e6, hp, rfl, hsub u v⟩

open Classical in
/-- C130: a pair of slices that one cross slicing spec asks for and that are both present in all samples: the difference
of a metric has an interval of its own, computed from the difference of the two values in each sample. -/
theorem C130_pair (errKey : MetricKey) (hn : 2 ≤ n) (hl : LawfulResults c metrics direct)
    (E : Evaluation R metrics codec ops derived specs baseline skip) (a b : SliceKey) (acc : SampleAcc MetricKey)
    (hacc : (AnyKey.cross a b, acc) ∈ E.out) (hone : specs.countP (fun s => decide (Asked codec s a b)) = 1)
    (ha : ∀ i < n, R.present i a) (hb : ∀ i < n, R.present i b) (haf : R.fullPresent a) (hbf : R.fullPresent b)
    (hsub : ∀ u v : ℝ, ops.sub (.num u) (.num v) = .ok (.num (u - v)))
    (key : MetricKey) (hkey : key ≠ errKey) (hskip : key ∉ skip) (hd : key.isDiff = false) (hp : ¬ PrivateName key.name)
    (u v : ℝ) (us vs : ℕ → ℝ)
    (hu : SliceHas derived direct (R.fullElems a) key .metric u) (hv : SliceHas derived direct (R.fullElems b) key .metric v)
    (hus : ∀ i < n, SliceHas derived direct (R.elems i a) key .metric (us i))
    (hvs : ∀ i < n, SliceHas derived direct (R.elems i b) key .metric (vs i)) :
    HasInterval errKey n acc key (u - v) fun i => us i - vs i := by
  obtain ⟨s, hs, hr⟩ := E.out_ok.2.2 _ acc hacc
  obtain ⟨ms, mf, h1, h2, h3⟩ := pair_records hl E a b 1 hone (by omega) ha hb haf hbf
  refine interval_once errKey skip hn hr ms mf (hs.trans h3) key hkey hskip _ _
    (pair_number hl hsub key hd hp .metric _ _ u v mf hu hv h2).2 ?_
  intro i hi
  exact pair_number hl hsub key hd hp .metric _ _ _ _ (ms i) (hus i hi) (hvs i hi) (h1 i hi)

open Classical in
/-- C130 (negation of "every pair gets intervals"): a pair that two or more cross slicing specs ask for has no interval: the
samples are counted once for every spec, which is not the expected number, and the plain difference is left. -/
theorem C130_pair_twice_fails (errKey : MetricKey) (hn : 0 < n) (hl : LawfulResults c metrics direct)
    (E : Evaluation R metrics codec ops derived specs baseline skip) (a b : SliceKey) (acc : SampleAcc MetricKey)
    (hacc : (AnyKey.cross a b, acc) ∈ E.out) (htwo : 2 ≤ specs.countP (fun s => decide (Asked codec s a b)))
    (ha : ∀ i < n, R.present i a) (hb : ∀ i < n, R.present i b) (haf : R.fullPresent a) (hbf : R.fullPresent b)
    (hsub : ∀ u v : ℝ, ops.sub (.num u) (.num v) = .ok (.num (u - v)))
    (key : MetricKey) (hkey : key ≠ errKey) (hd : key.isDiff = false) (hp : ¬ PrivateName key.name)
    (u v : ℝ) (us vs : ℕ → ℝ)
    (hu : SliceHas derived direct (R.fullElems a) key .metric u) (hv : SliceHas derived direct (R.fullElems b) key .metric v)
    (hus : ∀ i < n, SliceHas derived direct (R.elems i a) key .metric (us i))
    (hvs : ∀ i < n, SliceHas derived direct (R.elems i b) key .metric (vs i))
    (f : MV MetricKey → List ℝ → Except Err (Out MetricKey)) (hf : ∀ v l m, l.Perm m → f v l = f v m)
    (res : Dict MetricKey (Out MetricKey)) (hres : extractWith errKey n f acc = .ok res) :
    Dict.get? res key = some (.value (.num (u - v))) := by
  obtain ⟨s, hs, hr⟩ := E.out_ok.2.2 _ acc hacc
  obtain ⟨ms, mf, h1, h2, h3⟩ := pair_records hl E a b _ rfl (by omega) ha hb haf hbf
  generalize specs.countP (fun s => decide (Asked codec s a b)) = j at h3 htwo
  have hfull := fulls_together n (fun i => List.replicate j (plain (ms i))) (List.replicate j (plain mf))
  have hprop := proper_length (n := n) j (fun i => plain (ms i)) (List.replicate j (plain mf))
  obtain ⟨_, kd, hx⟩ := pair_number hl hsub key hd hp .metric _ _ u v mf hu hv h2
  have hx' : Dict.get? (plain mf) key = some (.num (u - v)) := by rw [get?_plain, hx]; rfl
  have hlt : n < n * j := by nlinarith
  have h := entry_of_records errKey n hn skip f hf (hs.trans h3) (plain mf) (by rw [hfull]; simp; omega)
    (by
      intro x hx
      rw [hfull] at hx
      obtain ⟨m, hm, rfl⟩ := List.mem_map.1 hx
      exact (List.mem_replicate.1 hm).2) (by rw [hprop]; omega) res (by rw [hr]; exact hres) key hkey (.num (u - v)) hx'
  rw [if_neg] at h
  · exact h
  · by_cases hskip : key ∈ skip
    · unfold sampleValues
      rw [if_pos hskip, List.length_nil]
      omega
    · rw [together_values key skip hskip j ms _ (fun i => us i - vs i) fun i hi =>
        pair_number hl hsub key hd hp .metric _ _ _ _ (ms i) (hus i hi) (hvs i hi) (h1 i hi), flatMap_replicate_length,
        List.length_range]
      omega

open Classical in
/-- C130: a pair of slices of which one is missing in some sample has no interval: all its metrics are the plain
differences for all the data, and an error entry says how many samples were found. -/
theorem C130_pair_missing (errKey : MetricKey) (hl : LawfulResults c metrics direct)
    (E : Evaluation R metrics codec ops derived specs baseline skip) (a b : SliceKey) (acc : SampleAcc MetricKey)
    (hacc : (AnyKey.cross a b, acc) ∈ E.out) (hone : specs.countP (fun s => decide (Asked codec s a b)) = 1)
    (i : ℕ) (hi : i < n) (hmiss : ¬ R.present i a ∨ ¬ R.present i b) (haf : R.fullPresent a) (hbf : R.fullPresent b)
    (f : MV MetricKey → List ℝ → Except Err (Out MetricKey)) :
    ∃ res found, extractWith errKey n f acc = .ok res ∧ found < n ∧
      Dict.get? res errKey = some (.value (.note (.missingSamples found n))) ∧
      ∃ da db x m, addDerived derived (direct (R.fullElems a)) = .ok da ∧ addDerived derived (direct (R.fullElems b)) = .ok db ∧
        crossMetrics ops [] da db = .ok x ∧ addDiff ops baseline x = .ok m ∧
        ∀ key, key ≠ errKey → Dict.get? res key = (Dict.get? m key).map fun p => Out.value p.2 := by
  obtain ⟨s, hs, hr⟩ := E.out_ok.2.2 _ acc hacc
  obtain ⟨outs, out, h1, h2, h3⟩ := records_ok E.recs_ok
  rw [h3, valuesOf_records] at hs
  obtain ⟨o, ho, hv⟩ := deriveAll_ok h2
  obtain ⟨da, db, x, m, e1, e2, e3, e4, hval⟩ := derived_cross (computed_keys R.full_ok).1 ho
    (computed_mem hl R.full_ok haf) (computed_mem hl R.full_ok hbf) 1 (by convert hone) (by omega)
  have hfull : fulls (together n (fun i => valuesOf (.cross a b) (outs i)) (valuesOf (.cross a b) out)) =
      [⟨plain m, fullSampleId⟩] := by
    rw [fulls_together, hv, hval]; rfl
  have hle : ∀ i < n, (valuesOf (.cross a b) (outs i)).length ≤ 1 := by
    intro i hi
    obtain ⟨o, ho, hv⟩ := deriveAll_ok (h1 i hi)
    by_cases hp : R.present i a ∧ R.present i b
    · obtain ⟨_, _, _, r, _, _, _, _, hval⟩ := derived_cross (computed_keys (R.sample_ok i hi)).1 ho
        (computed_mem hl (R.sample_ok i hi) hp.1) (computed_mem hl (R.sample_ok i hi) hp.2) 1 (by convert hone) (by omega)
      rw [hv, hval]; simp
    · rw [hv, derived_cross_missing ho]
      · simp
      · rw [not_and_or] at hp
        rcases hp with hp | hp
        · exact .inl fun h => hp (((computed_keys (R.sample_ok i hi)).2 a).1 h)
        · exact .inr fun h => hp (((computed_keys (R.sample_ok i hi)).2 b).1 h)
  have hzero : valuesOf (.cross a b) (outs i) = [] := by
    obtain ⟨o, ho, hv⟩ := deriveAll_ok (h1 i hi)
    rw [hv, derived_cross_missing ho]
    · rfl
    · rcases hmiss with hp | hp
      · exact .inl fun h => hp (((computed_keys (R.sample_ok i hi)).2 a).1 h)
      · exact .inr fun h => hp (((computed_keys (R.sample_ok i hi)).2 b).1 h)
  have hlt : (proper (together n (fun i => valuesOf (.cross a b) (outs i)) (valuesOf (.cross a b) out))).length < n := by
    rw [proper_together, List.length_flatMap]
    simp only [List.length_map]
    have : ∀ l : List ℕ, (∀ j ∈ l, j < n) →
        (l.map fun j => (valuesOf (AnyKey.cross a b) (outs j)).length).sum + (if i ∈ l then 1 else 0) ≤ l.length := by
      intro l hl'
      induction l with
      | nil => simp
      | cons j l ih =>
        have ih := ih fun j hj => hl' j (by simp [hj])
        have h1 := hle j (hl' j (by simp))
        rw [List.map_cons, List.sum_cons, List.length_cons]
        by_cases hij : i = j
        · subst hij
          rw [hzero]
          simp only [List.length_nil, List.mem_cons, true_or, if_true]
          split at ih <;> omega
        · simp only [List.mem_cons, hij, false_or]
          by_cases hil : i ∈ l
          · simp only [hil, if_true] at ih ⊢; omega
          · simp only [hil, if_false] at ih ⊢; omega
    have := this (List.range n) fun j hj => List.mem_range.1 hj
    rw [if_pos (List.mem_range.2 hi), List.length_range] at this
    omega
  obtain ⟨res, r1, r2, r3⟩ := C42_missing_samples errKey n skip f hs _ hfull hlt
  rw [hr] at r1
  refine ⟨res, _, r1, hlt, r2, da, db, x, m, e1, e2, e3, e4, fun key hkey => ?_⟩
  rw [r3 key hkey, get?_plain]
  cases Dict.get? m key <;> rfl

end

/-- C130: in the jackknife a slice is missing in a sample exactly if all its elements are in the bucket left out; in the
bootstrap no slice of the data is ever missing. -/
theorem C130_missing {data : List ((SliceKey × ε) × ℕ)} (r : JackknifeRun c n data) {data' : List (SliceKey × ε)}
    (r' : BootstrapRun c n data') (i : ℕ) (k : SliceKey) :
    (¬ r.resampling.present i k ↔ ∀ p ∈ data, p.1.1 = k → p.2 = i) ∧
      (r'.resampling.present i k ↔ r'.resampling.fullPresent k) := by
  refine ⟨?_, Iff.rfl⟩
  simp only [JackknifeRun.resampling, not_exists, not_and, not_not]

/-- C130: a transform that fails for one sample, or for all the data, makes the computation of all intervals fail. -/
theorem C130_failure {K L D M : Type} (derive : List (K × D) → Except Err (List (L × MetricsDict M))) (n : ℕ)
    (sample : ℕ → List (K × D)) (full : List (K × D)) :
    (∃ recs, records derive n sample full = .ok recs) ↔
      (∀ i < n, ∃ l, derive (sample i) = .ok l) ∧ ∃ l, derive full = .ok l := by
  constructor
  · rintro ⟨recs, h⟩
    obtain ⟨outs, out, h1, h2, _⟩ := records_ok h
    exact ⟨fun i hi => ⟨_, h1 i hi⟩, _, h2⟩
  · rintro ⟨h1, l, h2⟩
    have : ∀ is : List ℕ, (∀ i ∈ is, i < n) → ∃ a, sampleLoop derive sample is = .ok a := by
      intro is
      induction is with
      | nil => intro _; exact ⟨[], rfl⟩
      | cons i is ih =>
        intro hlt
        obtain ⟨a, ha⟩ := ih fun j hj => hlt j (by simp [hj])
        obtain ⟨o, ho⟩ := h1 i (hlt i (by simp))
        exact ⟨tag i o ++ a, by simp only [sampleLoop, sampleOf, ho, ha]⟩
    obtain ⟨a, ha⟩ := this (List.range n) fun i hi => List.mem_range.1 hi
    exact ⟨a ++ tag fullSampleId l, by simp only [records, ha, sampleOf, h2]⟩

/-- C130: intervals are computed exactly if they are enabled and a method is set, with twenty samples; the defaults of the
configuration set the jackknife where none is set, so that enabling is then enough. -/
theorem C130_method (enabled : Bool) (m : Method) :
    (enabled = false → chosen (ciParams enabled m) = (.unknown, 0)) ∧
    (enabled = true → m ≠ .unknown → chosen (ciParams enabled m) = (m, 20)) ∧
    (enabled = true → chosen (ciParams enabled .unknown) = (.unknown, 0)) ∧
    (enabled = true → chosen (ciParams enabled (withDefault enabled m)) = (if m = .unknown then .jackknife else m, 20)) := by
  cases enabled <;> cases m <;> simp [chosen, ciParams, withDefault]

/-- C130: the number of samples is one that the bootstrap accepts whenever the bootstrap is used. -/
theorem C130_bootstrap_accepted (enabled : Bool) (m : Method) (k : ℕ) (h : chosen (ciParams enabled m) = (.bootstrap, k)) :
    checkBootstrap k = .ok () ∧ 2 ≤ k := by
  cases enabled <;> cases m <;> simp [chosen, ciParams] at h
  subst h
  simp [checkBootstrap]

/-- C130: the bootstrap refuses exactly the numbers of samples that are not positive. -/
theorem C130_bootstrap_refused (n : ℤ) : checkBootstrap n = .error .valueError ↔ n ≤ 0 := by
  unfold checkBootstrap
  split_ifs with h
  · simp; omega
  · simp; omega

/-- C130: the default only replaces a method that has not been set, and only if intervals are wanted. -/
theorem C130_default_method (enabled : Bool) (m : Method) :
    (enabled = false → withDefault enabled m = m) ∧ (m ≠ .unknown → withDefault enabled m = m) ∧ withDefault true .unknown = .jackknife := by
  cases enabled <;> cases m <;> simp [withDefault]

example : checkBootstrap 1 = .ok () ∧ checkBootstrap 0 = .error .valueError ∧ withDefault false .unknown = .unknown := by
  simp [checkBootstrap, withDefault]

/-! ### An evaluation that meets the hypotheses -/

private theorem exists_combined (skip : List MetricKey) (recs : List (AnyKey × SampleMetrics MetricKey)) :
    ∃ out, CombinesPerKey (sampleCombineFn skip) recs out := by
  have h : ∀ k, ∃ acc, (sampleCombineFn skip).run (.bundle (valuesOf k recs)) = .ok acc := fun k =>
    let ⟨acc, h, _⟩ := run_represents skip (.bundle (valuesOf k recs)); ⟨acc, h⟩
  choose acc hacc using h
  refine ⟨(recs.map Prod.fst).dedup.map fun k => (k, acc k), ?_, ?_, ?_⟩
  · rw [List.map_map]
    have : (Prod.fst ∘ fun k => (k, acc k)) = id := rfl
    rw [this, List.map_id]
    exact List.nodup_dedup _
  · intro k
    rw [List.map_map]
    have : (Prod.fst ∘ fun k => (k, acc k)) = id := rfl
    rw [this, List.map_id, List.mem_dedup]
  · intro k a hka
    obtain ⟨k', _, he⟩ := List.mem_map.1 hka
    cases he
    exact ⟨_, List.Perm.refl _, hacc k⟩

private theorem sumFn_total (s : Sched ℕ) (a : ℕ) (h : sumFn.run s = .ok a) : a = s.inputs.sum := by
  refine run_rel (c := sumFn) (P := fun xs a => a = xs.sum) rfl ?_ ?_ s a h
  · intro xs a x b hP hb
    cases hb
    simp [hP]
  · intro l hl hP b hb
    cases hb
    rw [List.sum_flatten, List.map_map]
    congr 1
    exact List.map_congr_left fun p hp => hP p hp

/-- The slice of the feature `f` with the value `x`. -/
private def sliceX : SliceKey := [("f", .str "x")]

/-- Two bootstrap samples over the overall slice and one more slice; the element of the overall slice is drawn once in the
first sample and twice in the second. -/
def exampleBootstrap : BootstrapRun sumFn 2 [([], 5), ([("f", .str "x")], 1)] where
  drawn i := [([], 5, i + 1), (sliceX, 1, 1)]
  drawn_ok _ _ := rfl
  sample i := [([], 5 * (i + 1)), (sliceX, 1)]
  sample_ok i hi := by
    refine ⟨by simp [sliceX], by simp, fun k a h => ?_⟩
    simp only [List.mem_cons, Prod.mk.injEq, List.not_mem_nil, or_false] at h
    rcases h with ⟨rfl, rfl⟩ | ⟨rfl, rfl⟩
    · refine ⟨.bundle [(5, i + 1)], by simp [Sched.inputs, valuesOf, sliceX], ?_⟩
      obtain rfl | rfl : i = 0 ∨ i = 1 := by omega
      · rfl
      · rfl
    · refine ⟨.bundle [(1, 1)], by simp [Sched.inputs, valuesOf, sliceX], rfl⟩
  full := [([], 5), (sliceX, 1)]
  full_ok := by
    refine ⟨by simp [sliceX], by simp [sliceX], fun k a h => ?_⟩
    simp only [List.mem_cons, Prod.mk.injEq, List.not_mem_nil, or_false] at h
    rcases h with ⟨rfl, rfl⟩ | ⟨rfl, rfl⟩
    · exact ⟨.bundle [5], by simp [Sched.inputs, valuesOf], rfl⟩
    · exact ⟨.bundle [1], by simp [Sched.inputs, valuesOf, sliceX], rfl⟩

private def sumMetrics (a : ℕ) : Results (MV MetricKey) := [({ name := "m" }, .metric, .num a)]

private noncomputable def numOps : Ops (MV MetricKey) where
  diffable v := match v with
    | .num _ => true
    | _ => false
  sub v w := match v, w with
    | .num x, .num y => .ok (.num (x - y))
    | _, _ => .error .typeError

open Classical in
/-- The difference between the two slices in the two samples is 4 and 9; the interval is that of these numbers. -/
example (codec : NumCodec) : ∃ (E : Evaluation exampleBootstrap.resampling sumMetrics codec numOps [] [⟨⟨[], []⟩, []⟩] none [])
    (acc : SampleAcc MetricKey), (AnyKey.cross [] sliceX, acc) ∈ E.out ∧
      HasInterval { name := "__ERROR__" } 2 acc { name := "m" } (5 - 1) fun i => (if i = 0 then 5 else 10) - 1 := by
  have hrec : ∃ recs, records (deriveAll codec numOps [] [] [⟨⟨[], []⟩, []⟩] none) 2
      (fun i => (exampleBootstrap.resampling.sample i).map fun p => (p.1, sumMetrics p.2))
      (exampleBootstrap.resampling.full.map fun p => (p.1, sumMetrics p.2)) = .ok recs ∧
      AnyKey.cross [] sliceX ∈ recs.map Prod.fst := ⟨_, rfl, by simp [tag]⟩
  obtain ⟨recs, h1, h2⟩ := hrec
  obtain ⟨out, hout⟩ := exists_combined [] recs
  obtain ⟨⟨k, acc⟩, hacc, hk⟩ := List.mem_map.1 ((hout.2.1 _).2 h2)
  have hk : k = AnyKey.cross [] sliceX := hk
  subst hk
  refine ⟨⟨recs, h1, out, hout⟩, acc, hacc, ?_⟩
  have hl : LawfulResults sumFn sumMetrics fun xs => sumMetrics xs.sum := by
    refine ⟨fun s a xs hp hr => ?_, fun xs => by simp [sumMetrics, Dict.WF, Dict.keys]⟩
    rw [sumFn_total s a hr, hp.sum_eq]
  have hone : [(⟨⟨[], []⟩, []⟩ : CrossSpec)].countP (fun s => decide (Asked codec s [] sliceX)) = 1 := by
    have : Asked codec ⟨⟨[], []⟩, []⟩ [] sliceX := ⟨rfl, rfl⟩
    simp [this]
  have hp0 : ∀ i < 2, exampleBootstrap.resampling.present i [] := fun i _ => ⟨([], 5), by simp, rfl⟩
  have hp1 : ∀ i < 2, exampleBootstrap.resampling.present i sliceX := fun i _ => ⟨(sliceX, 1), by simp [sliceX], rfl⟩
  refine C130_pair _ (by omega) hl ⟨recs, h1, out, hout⟩ [] sliceX acc hacc hone hp0 hp1 (hp0 0 (by omega)) (hp1 0 (by omega))
    (fun u v => rfl) { name := "m" } (by decide) (by simp) rfl ?_ 5 1 _ (fun _ => 1) ?_ ?_ ?_ ?_
  · rw [← isPrivate_iff]; decide
  · exact ⟨_, rfl, by simp [BootstrapRun.resampling, valuesOf, sumMetrics, Dict.get?]⟩
  · exact ⟨_, rfl, by simp [BootstrapRun.resampling, valuesOf, sumMetrics, Dict.get?, sliceX]⟩
  · intro i hi
    refine ⟨_, rfl, ?_⟩
    obtain rfl | rfl : i = 0 ∨ i = 1 := by omega
    · simp [BootstrapRun.resampling, exampleBootstrap, valuesOf, sumMetrics, Dict.get?, sliceX]
    · simp [BootstrapRun.resampling, exampleBootstrap, valuesOf, sumMetrics, Dict.get?, sliceX]
  · intro i hi
    exact ⟨_, rfl, by simp [BootstrapRun.resampling, exampleBootstrap, valuesOf, sumMetrics, Dict.get?, sliceX]⟩

open Classical in
/-- With the same cross slicing spec given twice there is only the plain difference. -/
example (codec : NumCodec) : ∃ (E : Evaluation exampleBootstrap.resampling sumMetrics codec numOps [] [⟨⟨[], []⟩, []⟩, ⟨⟨[], []⟩, []⟩] none [])
    (acc : SampleAcc MetricKey), (AnyKey.cross [] sliceX, acc) ∈ E.out ∧
      ∀ res, bootstrapExtract { name := "__ERROR__" } 2 acc = .ok res → Dict.get? res { name := "m" } = some (.value (.num (5 - 1))) := by
  have hrec : ∃ recs, records (deriveAll codec numOps [] [] [⟨⟨[], []⟩, []⟩, ⟨⟨[], []⟩, []⟩] none) 2
      (fun i => (exampleBootstrap.resampling.sample i).map fun p => (p.1, sumMetrics p.2))
      (exampleBootstrap.resampling.full.map fun p => (p.1, sumMetrics p.2)) = .ok recs ∧
      AnyKey.cross [] sliceX ∈ recs.map Prod.fst := ⟨_, rfl, by simp [tag]⟩
  obtain ⟨recs, h1, h2⟩ := hrec
  obtain ⟨out, hout⟩ := exists_combined [] recs
  obtain ⟨⟨k, acc⟩, hacc, hk⟩ := List.mem_map.1 ((hout.2.1 _).2 h2)
  have hk : k = AnyKey.cross [] sliceX := hk
  subst hk
  refine ⟨⟨recs, h1, out, hout⟩, acc, hacc, ?_⟩
  have hl : LawfulResults sumFn sumMetrics fun xs => sumMetrics xs.sum := by
    refine ⟨fun s a xs hp hr => ?_, fun xs => by simp [sumMetrics, Dict.WF, Dict.keys]⟩
    rw [sumFn_total s a hr, hp.sum_eq]
  have hone : 2 ≤ [(⟨⟨[], []⟩, []⟩ : CrossSpec), ⟨⟨[], []⟩, []⟩].countP (fun s => decide (Asked codec s [] sliceX)) := by
    have : Asked codec ⟨⟨[], []⟩, []⟩ [] sliceX := ⟨rfl, rfl⟩
    simp [this]
  have hp0 : ∀ i < 2, exampleBootstrap.resampling.present i [] := fun i _ => ⟨([], 5), by simp, rfl⟩
  have hp1 : ∀ i < 2, exampleBootstrap.resampling.present i sliceX := fun i _ => ⟨(sliceX, 1), by simp [sliceX], rfl⟩
  intro res hres
  refine C130_pair_twice_fails _ (by omega) hl ⟨recs, h1, out, hout⟩ [] sliceX acc hacc hone hp0 hp1 (hp0 0 (by omega)) (hp1 0 (by omega))
    (fun u v => rfl) { name := "m" } (by decide) rfl ?_ 5 1 (fun i => if i = 0 then 5 else 10)
    (fun _ => 1) ?_ ?_ ?_ ?_ (bootstrapValue 2) (bootstrapValue_perm 2) res hres
  · rw [← isPrivate_iff]; decide
  · exact ⟨_, rfl, by simp [BootstrapRun.resampling, valuesOf, sumMetrics, Dict.get?]⟩
  · exact ⟨_, rfl, by simp [BootstrapRun.resampling, valuesOf, sumMetrics, Dict.get?, sliceX]⟩
  · intro i hi
    refine ⟨_, rfl, ?_⟩
    obtain rfl | rfl : i = 0 ∨ i = 1 := by omega
    · simp [BootstrapRun.resampling, exampleBootstrap, valuesOf, sumMetrics, Dict.get?, sliceX]
    · simp [BootstrapRun.resampling, exampleBootstrap, valuesOf, sumMetrics, Dict.get?, sliceX]
  · intro i hi
    exact ⟨_, rfl, by simp [BootstrapRun.resampling, exampleBootstrap, valuesOf, sumMetrics, Dict.get?, sliceX]⟩

end Confidence
end TFMA
