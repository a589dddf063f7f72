import Verif.Props.Confidence

/-!
# C42: bookkeeping of the samples
-/

namespace TFMA
namespace Confidence

open Beam

variable {K : Type} [DecidableEq K]

/-! ### Specification -/

/-- The number of a metric value, if it is one. -/
def MV.number? : MV K → Option ℝ
  | .num x => some x
  | _ => none

/-- A record with the metrics of all the data. -/
def SampleMetrics.isFull (s : SampleMetrics K) : Bool := decide (s.sampleId = fullSampleId)

/-- The records of samples. -/
def proper (xs : List (SampleMetrics K)) : List (SampleMetrics K) := xs.filter fun s => !s.isFull

/-- The records with the metrics of all the data. -/
def fulls (xs : List (SampleMetrics K)) : List (SampleMetrics K) := xs.filter fun s => s.isFull

/-- The numbers a record has for a metric (at most one for a dictionary). -/
def numbersFor (k : K) (m : MetricsDict K) : List ℝ := m.filterMap fun p => if p.1 = k then p.2.number? else none

/-- The numbers that the samples have for a metric; none if the metric is to be skipped. -/
def sampleValues (skip : List K) (k : K) (xs : List (SampleMetrics K)) : List ℝ :=
  if k ∈ skip then [] else (proper xs).flatMap fun s => numbersFor k s.metrics

/-! ### The accumulators -/

/-- The samples of a metric; empty if there are none. -/
def cur (d : Dict K (List ℝ)) (k : K) : List ℝ := (Dict.get? d k).getD []

def Good (d : Dict K (List ℝ)) : Prop := Dict.WF d ∧ ∀ k vs, Dict.get? d k = some vs → vs ≠ []

theorem Good.get? {d : Dict K (List ℝ)} (h : Good d) (k : K) :
    Dict.get? d k = if cur d k = [] then none else some (cur d k) := by
  unfold cur
  cases hg : Dict.get? d k with
  | none => simp
  | some vs => simp [h.2 k vs hg]

theorem good_extendKey {d : Dict K (List ℝ)} (h : Good d) (k : K) {vs : List ℝ} (hvs : vs ≠ []) :
    Good (extendKey d k vs) := by
  refine ⟨Dict.WF_set h.1 _ _, fun k' vs' hg => ?_⟩
  unfold extendKey at hg
  rw [Dict.get?_set] at hg
  split at hg
  · cases hg; simp [hvs]
  · exact h.2 _ _ hg

theorem cur_extendKey (d : Dict K (List ℝ)) (k : K) (vs : List ℝ) (k' : K) :
    cur (extendKey d k vs) k' = cur d k' ++ if k = k' then vs else [] := by
  unfold extendKey cur
  rw [Dict.get?_set]
  by_cases h : k = k'
  · subst h; simp
  · simp [h]

theorem addMetrics_spec (skip : List K) (m : MetricsDict K) (d : Dict K (List ℝ)) (h : Good d) :
    Good (addMetrics skip m d) ∧
      ∀ k, cur (addMetrics skip m d) k = cur d k ++ if k ∈ skip then [] else numbersFor k m := by
  induction m generalizing d with
  | nil => exact ⟨h, fun k => by simp [addMetrics, numbersFor]⟩
  | cons p rest ih =>
    obtain ⟨k', v⟩ := p
    cases v with
    | num x =>
      rw [addMetrics]
      by_cases hs : k' ∈ skip
      · rw [if_pos hs]
        obtain ⟨h1, h2⟩ := ih d h
        refine ⟨h1, fun k => ?_⟩
        rw [h2]
        by_cases hk : k ∈ skip
        · simp [hk]
        · have : k' ≠ k := by rintro rfl; exact hk hs
          simp [hk, numbersFor, this]
      · rw [if_neg hs]
        obtain ⟨h1, h2⟩ := ih (extendKey d k' [x]) (good_extendKey h k' (by simp))
        refine ⟨h1, fun k => ?_⟩
        rw [h2, cur_extendKey]
        by_cases hkk : k' = k
        · subst hkk
          simp [hs, numbersFor, MV.number?]
        · simp [hkk, numbersFor]
    | note n =>
      obtain ⟨h1, h2⟩ := ih d h
      refine ⟨h1, fun k => ?_⟩
      rw [addMetrics, h2]
      have : numbersFor k ((k', .note n) :: rest) = numbersFor k rest := by
        by_cases hkk : k' = k <;> simp [numbersFor, MV.number?, hkk]
      rw [this]
    | other n =>
      obtain ⟨h1, h2⟩ := ih d h
      refine ⟨h1, fun k => ?_⟩
      rw [addMetrics, h2]
      have : numbersFor k ((k', .other n) :: rest) = numbersFor k rest := by
        by_cases hkk : k' = k <;> simp [numbersFor, MV.number?, hkk]
      rw [this]

theorem extendAll_spec (b d : Dict K (List ℝ)) (hb : Good b) (hd : Good d) :
    Good (extendAll b d) ∧ ∀ k, cur (extendAll b d) k = cur d k ++ cur b k := by
  induction b generalizing d with
  | nil => exact ⟨hd, fun k => by simp [extendAll, cur, Dict.get?]⟩
  | cons p rest ih =>
    obtain ⟨k', vs⟩ := p
    have hne : vs ≠ [] := hb.2 k' vs (by simp [Dict.get?_cons])
    have hwf := hb.1
    simp only [Dict.WF, Dict.keys, List.map_cons, List.nodup_cons] at hwf
    have hnot : Dict.get? rest k' = none := by
      rw [Dict.get?_eq_none_iff]; exact hwf.1
    have hrest : Good rest := by
      refine ⟨hwf.2, fun k vs' hg => hb.2 k vs' ?_⟩
      rw [Dict.get?_cons]
      by_cases hk : k' = k
      · subst hk; rw [hnot] at hg; cases hg
      · simp only [hk, if_false]; exact hg
    obtain ⟨h1, h2⟩ := ih (extendKey d k' vs) hrest (good_extendKey hd k' hne)
    refine ⟨h1, fun k => ?_⟩
    rw [extendAll, h2, cur_extendKey]
    by_cases hk : k' = k
    · subst hk
      simp [cur, Dict.get?_cons, hnot]
    · simp [cur, Dict.get?_cons, hk]

/-- What an accumulator knows of the records that went into it. -/
structure Represents (skip : List K) (xs : List (SampleMetrics K)) (acc : SampleAcc K) : Prop where
  good : Good acc.samples
  num : acc.numSamples = (proper xs).length
  values : ∀ k, (cur acc.samples k).Perm (sampleValues skip k xs)
  none : acc.point = none → fulls xs = []
  some : ∀ p, acc.point = some p → ∃ x ∈ fulls xs, x.metrics = p

private theorem proper_append (xs ys : List (SampleMetrics K)) : proper (xs ++ ys) = proper xs ++ proper ys := by
  simp [proper]

private theorem fulls_append (xs ys : List (SampleMetrics K)) : fulls (xs ++ ys) = fulls xs ++ fulls ys := by
  simp [fulls]

private theorem sampleValues_append (skip : List K) (k : K) (xs ys : List (SampleMetrics K)) :
    sampleValues skip k (xs ++ ys) = sampleValues skip k xs ++ sampleValues skip k ys := by
  unfold sampleValues
  split
  · simp
  · rw [proper_append, List.flatMap_append]

theorem run_represents (skip : List K) (s : Sched (SampleMetrics K)) :
    ∃ acc, (sampleCombineFn skip).run s = .ok acc ∧ Represents skip s.inputs acc := by
  have hok : ∀ e, (sampleCombineFn skip).run s ≠ .error e := by
    have h : OHom (sampleCombineFn skip) (fun _ _ : Unit => ()) () (fun _ => Option.some ()) (fun _ => ()) (fun _ => True) :=
      ⟨fun _ _ _ => rfl, fun _ _ => rfl, fun _ => rfl, trivial, fun _ _ _ _ _ => trivial, rfl, fun _ _ _ => rfl,
        fun a as _ => ⟨_, rfl, trivial, rfl⟩⟩
    have h2 := orun_eq h (List.Perm.refl s.inputs)
    rw [total_some] at h2
    intro e he
    rw [he] at h2
    simp [Except.toOption] at h2
  cases hr : (sampleCombineFn skip).run s with
  | error e => exact absurd hr (hok e)
  | ok acc =>
    refine ⟨acc, rfl, ?_⟩
    refine run_rel_pair (P := Represents skip) (plus := fun a b => .ok (plusSample a b)) ?_ ?_
      (fun l => mergeWith_eq_loop plusSample l) ?_ s acc hr
    · refine ⟨⟨Dict.WF_nil, fun k vs h => by simp [sampleCombineFn] at h⟩, rfl, fun k => ?_, fun _ => rfl,
        fun p h => by cases h⟩
      simp [sampleCombineFn, cur, sampleValues, proper]
    · intro xs a x b ha hb
      cases hb
      unfold addSample
      split
      · rename_i hf
        have hf' : x.isFull = true := by simp [SampleMetrics.isFull, hf]
        have hp : proper [x] = [] := by simp [proper, hf']
        have hfl : fulls [x] = [x] := by simp [fulls, hf']
        refine ⟨ha.good, ?_, fun k => ?_, fun h => (by cases h), fun p h => ?_⟩
        · rw [proper_append, hp, List.append_nil]; exact ha.num
        · rw [sampleValues_append]
          have : sampleValues skip k [x] = [] := by simp [sampleValues, hp]
          rw [this, List.append_nil]
          exact ha.values k
        · cases h
          exact ⟨x, by simp [fulls_append, hfl], rfl⟩
      · rename_i hf
        have hf' : x.isFull = false := by simp [SampleMetrics.isFull, hf]
        have hp : proper [x] = [x] := by simp [proper, hf']
        have hfl : fulls [x] = [] := by simp [fulls, hf']
        obtain ⟨h1, h2⟩ := addMetrics_spec skip x.metrics a.samples ha.good
        refine ⟨h1, ?_, fun k => ?_, fun h => ?_, fun p h => ?_⟩
        · rw [proper_append, hp, List.length_append, ← ha.num]; rfl
        · show (cur (addMetrics skip x.metrics a.samples) k).Perm _
          rw [h2, sampleValues_append]
          refine (ha.values k).append (List.Perm.of_eq ?_)
          simp [sampleValues, hp]
        · rw [fulls_append, hfl, ha.none h]; rfl
        · obtain ⟨y, hy, h3⟩ := ha.some p h
          exact ⟨y, by simp [fulls_append, hy], h3⟩
    · intro xs ys a b d ha hb hd
      cases hd
      obtain ⟨h1, h2⟩ := extendAll_spec b.samples a.samples hb.good ha.good
      refine ⟨h1, ?_, fun k => ?_, fun h => ?_, fun p h => ?_⟩
      · rw [proper_append, List.length_append, ← ha.num, ← hb.num]; rfl
      · show (cur (extendAll b.samples a.samples) k).Perm _
        rw [h2, sampleValues_append]
        exact (ha.values k).append (hb.values k)
      · simp only [plusSample] at h
        cases hp : b.point with
        | none =>
          rw [hp] at h
          rw [fulls_append, ha.none h, hb.none hp]; rfl
        | some q => rw [hp] at h; cases h
      · simp only [plusSample] at h
        cases hp : b.point with
        | none =>
          rw [hp] at h
          obtain ⟨y, hy, h3⟩ := ha.some p h
          exact ⟨y, by simp [fulls_append, hy], h3⟩
        | some q =>
          rw [hp] at h
          cases h
          obtain ⟨y, hy, h3⟩ := hb.some _ hp
          exact ⟨y, by simp [fulls_append, hy], h3⟩

omit [DecidableEq K] in
private theorem fulls_perm {xs ys : List (SampleMetrics K)} (p : xs.Perm ys) : (fulls xs).Perm (fulls ys) := p.filter _

private theorem sampleValues_perm (skip : List K) (k : K) {xs ys : List (SampleMetrics K)} (p : xs.Perm ys) :
    (sampleValues skip k xs).Perm (sampleValues skip k ys) := by
  unfold sampleValues
  split
  · exact List.Perm.refl _
  · exact (p.filter _).flatMap_right _

/-- C42: for every arrival order, bundling and merge tree of the records with one record of all the data, the accumulator
holds its metrics as point estimates, the number of the samples, and for each metric all the numbers that the samples
have for it. -/
theorem C42_accumulator (skip : List K) {s : Sched (SampleMetrics K)} {xs : List (SampleMetrics K)}
    (p : s.inputs.Perm xs) (full : SampleMetrics K) (hf : fulls xs = [full]) :
    ∃ acc, (sampleCombineFn skip).run s = .ok acc ∧ acc.point = some full.metrics ∧
      acc.numSamples = (proper xs).length ∧
      ∀ k, ((Dict.get? acc.samples k).getD []).Perm (sampleValues skip k xs) := by
  obtain ⟨acc, h1, h2⟩ := run_represents skip s
  have hfs : fulls s.inputs = [full] := List.perm_singleton.1 (hf ▸ fulls_perm p)
  refine ⟨acc, h1, ?_, ?_, fun k => (h2.values k).trans (sampleValues_perm skip k p)⟩
  · cases hp : acc.point with
    | none => rw [h2.none hp] at hfs; cases hfs
    | some q =>
      obtain ⟨x, hx, rfl⟩ := h2.some q hp
      rw [hfs, List.mem_singleton] at hx
      rw [hx]
  · rw [h2.num]
    exact (p.filter _).length_eq

/-! ### The results -/

/-- Two optional lists that are both absent or permutations of each other. -/
def OptPerm : Option (List ℝ) → Option (List ℝ) → Prop
  | none, none => True
  | some a, some b => a.Perm b
  | _, _ => False

private theorem optPerm_del {d e : Dict K (List ℝ)} (h : ∀ k, OptPerm (Dict.get? d k) (Dict.get? e k)) (k' : K) (k : K) :
    OptPerm (Dict.get? (Dict.del d k') k) (Dict.get? (Dict.del e k') k) := by
  rw [Dict.get?_del, Dict.get?_del]
  split
  · trivial
  · exact h k

private theorem checkCounts_congr (n : ℕ) (ks : List K) {d e : Dict K (List ℝ)} (counts : Dict K ℕ)
    (h : ∀ k, OptPerm (Dict.get? d k) (Dict.get? e k)) :
    (checkCounts n ks d counts).2 = (checkCounts n ks e counts).2 ∧
      ∀ k, OptPerm (Dict.get? (checkCounts n ks d counts).1 k) (Dict.get? (checkCounts n ks e counts).1 k) := by
  induction ks generalizing d e counts with
  | nil => exact ⟨rfl, h⟩
  | cons k ks ih =>
    have hk := h k
    unfold checkCounts
    cases hd : Dict.get? d k with
    | none =>
      cases he : Dict.get? e k with
      | none => exact ih counts h
      | some vs => rw [hd, he] at hk; exact hk.elim
    | some vs =>
      cases he : Dict.get? e k with
      | none => rw [hd, he] at hk; exact hk.elim
      | some ws =>
        rw [hd, he] at hk
        have hl : vs.length = ws.length := List.Perm.length_eq hk
        simp only [hl]
        split
        · exact ih _ (optPerm_del h k)
        · exact ih counts h

private theorem extractLoop_congr {f : MV K → List ℝ → Except Err (Out K)}
    (hf : ∀ v l m, l.Perm m → f v l = f v m) {d e : Dict K (List ℝ)}
    (h : ∀ k, OptPerm (Dict.get? d k) (Dict.get? e k)) (p : MetricsDict K) :
    extractLoop f d p = extractLoop f e p := by
  induction p with
  | nil => rfl
  | cons q rest ih =>
    obtain ⟨k, v⟩ := q
    have hk := h k
    unfold extractLoop
    rw [ih]
    cases hd : Dict.get? d k with
    | none =>
      cases he : Dict.get? e k with
      | none => rfl
      | some vs => rw [hd, he] at hk; exact hk.elim
    | some vs =>
      cases he : Dict.get? e k with
      | none => rw [hd, he] at hk; exact hk.elim
      | some ws =>
        rw [hd, he] at hk
        simp only [hf v vs ws hk]

private theorem extractWith_congr (errKey : K) (n : ℕ) {f : MV K → List ℝ → Except Err (Out K)}
    (hf : ∀ v l m, l.Perm m → f v l = f v m) {a b : SampleAcc K} (hp : a.point = b.point)
    (hn : a.numSamples = b.numSamples) (h : ∀ k, OptPerm (Dict.get? a.samples k) (Dict.get? b.samples k)) :
    extractWith errKey n f a = extractWith errKey n f b := by
  unfold extractWith validateAcc
  rw [hp]
  cases b.point with
  | none => rfl
  | some p =>
    simp only [hn, bind, Except.bind]
    have h' : ∀ k, OptPerm (Dict.get? (if b.numSamples < n then [] else a.samples) k)
        (Dict.get? (if b.numSamples < n then [] else b.samples) k) := by
      intro k
      split
      · simp [Dict.get?, OptPerm]
      · exact h k
    obtain ⟨h1, h2⟩ := checkCounts_congr n
      (Dict.keys (if b.numSamples < n then Dict.set p errKey (.note (.missingSamples b.numSamples n)) else p)) [] h'
    rw [h1]
    exact extractLoop_congr hf h2 _

private theorem meanAndStd_perm {l m : List ℝ} (p : l.Perm m) (ddof : ℤ) : meanAndStd l ddof = meanAndStd m ddof := by
  by_cases h : l = []
  · subst h
    rw [List.nil_perm.1 p]
  · have h' : m ≠ [] := by
      rintro rfl
      exact h (List.perm_nil.1 p)
    unfold meanAndStd
    rw [sumFrom_eq l h, sumFrom_eq m h', p.sum_eq, p.length_eq]
    simp only [bind, Except.bind]
    cases divInt m.sum m.length with
    | error e => rfl
    | ok mean =>
      simp only
      rw [sumFrom_eq _ (by simpa using h), sumFrom_eq _ (by simpa using h'), (p.map _).sum_eq]

omit [DecidableEq K] in
theorem jackknifeValue_perm (n : ℕ) (v : MV K) (l m : List ℝ) (p : l.Perm m) :
    jackknifeValue n v l = jackknifeValue n v m := by
  unfold jackknifeValue
  cases v with
  | num x =>
    simp only
    rw [meanAndStd_perm (p.map _)]
    have : sumFrom l = sumFrom m := by
      by_cases h : l = []
      · subst h
        rw [List.nil_perm.1 p]
      · have h' : m ≠ [] := by
          rintro rfl
          exact h (List.perm_nil.1 p)
        rw [sumFrom_eq l h, sumFrom_eq m h', p.sum_eq]
    rw [this]
  | note _ => rfl
  | other _ => rfl

omit [DecidableEq K] in
theorem bootstrapValue_perm (n : ℕ) (v : MV K) (l m : List ℝ) (p : l.Perm m) :
    bootstrapValue n v l = bootstrapValue n v m := by
  unfold bootstrapValue
  rw [meanAndStd_perm p]

/-- C42: the results (values, means, standard errors and error entries) are the same for every two executions over the
same records, with one record of all the data. -/
theorem C42_result (errKey : K) (n : ℕ) (skip : List K) {s s' : Sched (SampleMetrics K)}
    (p : s.inputs.Perm s'.inputs) (full : SampleMetrics K) (hf : fulls s.inputs = [full]) :
    ((sampleCombineFn skip).run s).bind (jackknifeExtract errKey n) =
        ((sampleCombineFn skip).run s').bind (jackknifeExtract errKey n) ∧
      ((sampleCombineFn skip).run s).bind (bootstrapExtract errKey n) =
        ((sampleCombineFn skip).run s').bind (bootstrapExtract errKey n) := by
  obtain ⟨a, ha, ra⟩ := run_represents skip s
  obtain ⟨b, hb, rb⟩ := run_represents skip s'
  obtain ⟨a', ha', a1, a2, a3⟩ := C42_accumulator skip (List.Perm.refl _) full hf
  obtain ⟨b', hb', b1, b2, b3⟩ := C42_accumulator skip p.symm full hf
  rw [ha] at ha'; cases ha'
  rw [hb] at hb'; cases hb'
  have hs : ∀ k, OptPerm (Dict.get? a.samples k) (Dict.get? b.samples k) := by
    intro k
    have hp : (cur a.samples k).Perm (cur b.samples k) := (a3 k).trans (b3 k).symm
    rw [ra.good.get? k, rb.good.get? k]
    by_cases h : cur a.samples k = []
    · have h' : cur b.samples k = [] := List.nil_perm.1 (h ▸ hp)
      simp [h, h', OptPerm]
    · have h' : cur b.samples k ≠ [] := fun h' => h (List.perm_nil.1 (h' ▸ hp))
      simp only [h, h', if_false, OptPerm]
      exact hp
  rw [ha, hb]
  exact ⟨extractWith_congr errKey n (jackknifeValue_perm n) (a1.trans b1.symm) (a2.trans b2.symm) hs,
    extractWith_congr errKey n (bootstrapValue_perm n) (a1.trans b1.symm) (a2.trans b2.symm) hs⟩

private theorem checkCounts_nil (n : ℕ) (ks : List K) (counts : Dict K ℕ) : checkCounts n ks [] counts = ([], counts) := by
  induction ks with
  | nil => rfl
  | cons k ks ih => rw [checkCounts]; simp [Dict.get?, ih]

private theorem extractLoop_nil (f : MV K → List ℝ → Except Err (Out K)) (p : MetricsDict K) :
    extractLoop f [] p = .ok (p.map fun q => (q.1, .value q.2)) := by
  induction p with
  | nil => rfl
  | cons q rest ih => unfold extractLoop; simp [Dict.get?, ih, bind, Except.bind, pure, Except.pure]

private theorem get?_map_value (p : MetricsDict K) (k : K) :
    Dict.get? (p.map fun q => (q.1, (Out.value q.2 : Out K))) k = (Dict.get? p k).map Out.value := by
  induction p with
  | nil => rfl
  | cons q rest ih =>
    obtain ⟨k', v⟩ := q
    rw [List.map_cons, Dict.get?_cons, Dict.get?_cons, ih]
    split <;> rfl

/-- C42: if fewer samples arrive than expected, the result is the point estimates without any interval and an error
entry with the numbers of samples found and expected. -/
theorem C42_missing_samples (errKey : K) (n : ℕ) (skip : List K) (f : MV K → List ℝ → Except Err (Out K))
    {s : Sched (SampleMetrics K)} {xs : List (SampleMetrics K)} (p : s.inputs.Perm xs) (full : SampleMetrics K)
    (hf : fulls xs = [full]) (hn : (proper xs).length < n) :
    ∃ out, ((sampleCombineFn skip).run s).bind (extractWith errKey n f) = .ok out ∧
      Dict.get? out errKey = some (.value (.note (.missingSamples (proper xs).length n))) ∧
      ∀ k, k ≠ errKey → Dict.get? out k = (Dict.get? full.metrics k).map Out.value := by
  obtain ⟨acc, h1, h2, h3, h4⟩ := C42_accumulator skip p full hf
  have hlt : acc.numSamples < n := by rw [h3]; exact hn
  refine ⟨(Dict.set full.metrics errKey (.note (.missingSamples acc.numSamples n))).map fun q => (q.1, .value q.2), ?_, ?_, ?_⟩
  · rw [h1]
    show extractWith errKey n f acc = _
    unfold extractWith validateAcc
    rw [h2]
    simp only [hlt, if_true, checkCounts_nil, bind, Except.bind, extractLoop_nil]
  · rw [get?_map_value, Dict.get?_set_self, h3]; rfl
  · intro k hk
    rw [get?_map_value, Dict.get?_set_ne]
    first
    | exact hk
    | exact fun h => hk h.symm

private theorem checkCounts_get (n : ℕ) (ks : List K) (d : Dict K (List ℝ)) (counts : Dict K ℕ) (k : K) :
    (k ∈ ks → Dict.get? (checkCounts n ks d counts).1 k = (Dict.get? d k).filter fun vs => decide (vs.length = n)) ∧
    (k ∉ ks → Dict.get? (checkCounts n ks d counts).1 k = Dict.get? d k) := by
  induction ks generalizing d counts with
  | nil => exact ⟨fun h => (by cases h), fun _ => rfl⟩
  | cons k' ks ih =>
    unfold checkCounts
    cases hd : Dict.get? d k' with
    | none =>
      simp only
      refine ⟨fun h => ?_, fun h => (ih d counts).2 fun h' => h (List.mem_cons_of_mem _ h')⟩
      by_cases hk : k ∈ ks
      · exact (ih d counts).1 hk
      · rcases List.mem_cons.1 h with rfl | h
        · rw [(ih d counts).2 hk, hd]; rfl
        · exact absurd h hk
    | some vs =>
      simp only
      split
      · rename_i hne
        refine ⟨fun h => ?_, fun h => ?_⟩
        · by_cases hk : k ∈ ks
          · rw [(ih _ _).1 hk, Dict.get?_del]
            split
            · rename_i heq
              subst heq
              rw [hd]; simp [Option.filter, hne]
            · rfl
          · rcases List.mem_cons.1 h with rfl | h
            · rw [(ih _ _).2 hk, Dict.get?_del, hd]; simp [Option.filter, hne]
            · exact absurd h hk
        · rw [(ih _ _).2 fun h' => h (List.mem_cons_of_mem _ h'), Dict.get?_del, if_neg]
          rintro rfl
          exact h (by simp)
      · rename_i heq
        have heq : vs.length = n := by simpa using heq
        refine ⟨fun h => ?_, fun h => (ih d counts).2 fun h' => h (List.mem_cons_of_mem _ h')⟩
        by_cases hk : k ∈ ks
        · exact (ih d counts).1 hk
        · rcases List.mem_cons.1 h with rfl | h
          · rw [(ih d counts).2 hk, hd]; simp [Option.filter, heq]
          · exact absurd h hk

private theorem extractLoop_get {f : MV K → List ℝ → Except Err (Out K)} {d : Dict K (List ℝ)} {p : MetricsDict K}
    {out : Dict K (Out K)} (h : extractLoop f d p = .ok out) (k : K) :
    (Dict.get? p k = none → Dict.get? out k = none) ∧ ∀ v, Dict.get? p k = some v → match Dict.get? d k with
      | none => Dict.get? out k = some (.value v)
      | some vs => ∃ o, f v vs = .ok o ∧ Dict.get? out k = some o := by
  induction p generalizing out with
  | nil => cases h; exact ⟨fun _ => rfl, fun v h => (by cases h)⟩
  | cons q rest ih =>
    obtain ⟨k', v'⟩ := q
    unfold extractLoop at h
    cases hr : extractLoop f d rest with
    | error e =>
      rw [hr] at h
      simp only [bind, Except.bind] at h
      split at h
      · cases h
      · split at h <;> cases h
    | ok r =>
      rw [hr] at h
      have ih := ih hr
      cases hd : Dict.get? d k' with
      | none =>
        rw [hd] at h
        simp only [bind, Except.bind, pure, Except.pure, Except.ok.injEq] at h
        subst h
        rw [Dict.get?_cons, Dict.get?_cons]
        by_cases hk : k' = k
        · subst hk
          simp [hd]
        · simp only [hk, if_false]; exact ih
      | some vs =>
        rw [hd] at h
        simp only [bind, Except.bind] at h
        cases hf : f v' vs with
        | error e => rw [hf] at h; cases h
        | ok o =>
          rw [hf] at h
          simp only [pure, Except.pure, Except.ok.injEq] at h
          subst h
          rw [Dict.get?_cons, Dict.get?_cons]
          by_cases hk : k' = k
          · subst hk
            simp [hd, hf]
          · simp only [hk, if_false]; exact ih

/-- The point estimates if all records of all the data agree. -/
theorem point_of_fulls (skip : List K) {s : Sched (SampleMetrics K)} {xs : List (SampleMetrics K)} (p : s.inputs.Perm xs)
    (m : MetricsDict K) (hne : fulls xs ≠ []) (hall : ∀ x ∈ fulls xs, x.metrics = m) (acc : SampleAcc K)
    (h : (sampleCombineFn skip).run s = .ok acc) : acc.point = some m := by
  obtain ⟨acc', h1, h2⟩ := run_represents skip s
  rw [h] at h1; cases h1
  cases hp : acc.point with
  | none =>
    refine absurd ?_ hne
    have := fulls_perm p
    rw [h2.none hp] at this
    exact List.nil_perm.1 this
  | some q =>
    obtain ⟨x, hx, rfl⟩ := h2.some q hp
    rw [hall x ((fulls_perm p).mem_iff.1 hx)]

/-- The entry of a metric if at least the expected number of samples arrives; all records of all the data have the
metrics `m`. -/
theorem entry_of_records (errKey : K) (n : ℕ) (hn0 : 0 < n) (skip : List K) (f : MV K → List ℝ → Except Err (Out K))
    (hfp : ∀ v l m, l.Perm m → f v l = f v m) {s : Sched (SampleMetrics K)} {xs : List (SampleMetrics K)}
    (p : s.inputs.Perm xs) (m : MetricsDict K) (hne : fulls xs ≠ []) (hall : ∀ x ∈ fulls xs, x.metrics = m)
    (hn : n ≤ (proper xs).length)
    (out : Dict K (Out K)) (hout : ((sampleCombineFn skip).run s).bind (extractWith errKey n f) = .ok out)
    (k : K) (hk : k ≠ errKey) (v : MV K) (hv : Dict.get? m k = some v) :
    if (sampleValues skip k xs).length = n then ∃ o, f v (sampleValues skip k xs) = .ok o ∧ Dict.get? out k = some o
    else Dict.get? out k = some (.value v) := by
  obtain ⟨acc, h1, hrep⟩ := run_represents skip s
  have h2 := point_of_fulls skip p m hne hall acc h1
  rw [h1] at hout
  have hout : extractWith errKey n f acc = .ok out := hout
  have hlt : ¬ acc.numSamples < n := by
    have : (proper s.inputs).length = (proper xs).length := (p.filter _).length_eq
    rw [hrep.num, this]; omega
  unfold extractWith validateAcc at hout
  rw [h2] at hout
  simp only [hlt, if_false, bind, Except.bind] at hout
  have hkeys : k ∈ Dict.keys m := by
    rw [Dict.mem_keys_iff]; exact ⟨v, hv⟩
  have hv' : Dict.get? (if (checkCounts n (Dict.keys m) acc.samples []).2 = [] then m
      else Dict.set m errKey (.note (.incorrectCounts (checkCounts n (Dict.keys m) acc.samples []).2 n))) k
        = some v := by
    split
    · exact hv
    · rw [Dict.get?_set_ne]
      · exact hv
      · first
        | exact hk
        | exact fun h => hk h.symm
  have hg := (checkCounts_get n (Dict.keys m) acc.samples [] k).1 hkeys
  have hx := (extractLoop_get hout k).2 v hv'
  have hperm : (cur acc.samples k).Perm (sampleValues skip k xs) := (hrep.values k).trans (sampleValues_perm skip k p)
  rw [hg, hrep.good.get? k] at hx
  by_cases hlen : (sampleValues skip k xs).length = n
  · have hc : (cur acc.samples k).length = n := hperm.length_eq.trans hlen
    have hne : cur acc.samples k ≠ [] := by
      intro h; rw [h] at hc; simp at hc; omega
    rw [if_pos hlen]
    simp only [hne, if_false, Option.filter, hc, decide_true, if_true] at hx
    rw [hfp v _ _ hperm] at hx
    exact hx
  · have hc : ¬ (cur acc.samples k).length = n := fun h => hlen (hperm.length_eq.symm.trans h)
    rw [if_neg hlen]
    by_cases hne : cur acc.samples k = []
    · simpa [hne] using hx
    · simp only [hne, if_false, Option.filter, hc, decide_false, Bool.false_eq_true] at hx
      exact hx

/-- C42: if all samples arrive, the entry of a metric (other than the error entry) is computed from exactly the numbers
the samples have for it if their number is the expected one, and is the plain point estimate otherwise. -/
theorem C42_entries (errKey : K) (n : ℕ) (hn0 : 0 < n) (skip : List K) (f : MV K → List ℝ → Except Err (Out K))
    (hfp : ∀ v l m, l.Perm m → f v l = f v m) {s : Sched (SampleMetrics K)} {xs : List (SampleMetrics K)}
    (p : s.inputs.Perm xs) (full : SampleMetrics K) (hf : fulls xs = [full]) (hn : (proper xs).length = n)
    (out : Dict K (Out K)) (hout : ((sampleCombineFn skip).run s).bind (extractWith errKey n f) = .ok out)
    (k : K) (hk : k ≠ errKey) (v : MV K) (hv : Dict.get? full.metrics k = some v) :
    if (sampleValues skip k xs).length = n then ∃ o, f v (sampleValues skip k xs) = .ok o ∧ Dict.get? out k = some o
    else Dict.get? out k = some (.value v) :=
  entry_of_records errKey n hn0 skip f hfp p full.metrics (by rw [hf]; simp) (by rw [hf]; simp) (by omega) out hout k hk v hv

/-- Records that meet the hypotheses: one record of all the data and two samples of the metric `"m"`. -/
example : ∃ (xs : List (SampleMetrics String)) (full : SampleMetrics String), fulls xs = [full] ∧ (proper xs).length = 2 ∧
    sampleValues [] "m" xs = [2, 4] ∧ Dict.get? full.metrics "m" = some (.num 3) := by
  refine ⟨[⟨[("m", .num 2)], 0⟩, ⟨[("m", .num 3)], -1⟩, ⟨[("m", .num 4), ("p", .other "")], 1⟩], ⟨[("m", .num 3)], -1⟩, ?_, ?_, ?_, ?_⟩ <;>
    simp [fulls, proper, SampleMetrics.isFull, fullSampleId, sampleValues, numbersFor, MV.number?, Dict.get?]

end Confidence
end TFMA
