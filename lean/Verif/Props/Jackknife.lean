import Verif.Props.ConfidenceSamples

/-!
# C40, C63: which data the samples of the jackknife and of the bootstrap are computed from
-/

namespace TFMA
namespace Confidence

open Beam

variable {K ε α : Type} [DecidableEq K]

/-! ### Executions over accumulators are executions over the data -/

private theorem split_map {β γ : Type} (f : β → γ) (L : List β) (xss : List (List γ)) (h : L.map f = xss.flatten) :
    ∃ Ls : List (List β), Ls.flatten = L ∧ Ls.map (List.map f) = xss := by
  induction xss generalizing L with
  | nil =>
    refine ⟨[], ?_, rfl⟩
    simpa using h.symm
  | cons xs xss ih =>
    rw [List.flatten_cons, List.map_eq_append_iff] at h
    obtain ⟨L1, L2, rfl, h1, h2⟩ := h
    obtain ⟨Ls, h3, h4⟩ := ih L2 h2
    exact ⟨L1 :: Ls, by simp [h3], by simp [h1, h4]⟩

private theorem scheds_of_list (c : CombineFn ε α) (ss : List (Sched ε)) (as : List α) (hne : ss ≠ [])
    (h : ss.map c.run = as.map .ok) :
    ∃ S : Scheds ε, c.runs S = .ok as ∧ S.inputs = ss.flatMap Sched.inputs := by
  induction ss generalizing as with
  | nil => exact absurd rfl hne
  | cons s ss ih =>
    cases as with
    | nil => cases h
    | cons a as =>
      simp only [List.map_cons, List.cons.injEq] at h
      by_cases hss : ss = []
      · subst hss
        have : as = [] := by simpa using h.2.symm
        subst this
        exact ⟨.one s, by simp [CombineFn.runs, h.1, bind, Except.bind, pure, Except.pure],
          by simp [Scheds.inputs]⟩
      · obtain ⟨S, h1, h2⟩ := ih as hss h.2
        exact ⟨.cons s S, by simp [CombineFn.runs, h.1, h1, bind, Except.bind, pure, Except.pure],
          by simp [Scheds.inputs, h2]⟩

/-- An execution over accumulators that come from executions over data is an execution over all that data. -/
theorem accumulator_run (c : CombineFn ε α) (S : Sched α) (b : α) (hb : (accumulatorCombineFn c).run S = .ok b)
    (L : List (Sched ε)) (hL : L.map c.run = S.inputs.map .ok) :
    ∃ s, c.run s = .ok b ∧ s.inputs = L.flatMap Sched.inputs := by
  refine run_rel (P := fun xs a => ∀ L : List (Sched ε), L.map c.run = xs.map .ok →
    ∃ s, c.run s = .ok a ∧ s.inputs = L.flatMap Sched.inputs) ?_ ?_ ?_ S b hb L hL
  · intro L hL
    have : L = [] := by simpa using hL
    subst this
    exact ⟨.bundle [], rfl, rfl⟩
  · intro xs a x b hP hadd L hL
    rw [List.map_append, List.map_eq_append_iff] at hL
    obtain ⟨L1, L2, rfl, h1, h2⟩ := hL
    obtain ⟨s1, h3, h4⟩ := hP L1 h1
    obtain ⟨s2, rfl⟩ : ∃ s2, L2 = [s2] := by
      cases L2 with
      | nil => cases h2
      | cons y L2 =>
        cases L2 with
        | nil => exact ⟨y, rfl⟩
        | cons z L2 => simp at h2
    have h5 : c.run s2 = .ok x := by simpa using h2
    refine ⟨.merge (.cons s1 (.one s2)), ?_, ?_⟩
    · simp only [CombineFn.run, CombineFn.runs, h3, h5, bind, Except.bind, pure, Except.pure]
      exact hadd
    · simp [Sched.inputs, Scheds.inputs, h4]
  · intro l hl hP b hm L hL
    rw [List.map_flatten, List.map_map] at hL
    obtain ⟨Ls, rfl, h2⟩ := split_map c.run L _ hL
    have hex : ∃ ss : List (Sched ε), ss.map c.run = (l.map Prod.snd).map .ok ∧
        ss.flatMap Sched.inputs = Ls.flatten.flatMap Sched.inputs ∧ (l ≠ [] → ss ≠ []) := by
      clear hl hm hL
      induction l generalizing Ls with
      | nil =>
        have : Ls = [] := by simpa using h2
        subst this
        exact ⟨[], rfl, rfl, fun h => absurd rfl h⟩
      | cons p l ih =>
        cases Ls with
        | nil => cases h2
        | cons L1 Ls =>
          simp only [List.map_cons, List.cons.injEq] at h2
          obtain ⟨s, h3, h4⟩ := hP p (by simp) L1 (by simpa using h2.1)
          obtain ⟨ss, h5, h6, _⟩ := ih (fun q hq => hP q (by simp [hq])) Ls h2.2
          exact ⟨s :: ss, by simp [h3, h5], by simp [h4, h6], fun _ => by simp⟩
    obtain ⟨ss, h3, h4, h5⟩ := hex
    obtain ⟨S, h6, h7⟩ := scheds_of_list c ss _ (h5 hl) h3
    refine ⟨.merge S, ?_, ?_⟩
    · simp only [CombineFn.run, h6, bind, Except.bind]
      exact hm
    · simp [Sched.inputs, h7, h4]

/-! ### The partitions -/

/-- jackknife.py 229–235: the elements of a partition: those for which the random number is `i`. -/
def partition (data : List ((K × ε) × ℕ)) (i : ℕ) : List (K × ε) := (data.filter fun p => decide (p.2 = i)).map Prod.fst

/-- The elements that are not in the partition `i`. -/
def without (data : List ((K × ε) × ℕ)) (i : ℕ) : List (K × ε) := (data.filter fun p => decide (p.2 ≠ i)).map Prod.fst

/-- jackknife.py 224–291 `ComputeWithConfidenceIntervals` up to the combination of the samples: `data` are the sliced
extracts, each with the random number that the partition function drew; the accumulators of each partition, of all data
and of the samples without one partition are what the runner may compute.  The `extract_output` and the derived metrics
are applied afterwards. -/
structure JackknifeRun (c : CombineFn ε α) (n : ℕ) (data : List ((K × ε) × ℕ)) where
  inRange : ∀ p ∈ data, p.2 < n
  parts : ℕ → List (K × α)
  parts_ok : ∀ i < n, CombinesPerKey c (partition data i) (parts i)
  full : List (K × α)
  full_ok : CombinesPerKey (accumulatorCombineFn c) ((List.range n).flatMap parts) full
  sample : ℕ → List (K × α)
  sample_ok : ∀ i < n, CombinesPerKey (accumulatorCombineFn c)
    ((List.range n).flatMap fun j => if j = i then [] else parts j) (sample i)

omit [DecidableEq K] in
private theorem filter_cons_perm (data : List ((K × ε) × ℕ)) (j : ℕ) (js : List ℕ) (h : j ∉ js) :
    (data.filter (fun p => decide (p.2 = j)) ++ data.filter (fun p => decide (p.2 ∈ js))).Perm
      (data.filter fun p => decide (p.2 ∈ j :: js)) := by
  simp only [List.mem_cons]
  induction data with
  | nil => simp
  | cons p data ih =>
    by_cases h1 : p.2 = j
    · have h2 : p.2 ∉ js := h1 ▸ h
      simp only [List.filter_cons, h1, h, decide_true, decide_false, if_true, Bool.false_eq_true, if_false,
        List.mem_cons, true_or, List.cons_append]
      exact ih.cons p
    · by_cases h2 : p.2 ∈ js
      · simp only [List.filter_cons, h1, h2, decide_true, decide_false, if_true, Bool.false_eq_true, if_false,
          List.mem_cons, or_true]
        exact List.perm_middle.trans (ih.cons p)
      · simp only [List.filter_cons, h1, h2, decide_false, Bool.false_eq_true, if_false, List.mem_cons, or_false]
        exact ih

omit [DecidableEq K] in
private theorem flatMap_filter_perm (data : List ((K × ε) × ℕ)) (js : List ℕ) (h : js.Nodup) :
    (js.flatMap fun j => data.filter fun p => decide (p.2 = j)).Perm (data.filter fun p => decide (p.2 ∈ js)) := by
  induction js with
  | nil => simp
  | cons j js ih =>
    simp only [List.nodup_cons] at h
    rw [List.flatMap_cons]
    exact ((ih h.2).append_left _).trans (filter_cons_perm data j js h.1)

theorem valuesOf_flatMap {β γ : Type} (k : K) (l : List γ) (f : γ → List (K × β)) :
    valuesOf k (l.flatMap f) = l.flatMap fun x => valuesOf k (f x) := by
  unfold valuesOf
  induction l with
  | nil => rfl
  | cons x l ih => simp only [List.flatMap_cons, List.filter_append, List.map_append, ih]

theorem valuesOf_perm {β : Type} (k : K) {l m : List (K × β)} (p : l.Perm m) :
    (valuesOf k l).Perm (valuesOf k m) := (p.filter _).map _

theorem valuesOf_nodup {β : Type} (k : K) (l : List (K × β)) (h : (l.map Prod.fst).Nodup) :
    (k ∉ l.map Prod.fst ∧ valuesOf k l = []) ∨ ∃ b, (k, b) ∈ l ∧ valuesOf k l = [b] := by
  unfold valuesOf
  induction l with
  | nil => exact .inl ⟨by simp, rfl⟩
  | cons p l ih =>
    obtain ⟨k', b⟩ := p
    simp only [List.map_cons, List.nodup_cons] at h
    by_cases hk : k' = k
    · subst hk
      refine .inr ⟨b, by simp, ?_⟩
      rcases ih h.2 with ⟨_, h2⟩ | ⟨b', h1, _⟩
      · simp only [List.filter_cons, decide_true, if_true, List.map_cons, h2]
      · exact absurd (List.mem_map.2 ⟨_, h1, rfl⟩) h.1
    · rcases ih h.2 with ⟨h1, h2⟩ | ⟨b', h1, h2⟩
      · refine .inl ⟨?_, ?_⟩
        · rw [List.map_cons, List.mem_cons]
          rintro (h | h)
          · exact hk h.symm
          · exact h1 h
        · simp only [List.filter_cons, hk, decide_false, Bool.false_eq_true, if_false, h2]
      · refine .inr ⟨b', by simp [h1], ?_⟩
        simp only [List.filter_cons, hk, decide_false, Bool.false_eq_true, if_false, h2]

theorem valuesOf_eq_nil {β : Type} (k : K) (l : List (K × β)) (h : k ∉ l.map Prod.fst) : valuesOf k l = [] := by
  unfold valuesOf
  rw [List.map_eq_nil_iff, List.filter_eq_nil_iff]
  intro p hp hk
  exact h (List.mem_map.2 ⟨p, hp, by simpa using hk⟩)

section
variable {c : CombineFn ε α} {n : ℕ} {data : List ((K × ε) × ℕ)}

/-- Accumulators of a set of partitions, merged. -/
private theorem merged (r : JackknifeRun c n data) (js : List ℕ) (hjs : js.Nodup) (hlt : ∀ j ∈ js, j < n)
    (out : List (K × α)) (hout : CombinesPerKey (accumulatorCombineFn c) (js.flatMap r.parts) out) :
    (∀ k, k ∈ out.map Prod.fst ↔ k ∈ ((data.filter fun p => decide (p.2 ∈ js)).map Prod.fst).map Prod.fst) ∧
    ∀ k a, (k, a) ∈ out → ∃ s : Sched ε,
      s.inputs.Perm (valuesOf k ((data.filter fun p => decide (p.2 ∈ js)).map Prod.fst)) ∧ c.run s = .ok a := by
  obtain ⟨h1, h2, h3⟩ := hout
  refine ⟨fun k => ?_, fun k a hka => ?_⟩
  · rw [h2]
    simp only [List.mem_map, List.mem_flatMap, List.mem_filter, decide_eq_true_eq]
    constructor
    · rintro ⟨⟨k', a⟩, ⟨j, hj, hja⟩, rfl⟩
      have := ((r.parts_ok j (hlt j hj)).2.1 k').1 (List.mem_map.2 ⟨_, hja, rfl⟩)
      obtain ⟨⟨k'', x⟩, hx, rfl⟩ := List.mem_map.1 this
      obtain ⟨p, hp, hpx⟩ := List.mem_map.1 hx
      simp only [List.mem_filter, decide_eq_true_eq] at hp
      exact ⟨p.1, ⟨p, ⟨hp.1, hp.2 ▸ hj⟩, rfl⟩, by rw [hpx]⟩
    · rintro ⟨kx, ⟨p, ⟨hp, hpj⟩, rfl⟩, rfl⟩
      have : p.1.1 ∈ (r.parts p.2).map Prod.fst := by
        rw [(r.parts_ok p.2 (hlt _ hpj)).2.1]
        exact List.mem_map.2 ⟨p.1, List.mem_map.2 ⟨p, by simp [hp], rfl⟩, rfl⟩
      obtain ⟨q, hq, hq'⟩ := List.mem_map.1 this
      exact ⟨q, ⟨p.2, hpj, hq⟩, hq'⟩
  · obtain ⟨S, hS, hrun⟩ := h3 k a hka
    rw [valuesOf_flatMap] at hS
    have hL : ∃ L : List (Sched ε), L.map c.run = (js.flatMap fun j => valuesOf k (r.parts j)).map .ok ∧
        (L.flatMap Sched.inputs).Perm (js.flatMap fun j => valuesOf k (partition data j)) := by
      clear hS hrun hka h1 h2 h3 hjs
      induction js with
      | nil => exact ⟨[], rfl, List.Perm.refl _⟩
      | cons j js ih =>
        obtain ⟨L, h4, h5⟩ := ih fun j hj => hlt j (by simp [hj])
        obtain ⟨p1, p2, p3⟩ := r.parts_ok j (hlt j (by simp))
        rcases valuesOf_nodup k (r.parts j) p1 with ⟨q1, q2⟩ | ⟨b, q1, q2⟩
        · refine ⟨L, ?_, ?_⟩
          · simp only [List.flatMap_cons, q2, List.nil_append]; exact h4
          · rw [List.flatMap_cons, valuesOf_eq_nil k (partition data j) (fun h => q1 ((p2 k).2 h)), List.nil_append]
            exact h5
        · obtain ⟨s, hs, hsr⟩ := p3 k b q1
          refine ⟨s :: L, ?_, ?_⟩
          · simp only [List.flatMap_cons, q2, List.map_cons, List.cons_append, List.nil_append, hsr, h4]
          · rw [List.flatMap_cons, List.flatMap_cons]
            exact hs.append h5
    obtain ⟨L, h4, h5⟩ := hL
    have h6 : (L.map c.run).Perm (S.inputs.map .ok) := by
      rw [h4]; exact (hS.map _).symm
    obtain ⟨L', h7, h8⟩ : ∃ L' : List (Sched ε), L'.Perm L ∧ L'.map c.run = S.inputs.map .ok := by
      have : ∀ (l m : List (Except Err α)), l.Perm m → ∀ L : List (Sched ε), L.map c.run = l →
          ∃ L' : List (Sched ε), L'.Perm L ∧ L'.map c.run = m := by
        intro l m p
        induction p with
        | nil => intro L hL; exact ⟨L, List.Perm.refl _, hL⟩
        | cons x p ih =>
          intro L hL
          cases L with
          | nil => cases hL
          | cons y L =>
            simp only [List.map_cons, List.cons.injEq] at hL
            obtain ⟨L', h1, h2⟩ := ih L hL.2
            exact ⟨y :: L', h1.cons y, by simp [h2, hL.1]⟩
        | swap x y l =>
          intro L hL
          cases L with
          | nil => cases hL
          | cons a L =>
            cases L with
            | nil => simp at hL
            | cons b L =>
              simp only [List.map_cons, List.cons.injEq] at hL
              exact ⟨b :: a :: L, List.Perm.swap _ _ _, by simp [hL]⟩
        | trans p q ih1 ih2 =>
          intro L hL
          obtain ⟨L1, h1, h2⟩ := ih1 L hL
          obtain ⟨L2, h3, h4⟩ := ih2 L1 h2
          exact ⟨L2, h3.trans h1, h4⟩
      exact this _ _ h6 L rfl
    obtain ⟨s, h9, h10⟩ := accumulator_run c S a hrun L' h8
    refine ⟨s, ?_, h9⟩
    rw [h10]
    refine (h7.flatMap_right _).trans (h5.trans ?_)
    rw [← valuesOf_flatMap]
    apply valuesOf_perm
    have := (flatMap_filter_perm data js hjs).map Prod.fst
    rw [List.map_flatMap] at this
    exact this

omit [DecidableEq K] in
private theorem flatMap_if (l : List ℕ) (i : ℕ) (f : ℕ → List (K × α)) :
    (l.flatMap fun j => if j = i then [] else f j) = (l.filter fun j => decide (j ≠ i)).flatMap f := by
  induction l with
  | nil => rfl
  | cons j l ih =>
    rw [List.flatMap_cons, ih]
    by_cases h : j = i
    · simp [h]
    · simp [h]

/-- C40: the accumulator of a slice for all data is the outcome of an execution of the combiner over exactly the elements
of the slice; a slice is present exactly if it has an element. -/
theorem C40_full (r : JackknifeRun c n data) :
    (∀ k, k ∈ r.full.map Prod.fst ↔ k ∈ (data.map Prod.fst).map Prod.fst) ∧
    ∀ k a, (k, a) ∈ r.full → ∃ s : Sched ε, s.inputs.Perm (valuesOf k (data.map Prod.fst)) ∧ c.run s = .ok a := by
  have hf : (data.filter fun p => decide (p.2 ∈ List.range n)) = data := by
    rw [List.filter_eq_self]
    intro p hp
    simpa using r.inRange p hp
  have := merged r (List.range n) List.nodup_range (fun j hj => List.mem_range.1 hj) r.full r.full_ok
  rwa [hf] at this

/-- C40: the accumulator of a slice for the sample `i` is the outcome of an execution of the combiner over exactly the
elements of the slice that are not in the partition `i`; the slice is present in the sample exactly if there is such an
element. -/
theorem C40_sample (r : JackknifeRun c n data) (i : ℕ) (hi : i < n) :
    (∀ k, k ∈ (r.sample i).map Prod.fst ↔ k ∈ (without data i).map Prod.fst) ∧
    ∀ k a, (k, a) ∈ r.sample i → ∃ s : Sched ε, s.inputs.Perm (valuesOf k (without data i)) ∧ c.run s = .ok a := by
  have hf : (data.filter fun p => decide (p.2 ∈ (List.range n).filter fun j => decide (j ≠ i))) =
      data.filter fun p => decide (p.2 ≠ i) := by
    apply List.filter_congr
    intro p hp
    have := r.inRange p hp
    simp [this]
  have h := r.sample_ok i hi
  rw [flatMap_if] at h
  have := merged r _ (List.nodup_range.filter _) (fun j hj => List.mem_range.1 (List.mem_filter.1 hj).1) _ h
  rw [hf] at this
  exact this

end

/-! ### The results -/

section
variable {M : Type} [DecidableEq M] {c : CombineFn ε α} {n : ℕ} {data : List ((K × ε) × ℕ)}

/-- jackknife.py 140–147, 270–290: the records of all samples; `metrics` is `extract_output` of the combiner followed by
the derived metrics, which are taken to be computed slice by slice (cross slice metrics are left out). -/
def JackknifeRun.records (r : JackknifeRun c n data) (metrics : α → MetricsDict M) : List (K × SampleMetrics M) :=
  ((List.range n).flatMap fun i => (r.sample i).map fun p => (p.1, ⟨metrics p.2, (i : ℤ)⟩)) ++
    r.full.map fun p => (p.1, ⟨metrics p.2, fullSampleId⟩)

/-- The metric values of a slice computed directly from a list of elements. -/
def Lawful (c : CombineFn ε α) (metrics : α → MetricsDict M) (direct : List ε → MetricsDict M) : Prop :=
  ∀ (s : Sched ε) (a : α) (xs : List ε), s.inputs.Perm xs → c.run s = .ok a → metrics a = direct xs

/-- The buckets for which a slice has an element outside. -/
def presentIn (data : List ((K × ε) × ℕ)) (n : ℕ) (k : K) : List ℕ :=
  (List.range n).filter fun i => decide (k ∈ (without data i).map Prod.fst)

theorem valuesOf_map {β γ : Type} (k : K) (l : List (K × β)) (f : β → γ) :
    valuesOf k (l.map fun p => (p.1, f p.2)) = (valuesOf k l).map f := by
  unfold valuesOf
  induction l with
  | nil => rfl
  | cons p l ih =>
    by_cases h : p.1 = k <;> simp_all

theorem valuesOf_append {β : Type} (k : K) (l m : List (K × β)) :
    valuesOf k (l ++ m) = valuesOf k l ++ valuesOf k m := by simp [valuesOf]

omit [DecidableEq M] in
/-- The records of a slice. -/
theorem records_of_slice (r : JackknifeRun c n data) {metrics : α → MetricsDict M} {direct : List ε → MetricsDict M}
    (hl : Lawful c metrics direct) (k : K) (hk : k ∈ (data.map Prod.fst).map Prod.fst) :
    valuesOf k (r.records metrics) =
      ((presentIn data n k).map fun i => ⟨direct (valuesOf k (without data i)), (i : ℤ)⟩) ++
        [⟨direct (valuesOf k (data.map Prod.fst)), fullSampleId⟩] := by
  unfold JackknifeRun.records
  rw [valuesOf_append, valuesOf_flatMap]
  congr 1
  · unfold presentIn
    have : ∀ l : List ℕ, (∀ i ∈ l, i < n) →
        (l.flatMap fun i => valuesOf k ((r.sample i).map fun p => (p.1, (⟨metrics p.2, (i : ℤ)⟩ : SampleMetrics M)))) =
          (l.filter fun i => decide (k ∈ (without data i).map Prod.fst)).map
            fun i => (⟨direct (valuesOf k (without data i)), (i : ℤ)⟩ : SampleMetrics M) := by
      intro l hl'
      induction l with
      | nil => rfl
      | cons i l ih =>
        rw [List.flatMap_cons, ih fun j hj => hl' j (by simp [hj])]
        obtain ⟨h1, h2⟩ := C40_sample r i (hl' i (by simp))
        rw [valuesOf_map k (r.sample i) fun a => (⟨metrics a, (i : ℤ)⟩ : SampleMetrics M)]
        rcases valuesOf_nodup k (r.sample i) (r.sample_ok i (hl' i (by simp))).1 with ⟨h3, h4⟩ | ⟨a, h3, h4⟩
        · rw [h4]
          have : ¬ k ∈ (without data i).map Prod.fst := fun h => h3 ((h1 k).2 h)
          simp only [List.map_nil, List.nil_append, List.filter_cons, this, decide_false, Bool.false_eq_true, if_false]
        · rw [h4]
          have hin : k ∈ (without data i).map Prod.fst := (h1 k).1 (List.mem_map.2 ⟨_, h3, rfl⟩)
          obtain ⟨s, hs, hr⟩ := h2 k a h3
          simp only [List.map_cons, List.map_nil, List.cons_append, List.nil_append, List.filter_cons, hin, decide_true,
            if_true, hl s a _ hs hr]
    exact this _ fun i hi => List.mem_range.1 hi
  · rw [valuesOf_map k r.full fun a => (⟨metrics a, fullSampleId⟩ : SampleMetrics M)]
    obtain ⟨h1, h2⟩ := C40_full r
    rcases valuesOf_nodup k r.full r.full_ok.1 with ⟨h3, h4⟩ | ⟨a, h3, h4⟩
    · exact absurd ((h1 k).2 hk) h3
    · obtain ⟨s, hs, hr⟩ := h2 k a h3
      rw [h4, List.map_cons, List.map_nil, hl s a _ hs hr]

private theorem fulls_records (l : List ℕ) (f : ℕ → MetricsDict M) (m : MetricsDict M) :
    fulls ((l.map fun i => (⟨f i, (i : ℤ)⟩ : SampleMetrics M)) ++ [⟨m, fullSampleId⟩]) = [⟨m, fullSampleId⟩] := by
  have : (l.map fun i => (⟨f i, (i : ℤ)⟩ : SampleMetrics M)).filter (fun s => s.isFull) = [] := by
    rw [List.filter_eq_nil_iff]
    intro x hx
    obtain ⟨i, _, rfl⟩ := List.mem_map.1 hx
    have : (i : ℤ) ≠ -1 := by omega
    simp [SampleMetrics.isFull, fullSampleId, this]
  unfold fulls
  rw [List.filter_append, this]
  simp [SampleMetrics.isFull]

private theorem proper_records (l : List ℕ) (f : ℕ → MetricsDict M) (m : MetricsDict M) :
    proper ((l.map fun i => (⟨f i, (i : ℤ)⟩ : SampleMetrics M)) ++ [⟨m, fullSampleId⟩]) =
      l.map fun i => (⟨f i, (i : ℤ)⟩ : SampleMetrics M) := by
  have : (l.map fun i => (⟨f i, (i : ℤ)⟩ : SampleMetrics M)).filter (fun s => !s.isFull) =
      l.map fun i => (⟨f i, (i : ℤ)⟩ : SampleMetrics M) := by
    rw [List.filter_eq_self]
    intro x hx
    obtain ⟨i, _, rfl⟩ := List.mem_map.1 hx
    have : (i : ℤ) ≠ -1 := by omega
    simp [SampleMetrics.isFull, fullSampleId, this]
  unfold proper
  rw [List.filter_append, this]
  simp [SampleMetrics.isFull]

omit [DecidableEq M] in
/-- A slice is in every sample exactly if its elements are not all in one bucket. -/
theorem present_iff (data : List ((K × ε) × ℕ)) (n : ℕ) (k : K) :
    (presentIn data n k).length = n ↔ ∀ i < n, ∃ p ∈ data, p.1.1 = k ∧ p.2 ≠ i := by
  unfold presentIn
  have : ((List.range n).filter fun i => decide (k ∈ (without data i).map Prod.fst)).length = n ↔
      ∀ i ∈ List.range n, k ∈ (without data i).map Prod.fst := by
    conv_lhs => rhs; rw [← List.length_range (n := n)]
    rw [List.length_filter_eq_length_iff]
    simp
  rw [this]
  simp only [List.mem_range, without, List.mem_map, List.mem_filter, decide_eq_true_eq]
  refine forall₂_congr fun i _ => ?_
  constructor
  · rintro ⟨q, ⟨p, ⟨hp, hi⟩, rfl⟩, rfl⟩
    exact ⟨p, hp, rfl, hi⟩
  · rintro ⟨p, hp, hk, hi⟩
    exact ⟨p.1, ⟨p, ⟨hp, hi⟩, rfl⟩, hk⟩

/-- C40: a slice whose elements all fall into one bucket gets no interval: its result is the metrics of all data and an
error entry. -/
theorem C40_one_bucket (errKey : M) (skip : List M) (r : JackknifeRun c n data) {metrics : α → MetricsDict M}
    {direct : List ε → MetricsDict M} (hl : Lawful c metrics direct)
    (out : List (K × SampleAcc M)) (hout : CombinesPerKey (sampleCombineFn skip) (r.records metrics) out)
    (k : K) (acc : SampleAcc M) (hacc : (k, acc) ∈ out) (i : ℕ) (hi : i < n)
    (hone : ∀ p ∈ data, p.1.1 = k → p.2 = i) (hk : k ∈ (data.map Prod.fst).map Prod.fst) :
    ∃ res m, jackknifeExtract errKey n acc = .ok res ∧ m < n ∧
      Dict.get? res errKey = some (.value (.note (.missingSamples m n))) ∧
      ∀ key, key ≠ errKey →
        Dict.get? res key = (Dict.get? (direct (valuesOf k (data.map Prod.fst))) key).map Out.value := by
  obtain ⟨s, hs, hr⟩ := hout.2.2 k acc hacc
  rw [records_of_slice r hl k hk] at hs
  have hlt : (presentIn data n k).length < n := by
    have h1 : (presentIn data n k).length ≤ n := by
      have := List.length_filter_le (fun i => decide (k ∈ (without data i).map Prod.fst)) (List.range n)
      simpa [presentIn] using this
    refine lt_of_le_of_ne h1 fun h => ?_
    obtain ⟨p, hp, hpk, hpi⟩ := (present_iff data n k).1 h i hi
    exact hpi (hone p hp hpk)
  have hf := fulls_records (presentIn data n k) (fun i => direct (valuesOf k (without data i)))
    (direct (valuesOf k (data.map Prod.fst)))
  have hp := proper_records (presentIn data n k) (fun i => direct (valuesOf k (without data i)))
    (direct (valuesOf k (data.map Prod.fst)))
  obtain ⟨res, h1, h2, h3⟩ := C42_missing_samples errKey n skip (jackknifeValue n) hs _ hf
    (by rw [hp, List.length_map]; exact hlt)
  rw [hr] at h1
  refine ⟨res, _, h1, ?_, h2, h3⟩
  rw [hp, List.length_map]; exact hlt

/-- C40: a slice whose elements fall into more than one bucket: the entry of a metric that is a number for all data and
in all samples has the value for all data, the average and the standard error of the values for the data without one
bucket. -/
theorem C40_interval (errKey : M) (skip : List M) (hn : 2 ≤ n) (r : JackknifeRun c n data)
    {metrics : α → MetricsDict M} {direct : List ε → MetricsDict M} (hl : Lawful c metrics direct)
    (out : List (K × SampleAcc M)) (hout : CombinesPerKey (sampleCombineFn skip) (r.records metrics) out)
    (k : K) (acc : SampleAcc M) (hacc : (k, acc) ∈ out) (hmany : ∀ i < n, ∃ p ∈ data, p.1.1 = k ∧ p.2 ≠ i)
    (res : Dict M (Out M)) (hres : jackknifeExtract errKey n acc = .ok res)
    (key : M) (hkey : key ≠ errKey) (hskip : key ∉ skip) (x : ℝ) (xs : ℕ → ℝ)
    (hx : Dict.get? (direct (valuesOf k (data.map Prod.fst))) key = some (.num x))
    (hxs : ∀ i < n, numbersFor key (direct (valuesOf k (without data i))) = [xs i]) :
    Dict.get? res key = some (.dist
      { mean := avg ((List.range n).map xs), std := Real.sqrt ((n - 1) / n * ssd ((List.range n).map xs)), dof := n - 1, unsampled := .num x }) := by
  obtain ⟨s, hs, hr⟩ := hout.2.2 k acc hacc
  have hk : k ∈ (data.map Prod.fst).map Prod.fst := by
    obtain ⟨p, hp, hpk, _⟩ := hmany 0 (by omega)
    exact List.mem_map.2 ⟨p.1, List.mem_map.2 ⟨p, hp, rfl⟩, hpk⟩
  rw [records_of_slice r hl k hk] at hs
  have hall : presentIn data n k = List.range n := by
    have := (present_iff data n k).2 hmany
    unfold presentIn at this ⊢
    rw [List.filter_eq_self]
    rw [← List.length_filter_eq_length_iff, this, List.length_range]
  have hf := fulls_records (presentIn data n k) (fun i => direct (valuesOf k (without data i)))
    (direct (valuesOf k (data.map Prod.fst)))
  have hp := proper_records (presentIn data n k) (fun i => direct (valuesOf k (without data i)))
    (direct (valuesOf k (data.map Prod.fst)))
  have hlen : (proper (((presentIn data n k).map fun i => (⟨direct (valuesOf k (without data i)), (i : ℤ)⟩ : SampleMetrics M)) ++
        [⟨direct (valuesOf k (data.map Prod.fst)), fullSampleId⟩])).length = n := by
    rw [hp, List.length_map, hall, List.length_range]
  have hsv : sampleValues skip key (((presentIn data n k).map fun i =>
      (⟨direct (valuesOf k (without data i)), (i : ℤ)⟩ : SampleMetrics M)) ++
        [⟨direct (valuesOf k (data.map Prod.fst)), fullSampleId⟩]) = (List.range n).map xs := by
    unfold sampleValues
    rw [if_neg hskip, hp, hall, List.flatMap_map]
    have : ∀ l : List ℕ, (∀ i ∈ l, i < n) → (l.flatMap fun i => numbersFor key (direct (valuesOf k (without data i)))) = l.map xs := by
      intro l hl'
      induction l with
      | nil => rfl
      | cons i l ih =>
        rw [List.flatMap_cons, hxs i (hl' i (by simp)), ih fun j hj => hl' j (by simp [hj])]
        rfl
    exact this _ fun i hi => List.mem_range.1 hi
  have h := C42_entries errKey n (by omega) skip (jackknifeValue n) (jackknifeValue_perm n) hs _ hf hlen res
    (by rw [hr]; exact hres) key hkey (.num x) hx
  rw [hsv, if_pos (by simp)] at h
  obtain ⟨o, h1, h2⟩ := h
  rw [C41_jackknife n hn x _ (by simp)] at h1
  cases h1
  exact h2

end

/-! ### The bootstrap -/

mutual
/-- The execution in which every element is added as often as drawn. -/
def expand : Sched (ε × ℕ) → Sched ε
  | .bundle xs => .bundle (xs.flatMap fun x => List.replicate x.2 x.1)
  | .extend s xs => .extend (expand s) (xs.flatMap fun x => List.replicate x.2 x.1)
  | .merge ss => .merge (expands ss)
def expands : Scheds (ε × ℕ) → Scheds ε
  | .one s => .one (expand s)
  | .cons s ss => .cons (expand s) (expands ss)
end

private theorem addAll_append (c : CombineFn ε α) (a : α) (xs ys : List ε) :
    c.addAll a (xs ++ ys) = (c.addAll a xs).bind fun b => c.addAll b ys := by
  induction xs generalizing a with
  | nil => rfl
  | cons x xs ih =>
    rw [List.cons_append]
    simp only [CombineFn.addAll, bind, Except.bind]
    cases c.addInput a x with
    | error e => rfl
    | ok b => exact ih b

private theorem addAll_expand (c : CombineFn ε α) (a : α) (xs : List (ε × ℕ)) :
    (bootstrapCombineFn c).addAll a xs = c.addAll a (xs.flatMap fun x => List.replicate x.2 x.1) := by
  induction xs generalizing a with
  | nil => rfl
  | cons x xs ih =>
    rw [List.flatMap_cons, addAll_append]
    simp only [CombineFn.addAll, bind, Except.bind]
    cases h : c.addAll a (List.replicate x.2 x.1) with
    | error e =>
      have : (bootstrapCombineFn c).addInput a x = .error e := h
      rw [this]
    | ok b =>
      have : (bootstrapCombineFn c).addInput a x = .ok b := h
      rw [this]
      exact ih b

mutual
theorem run_expand (c : CombineFn ε α) : ∀ s : Sched (ε × ℕ), (bootstrapCombineFn c).run s = c.run (expand s)
  | .bundle xs => by
    simp only [CombineFn.run, expand]
    exact addAll_expand c _ xs
  | .extend s xs => by
    simp only [CombineFn.run, expand, run_expand c s, bind, Except.bind]
    cases c.run (expand s) with
    | error e => rfl
    | ok a => exact addAll_expand c a xs
  | .merge ss => by
    simp only [CombineFn.run, expand, runs_expand c ss]
    rfl
theorem runs_expand (c : CombineFn ε α) : ∀ ss : Scheds (ε × ℕ), (bootstrapCombineFn c).runs ss = c.runs (expands ss)
  | .one s => by simp only [CombineFn.runs, expands, run_expand c s]
  | .cons s ss => by simp only [CombineFn.runs, expands, run_expand c s, runs_expand c ss]
end

mutual
theorem inputs_expand : ∀ s : Sched (ε × ℕ), (expand s).inputs = s.inputs.flatMap fun x => List.replicate x.2 x.1
  | .bundle xs => rfl
  | .extend s xs => by simp only [expand, Sched.inputs, inputs_expand s, List.flatMap_append]
  | .merge ss => by simp only [expand, Sched.inputs, inputs_expands ss]
theorem inputs_expands : ∀ ss : Scheds (ε × ℕ), (expands ss).inputs = ss.inputs.flatMap fun x => List.replicate x.2 x.1
  | .one s => by simp only [expands, Scheds.inputs, inputs_expand s]
  | .cons s ss => by simp only [expands, Scheds.inputs, inputs_expand s, inputs_expands ss, List.flatMap_append]
end

/-- C63: for all random draws and every execution the accumulator of a slice in a bootstrap sample is the outcome of an
execution of the combiner over the elements of the slice, each repeated as often as was drawn for it; every slice
of the data is in every sample, also if no element was drawn. -/
theorem C63_sample (c : CombineFn ε α) (data : List (K × ε × ℕ)) (out : List (K × α))
    (h : CombinesPerKey (bootstrapCombineFn c) data out) :
    (∀ k, k ∈ out.map Prod.fst ↔ k ∈ data.map Prod.fst) ∧ ∀ k a, (k, a) ∈ out →
      ∃ s : Sched ε, s.inputs.Perm ((valuesOf k data).flatMap fun x => List.replicate x.2 x.1) ∧ c.run s = .ok a := by
  refine ⟨h.2.1, fun k a hka => ?_⟩
  obtain ⟨s, h1, h2⟩ := h.2.2 k a hka
  refine ⟨expand s, ?_, ?_⟩
  · rw [inputs_expand]
    exact h1.flatMap_right _
  · rw [← run_expand]; exact h2

/-- C63: with draws that are all one the sample is computed from the data itself. -/
theorem C63_all_once (c : CombineFn ε α) (s : Sched (ε × ℕ)) (h : ∀ x ∈ s.inputs, x.2 = 1) :
    (bootstrapCombineFn c).run s = c.run (expand s) ∧ (expand s).inputs = s.inputs.map Prod.fst := by
  refine ⟨run_expand c s, ?_⟩
  rw [inputs_expand]
  revert h
  generalize s.inputs = l
  intro h
  induction l with
  | nil => rfl
  | cons x l ih =>
    rw [List.flatMap_cons, ih fun y hy => h y (by simp [hy]), h x (by simp)]
    rfl

/-! ### A run that meets the hypotheses -/

/-- The sum of natural numbers as a combiner. -/
def sumFn : CombineFn ℕ ℕ := ⟨0, fun a x => .ok (a + x), fun as => .ok as.sum⟩

private theorem sumFn_run (s : Sched ℕ) (a : ℕ) (h : sumFn.run s = .ok a) : a = s.inputs.sum := by
  refine run_rel (c := sumFn) (P := fun xs a => a = xs.sum) rfl ?_ ?_ s a h
  · intro xs a x b hP hb
    cases hb
    simp [hP]
  · intro l hl hP b hb
    cases hb
    rw [List.sum_flatten, List.map_map]
    congr 1
    exact List.map_congr_left fun p hp => hP p hp

/-- Two buckets, the slice `"a"` in both, the slice `"b"` in the second only. -/
def exampleRun : JackknifeRun (K := String) sumFn 2 [(("a", 5), 0), (("a", 7), 1), (("b", 1), 1)] where
  inRange := by decide
  parts i := if i = 0 then [("a", 5)] else [("b", 1), ("a", 7)]
  parts_ok := by
    intro i hi
    obtain rfl | rfl : i = 0 ∨ i = 1 := by omega
    · refine ⟨by decide, by simp [partition], fun k a h => ?_⟩
      simp only [if_true, List.mem_singleton, Prod.mk.injEq] at h
      obtain ⟨rfl, rfl⟩ := h
      exact ⟨.bundle [5], by decide, rfl⟩
    · refine ⟨by decide, by simp [partition, or_comm], fun k a h => ?_⟩
      simp only [one_ne_zero, if_false, List.mem_cons, List.not_mem_nil, or_false, Prod.mk.injEq] at h
      obtain ⟨rfl, rfl⟩ | ⟨rfl, rfl⟩ := h
      · exact ⟨.bundle [1], by decide, rfl⟩
      · exact ⟨.bundle [7], by decide, rfl⟩
  full := [("a", 12), ("b", 1)]
  full_ok := by
    refine ⟨by decide, ?_, fun k a h => ?_⟩
    · intro k
      simp [List.range_succ]
      tauto
    · simp only [List.mem_cons, List.not_mem_nil, or_false, Prod.mk.injEq] at h
      obtain ⟨rfl, rfl⟩ | ⟨rfl, rfl⟩ := h
      · exact ⟨.merge (.cons (.bundle [7]) (.one (.bundle [5]))), by decide, rfl⟩
      · exact ⟨.bundle [1], by decide, rfl⟩
  sample i := if i = 0 then [("a", 7), ("b", 1)] else [("a", 5)]
  sample_ok := by
    intro i hi
    obtain rfl | rfl : i = 0 ∨ i = 1 := by omega
    · refine ⟨by decide, by simp [List.range_succ, or_comm], fun k a h => ?_⟩
      simp only [if_true, List.mem_cons, List.not_mem_nil, or_false, Prod.mk.injEq] at h
      obtain ⟨rfl, rfl⟩ | ⟨rfl, rfl⟩ := h
      · exact ⟨.bundle [7], by decide, rfl⟩
      · exact ⟨.bundle [1], by decide, rfl⟩
    · refine ⟨by decide, by simp [List.range_succ], fun k a h => ?_⟩
      simp only [one_ne_zero, if_false, List.mem_singleton, Prod.mk.injEq] at h
      obtain ⟨rfl, rfl⟩ := h
      exact ⟨.bundle [5], by decide, rfl⟩

/-- The sum is lawful; `"a"` is in more than one bucket; all of `"b"` is in bucket 1; the values of the samples. -/
example : Lawful (M := String) sumFn (fun a => [("m", .num (a : ℝ))]) (fun xs => [("m", .num (xs.sum : ℝ))]) ∧
    (∀ i < 2, ∃ p ∈ [((("a", 5), 0) : (String × ℕ) × ℕ), (("a", 7), 1), (("b", 1), 1)], p.1.1 = "a" ∧ p.2 ≠ i) ∧
    (∀ p ∈ [((("a", 5), 0) : (String × ℕ) × ℕ), (("a", 7), 1), (("b", 1), 1)], p.1.1 = "b" → p.2 = 1) := by
  refine ⟨?_, by decide, by decide⟩
  intro s a xs hp hr
  simp only [sumFn_run s a hr, hp.sum_eq]

end Confidence
end TFMA
