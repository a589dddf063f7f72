import Verif.Model.AllSlices
import Verif.Props.EvalResults
import Mathlib.Data.List.Forall2

/-!
# C159: what a result shows for all slices is what it shows for each

`get_metrics_for_all_slices` and `get_attributions_for_all_slices` against `get_metrics_for_slice` and `get_attributions_for_slice`;
`get_metric_names` and `get_slice_names`.
-/

namespace TFMA
namespace EvalResults

open MetricKeys Slicer

variable {V W : Type}

/-! ### specification -/

/-- Looking up a slice in the dictionary of all slices. -/
def atSlice (d : List (ResultKey × W)) (key : ResultKey) : Option W := (d.find? fun x => resultKeyEq x.1 key).map Prod.snd

/-- No slice is there twice. -/
def NoSliceTwice (keys : List ResultKey) : Prop := keys.Pairwise fun a b => resultKeyEq a b = false

/-! ### the loops -/

/-- The loop with what is taken from a record. -/
private def loopWith (f : Option (ByOutput V) → Except Err W) : List (ResultKey × Option (ByOutput V)) → List (ResultKey × W) →
    Except Err (List (ResultKey × W))
  | [], acc => .ok acc
  | (key, m) :: rest, acc => match f m with
    | .error e => .error e
    | .ok w => loopWith f rest (setSlice acc key w)

private theorem setSlice_new (d : List (ResultKey × W)) (k : ResultKey) (w : W) (h : ∀ x ∈ d, resultKeyEq x.1 k = false) :
    setSlice d k w = d ++ [(k, w)] := by
  induction d with
  | nil => rfl
  | cons x d ih =>
    obtain ⟨k', w'⟩ := x
    have h0 : resultKeyEq k' k = false := h (k', w') (by simp)
    simp only [setSlice, h0, Bool.false_eq_true, if_false, List.cons_append]
    rw [ih fun x hx => h x (by simp [hx])]

private theorem loopWith_ok (f : Option (ByOutput V) → Except Err W) (l : List (ResultKey × Option (ByOutput V)))
    (acc d : List (ResultKey × W)) (hd : NoSliceTwice (acc.map Prod.fst ++ l.map Prod.fst)) (h : loopWith f l acc = .ok d) :
    ∃ d', d = acc ++ d' ∧ List.Forall₂ (fun r x => x.1 = r.1 ∧ f r.2 = .ok x.2) l d' := by
  induction l generalizing acc with
  | nil =>
    simp only [loopWith, Except.ok.injEq] at h
    exact ⟨[], by simp [h], .nil⟩
  | cons r l ih =>
    obtain ⟨key, m⟩ := r
    simp only [loopWith] at h
    cases hf : f m with
    | error e => simp [hf] at h
    | ok w =>
      simp only [hf] at h
      have hnew : ∀ x ∈ acc, resultKeyEq x.1 key = false := fun x hx =>
        (List.pairwise_append.1 hd).2.2 x.1 (List.mem_map.2 ⟨x, hx, rfl⟩) key (by simp)
      rw [setSlice_new acc key w hnew] at h
      obtain ⟨d', e, h'⟩ := ih (acc ++ [(key, w)]) (by simpa using hd) h
      exact ⟨(key, w) :: d', by simp [e], .cons ⟨rfl, hf⟩ h'⟩

private theorem loopWith_error (f : Option (ByOutput V) → Except Err W) (l : List (ResultKey × Option (ByOutput V)))
    (acc : List (ResultKey × W)) (e : Err) (h : loopWith f l acc = .error e) : ∃ r ∈ l, f r.2 = .error e := by
  induction l generalizing acc with
  | nil => simp [loopWith] at h
  | cons r l ih =>
    obtain ⟨key, m⟩ := r
    simp only [loopWith] at h
    cases hf : f m with
    | error e' =>
      simp only [hf, Except.error.injEq] at h
      exact ⟨(key, m), by simp, by rw [← h]; exact hf⟩
    | ok w =>
      simp only [hf] at h
      obtain ⟨r, hr, h'⟩ := ih _ h
      exact ⟨r, by simp [hr], h'⟩

/-- What is taken from the record of a slice. -/
private def oneWith (f : Option (ByOutput V) → Except Err W) (l : List (ResultKey × Option (ByOutput V))) (key : ResultKey) :
    Except Err (Option W) :=
  match findSlice key l with
  | none => .ok none
  | some m => (f m).map some

private theorem one_at (f : Option (ByOutput V) → Except Err W) (l : List (ResultKey × Option (ByOutput V))) (d : List (ResultKey × W))
    (h : List.Forall₂ (fun r x => x.1 = r.1 ∧ f r.2 = .ok x.2) l d) (key : ResultKey) : oneWith f l key = .ok (atSlice d key) := by
  induction h with
  | nil => rfl
  | @cons r x l d hrx hrest ih =>
    obtain ⟨k, m⟩ := r
    obtain ⟨k', w⟩ := x
    obtain ⟨rfl, hf⟩ := hrx
    simp only at hf
    cases hk : resultKeyEq k' key with
    | true => simp [oneWith, findSlice, atSlice, List.find?, equalsSliceName_eq, hk, hf, Except.map]
    | false =>
      have e1 : oneWith f ((k', m) :: l) key = oneWith f l key := by
        simp [oneWith, findSlice, List.find?, equalsSliceName_eq, hk]
      have e2 : atSlice ((k', w) :: d) key = atSlice d key := by simp [atSlice, List.find?, hk]
      rw [e1, e2]
      exact ih

private theorem resultKeyEq_refl (k : ResultKey) : resultKeyEq k k = true := by
  cases k <;> simp [resultKeyEq, keyEq]

private theorem findSlice_mem (l : List (ResultKey × Option (ByOutput V))) (hd : NoSliceTwice (l.map Prod.fst))
    (r : ResultKey × Option (ByOutput V)) (hr : r ∈ l) : findSlice r.1 l = some r.2 := by
  induction l with
  | nil => simp at hr
  | cons r' l ih =>
    simp only [NoSliceTwice, List.map_cons, List.pairwise_cons] at hd
    rcases List.mem_cons.1 hr with rfl | hr
    · simp [findSlice, List.find?, equalsSliceName_eq, resultKeyEq_refl]
    · have : resultKeyEq r'.1 r.1 = false := hd.1 r.1 (List.mem_map.2 ⟨r, hr, rfl⟩)
      have e : findSlice r.1 (r' :: l) = findSlice r.1 l := by simp [findSlice, List.find?, equalsSliceName_eq, this]
      rw [e]
      exact ih hd.2 hr

private theorem loop_spec (f : Option (ByOutput V) → Except Err W) (l : List (ResultKey × Option (ByOutput V)))
    (hd : NoSliceTwice (l.map Prod.fst)) :
    (∀ d, loopWith f l [] = .ok d → d.map Prod.fst = l.map Prod.fst ∧ ∀ key, oneWith f l key = .ok (atSlice d key)) ∧
      (∀ e, loopWith f l [] = .error e → ∃ r ∈ l, oneWith f l r.1 = .error e) := by
  constructor
  · intro d h
    obtain ⟨d', rfl, h'⟩ := loopWith_ok f l [] d (by simpa using hd) h
    refine ⟨?_, one_at f l _ (by simpa using h')⟩
    clear h hd
    induction h' with
    | nil => rfl
    | cons h1 _ ih => simp [h1.1, ih]
  · intro e h
    obtain ⟨r, hr, h'⟩ := loopWith_error f l [] e h
    refine ⟨r, hr, ?_⟩
    simp [oneWith, findSlice_mem l hd r hr, h', Except.map]

private theorem metrics_loop (output sub : String) (l : List (ResultKey × Option (ByOutput V))) (acc : List (ResultKey × Dict String V)) :
    allSlicesLoop output sub l acc = loopWith (fun m => subMap m output sub) l acc := by
  induction l generalizing acc with
  | nil => rfl
  | cons r l ih =>
    obtain ⟨key, m⟩ := r
    simp only [allSlicesLoop, loopWith]
    cases subMap m output sub with
    | error e => rfl
    | ok names => exact ih _

/-- The attributions taken from a record. -/
private def picked (metricName output sub : String) (m : Option (ByOutput V)) : Except Err V :=
  match subMap m output sub with
  | .error e => .error e
  | .ok names => pickMetric names metricName

private theorem attributions_loop (metricName output sub : String) (l : List (ResultKey × Option (ByOutput V)))
    (acc : List (ResultKey × V)) : allAttributionsLoop metricName output sub l acc = loopWith (picked metricName output sub) l acc := by
  induction l generalizing acc with
  | nil => rfl
  | cons r l ih =>
    obtain ⟨key, m⟩ := r
    simp only [allAttributionsLoop, loopWith, picked]
    cases subMap m output sub with
    | error e => rfl
    | ok names =>
      simp only
      cases pickMetric names metricName with
      | error e => rfl
      | ok v => exact ih _

/-! ### C159 -/

/-- The metrics of all slices are, slice by slice and in the order of the result, the metrics of each slice. -/
theorem C159_metrics (l : List (ResultKey × Option (ByOutput V))) (hd : NoSliceTwice (l.map Prod.fst)) (output : String)
    (classId k topK : Option ℤ) (d : List (ResultKey × Dict String V))
    (h : getMetricsForAllSlices l output classId k topK = .ok d) :
    d.map Prod.fst = getSliceNames l ∧ ∀ key, getMetricsForSlice l key output classId k topK = .ok (atSlice d key) := by
  unfold getMetricsForAllSlices at h
  unfold getMetricsForSlice
  cases hs : metricsSubKey classId k topK with
  | error e => simp [hs] at h
  | ok sub =>
    simp only [hs] at h ⊢
    rw [metrics_loop] at h
    exact (loop_spec _ l hd).1 d h

/-- They are refused only if those of some slice are, for the same reason. -/
theorem C159_metrics_refused (l : List (ResultKey × Option (ByOutput V))) (hd : NoSliceTwice (l.map Prod.fst)) (output : String)
    (classId k topK : Option ℤ) (e : Err) (h : getMetricsForAllSlices l output classId k topK = .error e) :
    ∃ key, getMetricsForSlice l key output classId k topK = .error e := by
  unfold getMetricsForAllSlices at h
  unfold getMetricsForSlice
  cases hs : metricsSubKey classId k topK with
  | error e' => exact ⟨.slice [], by simpa [hs] using h⟩
  | ok sub =>
    simp only [hs] at h ⊢
    rw [metrics_loop] at h
    obtain ⟨r, -, h'⟩ := (loop_spec _ l hd).2 e h
    exact ⟨r.1, h'⟩

/-- The attributions of all slices are, slice by slice and in the order of the result, the attributions of each slice. -/
theorem C159_attributions (l : List (ResultKey × Option (ByOutput V))) (hd : NoSliceTwice (l.map Prod.fst)) (metricName output : String)
    (classId k topK : Option ℤ) (d : List (ResultKey × V))
    (h : getAttributionsForAllSlices l metricName output classId k topK = .ok d) :
    d.map Prod.fst = getSliceNames l ∧
      ∀ key, getAttributionsForSlice l key metricName output classId k topK = .ok (atSlice d key) := by
  unfold getAttributionsForAllSlices at h
  unfold getAttributionsForSlice
  cases hs : attributionsSubKey classId k topK with
  | error e => simp [hs] at h
  | ok sub =>
    simp only [hs] at h ⊢
    rw [attributions_loop] at h
    obtain ⟨h1, h2⟩ := (loop_spec _ l hd).1 d h
    refine ⟨h1, fun key => ?_⟩
    rw [← h2 key]
    unfold oneWith picked
    cases findSlice key l with
    | none => rfl
    | some m => cases hm : subMap m output sub <;> simp [hm, Except.map]

/-- They are refused only if those of some slice are, for the same reason. -/
theorem C159_attributions_refused (l : List (ResultKey × Option (ByOutput V))) (hd : NoSliceTwice (l.map Prod.fst))
    (metricName output : String) (classId k topK : Option ℤ) (e : Err)
    (h : getAttributionsForAllSlices l metricName output classId k topK = .error e) :
    ∃ key, getAttributionsForSlice l key metricName output classId k topK = .error e := by
  unfold getAttributionsForAllSlices at h
  unfold getAttributionsForSlice
  cases hs : attributionsSubKey classId k topK with
  | error e' => exact ⟨.slice [], by simpa [hs] using h⟩
  | ok sub =>
    simp only [hs] at h ⊢
    rw [attributions_loop] at h
    obtain ⟨r, -, h'⟩ := (loop_spec _ l hd).2 e h
    refine ⟨r.1, ?_⟩
    rw [← h']
    unfold oneWith picked
    cases findSlice r.1 l with
    | none => rfl
    | some m => cases hm : subMap m output sub <;> simp [hm, Except.map]

/-- The names of the metrics are those that some slice has under some output and sub key. -/
theorem C159_names (l : List (ResultKey × Option (ByOutput V))) (names : List String) (h : getMetricNames l = .ok names) (n : String) :
    n ∈ names ↔ ∃ r ∈ l, ∃ m, r.2 = some m ∧ ∃ o ∈ m, ∃ s ∈ o.2, n ∈ Dict.keys s.2 := by
  induction l generalizing names with
  | nil =>
    simp only [getMetricNames, Except.ok.injEq] at h
    subst h
    simp
  | cons r l ih =>
    obtain ⟨key, m⟩ := r
    cases m with
    | none => simp [getMetricNames] at h
    | some m =>
      simp only [getMetricNames] at h
      cases hr : getMetricNames l with
      | error e => simp [hr, Except.map] at h
      | ok rest =>
        simp only [hr, Except.map, Except.ok.injEq] at h
        subst h
        rw [List.mem_append, ih rest hr]
        simp only [List.mem_flatMap, List.mem_cons, exists_eq_or_imp]
        constructor
        · rintro (⟨o, ho, s, hs, hn⟩ | hrest)
          · exact Or.inl ⟨m, rfl, o, ho, s, hs, hn⟩
          · exact Or.inr hrest
        · rintro (⟨m', e, o, ho, s, hs, hn⟩ | hrest)
          · simp only [Option.some.injEq] at e
            subst e
            exact Or.inl ⟨o, ho, s, hs, hn⟩
          · exact Or.inr hrest

/-- Every metric of every slice is named. -/
theorem C159_named (l : List (ResultKey × Option (ByOutput V))) (names : List String) (h : getMetricNames l = .ok names)
    (key : ResultKey) (output : String) (classId k topK : Option ℤ) (ms : Dict String V)
    (hm : getMetricsForSlice l key output classId k topK = .ok (some ms)) (n : String) (hn : n ∈ Dict.keys ms) : n ∈ names := by
  rw [C159_names l names h n]
  unfold getMetricsForSlice at hm
  cases hs : metricsSubKey classId k topK with
  | error e => simp [hs] at hm
  | ok sub =>
    simp only [hs] at hm
    cases hf : findSlice key l with
    | none => simp [hf] at hm
    | some m =>
      simp only [hf] at hm
      obtain ⟨r, hr, rfl⟩ : ∃ r ∈ l, r.2 = m := by
        unfold findSlice at hf
        obtain ⟨r, hr, e⟩ := Option.map_eq_some_iff.1 hf
        exact ⟨r, List.mem_of_find?_eq_some hr, e⟩
      cases hm2 : r.2 with
      | none => simp [hm2, subMap, Except.map] at hm
      | some m =>
        simp only [hm2, subMap] at hm
        cases ho : Dict.get? m output with
        | none => simp [ho, Except.map] at hm
        | some subs =>
          simp only [ho] at hm
          cases hsub : Dict.get? subs sub with
          | none => simp [hsub, Except.map] at hm
          | some ds =>
            simp only [hsub, Except.map, Except.ok.injEq, Option.some.injEq] at hm
            subst hm
            exact ⟨r, hr, m, hm2, (output, subs), Dict.mem_of_get? ho, (sub, ds), Dict.mem_of_get? hsub, hn⟩

/-- If a slice is there twice the two accessors disagree: one shows the last record of the slice, the other the first. -/
theorem C159_twice_fails (v w : V) :
    let l : List (ResultKey × Option (ByOutput V)) := [(.slice [], some [("", [("", [("m", v)])])]), (.slice [], some [("", [("", [("m", w)])])])]
    getMetricsForAllSlices l "" none none none = .ok [(.slice [], [("m", w)])] ∧
      getMetricsForSlice l (.slice []) "" none none none = .ok (some [("m", v)]) := by
  constructor <;> rfl

/-- Two slices, one metric. -/
example : getMetricsForAllSlices (V := ℕ)
    [(.slice [], some [("", [("", [("m", 1)])])]), (.slice [("a", .int 1)], some [("", [("", [("m", 2)])])])] "" none none none =
    .ok [(.slice [], [("m", 1)]), (.slice [("a", .int 1)], [("m", 2)])] := by rfl
example : NoSliceTwice [.slice [], .slice [("a", .int 1)]] := by
  simp [NoSliceTwice, resultKeyEq, keyEq]
/-- Attributions of the only metric. -/
example : getAttributionsForAllSlices (V := ℕ) [(.slice [], some [("", [("", [("m", 1)])])])] "" "" none none none =
    .ok [(.slice [], 1)] := by rfl

end EvalResults
end TFMA
