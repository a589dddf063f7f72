import Verif.Props.EvalResults

/-!
# C94 continued: loaded attributions, confidence intervals, and what is lost

C95: which models are loaded from which output path.
-/

namespace TFMA
namespace EvalResults

open MetricKeys Slicer

variable {O V W : Type}

/-! ### Attributions -/

/-- `v` are the attributions of the last stored metric of the given model, output, sub key and displayed name. -/
def LastAttributions (l : List (MetricKeyPb × V)) (mdl o : String) (c k t : Option ℤ) (n : String) (v : V) : Prop :=
  let here (key : MetricKeyPb) := key.modelName = mdl ∧ key.outputName = o ∧ HasSubKey key c k t ∧
    (key.isDiff = true → n = key.name ++ "_diff") ∧ (key.isDiff = false → n = key.name)
  ∃ pre x post, l = pre ++ x :: post ∧ here x.1 ∧ v = x.2 ∧ ∀ y ∈ post, ¬ here y.1

private theorem attributionName_iff (key : MetricKeyPb) (n : String) :
    attributionName key = n ↔ (key.isDiff = true → n = key.name ++ "_diff") ∧ (key.isDiff = false → n = key.name) := by
  unfold attributionName
  cases key.isDiff <;> simp <;> exact eq_comm

private theorem lastAttributions_iff (l : List (MetricKeyPb × V)) (mdl o : String) {c k t : Option ℤ} {sub : String}
    (hsub : metricsSubKey c k t = .ok sub) (n : String) (v : V) :
    latest (At attributionName mdl o sub n) l = some v ↔ LastAttributions l mdl o c k t n v := by
  have hat : ∀ key, At attributionName mdl o sub n key ↔ key.modelName = mdl ∧ key.outputName = o ∧ HasSubKey key c k t ∧
      (key.isDiff = true → n = key.name ++ "_diff") ∧ (key.isDiff = false → n = key.name) := by
    intro key
    unfold At
    rw [subKeyId_iff hsub, attributionName_iff]
  simp only [latest_iff, hat]
  unfold LastAttributions
  constructor
  · rintro ⟨pre, x, post, h1, h2, h3, h4⟩
    exact ⟨pre, x, post, h1, h2, h3.symm, h4⟩
  · rintro ⟨pre, x, post, h1, h2, h3, h4⟩
    exact ⟨pre, x, post, h1, h2, h3.symm, h4⟩

private theorem convert_attributions_spec (r : AttributionsRecord V) (model : Option String) (key : SliceKey)
    (mp : Option (ByOutput (Dict String V))) (h : convertAttributions r model = .ok (key, mp)) :
    deserializeKey r.key.sliceKey = .ok key ∧
    ((mp = none ∧ r.keysAndValues = []) ∨
      ∃ m mp', mp = some mp' ∧ Chosen (r.keysAndValues.map Prod.fst) model m ∧ Neat mp' ∧
        ∀ o c k t sub, metricsSubKey c k t = .ok sub → ∀ n v,
          lookup mp' o sub n = some v ↔ LastAttributions r.keysAndValues m o c k t n v) := by
  unfold convertAttributions at h
  cases hf : fill attributionName (fun w : Dict String V => w) r.keysAndValues [] none with
  | error e => simp [hf] at h
  | ok p =>
    obtain ⟨maps, default⟩ := p
    obtain ⟨f1, f2, f3, f4, f5, f6⟩ := fill_spec _ _ _ _ _ _ _ hf Dict.WF_nil (by simp [Dict.get?])
    have fv : ∀ mdl m, Dict.get? maps mdl = some m → ∀ o c k t sub, metricsSubKey c k t = .ok sub → ∀ n v,
        lookup m o sub n = some v ↔ LastAttributions r.keysAndValues mdl o c k t n v := by
      intro mdl m hm o c k t sub hsub n v
      rw [← lastAttributions_iff _ _ _ hsub]
      have := f2 mdl o sub n
      simp only [look, hm, Option.bind_some, Dict.get?, Option.bind_none, Option.or_none] at this
      rw [this]
      cases latest (At attributionName mdl o sub n) r.keysAndValues <;> simp
    simp only [hf] at h
    have hfin : ∀ m : Option (ByOutput (Dict String V)),
        ((deserializeKey r.key.sliceKey).map fun k => (k, m)) = .ok (key, mp) →
          deserializeKey r.key.sliceKey = .ok key ∧ mp = m := by
      intro m hh
      cases hk : deserializeKey r.key.sliceKey with
      | error e => simp [hk, Except.map] at hh
      | ok k' =>
        simp only [hk, Except.map, Except.ok.injEq, Prod.mk.injEq] at hh
        exact ⟨by rw [hh.1], hh.2.symm⟩
    rcases choice_spec (r.keysAndValues.map Prod.fst) model default maps f4 (by
        intro mdl
        rw [f3]
        simp [Dict.keys]) (by rw [f6, List.foldl_map]) with ⟨m, own, hbind, hm, hown, hchosen⟩ |
        ⟨x, hx, hbind, hone, hget, hchosen, hall⟩ | ⟨hbind, hone, hrest⟩
    · simp only [hbind] at h
      obtain ⟨h1, h2⟩ := hfin _ h
      exact ⟨h1, Or.inr ⟨m, own, h2, hchosen, f5 _ _ hown, fv _ _ hown⟩⟩
    · simp only [hbind] at h
      rw [if_pos hone] at h
      obtain ⟨h1, h2⟩ := hfin _ h
      exact ⟨h1, Or.inr ⟨x.1, x.2, by simp [h2, hx], hchosen, f5 _ _ hget, fv _ _ hget⟩⟩
    · simp only [hbind] at h
      rw [if_neg hone] at h
      rcases hrest with ⟨h1, h2⟩ | ⟨h1, h2, h3⟩
      · rw [if_pos (by simp [h1])] at h
        obtain ⟨g1, g2⟩ := hfin _ h
        exact ⟨g1, Or.inl ⟨g2, by simpa using h2⟩⟩
      · rw [if_neg (by simpa using h1)] at h
        simp at h

private theorem load_attributions_inv (model : Option String) (records : List (AttributionsRecord V))
    (l : List (ResultKey × Option (ByOutput (Dict String V)))) (h : loadAttributions model records = .ok l)
    (slice : ResultKey) (mp : Option (ByOutput (Dict String V))) (hf : findSlice slice l = some mp) :
    ∃ pre r post key, records = pre ++ r :: post ∧ convertAttributions r model = .ok (key, mp) ∧
      resultKeyEq (.slice key) slice = true ∧
      ∀ r' ∈ pre, ∀ key', deserializeKey r'.key.sliceKey = .ok key' → resultKeyEq (.slice key') slice = false := by
  induction records generalizing l with
  | nil =>
    simp only [loadAttributions, Except.ok.injEq] at h
    subst h
    simp [findSlice] at hf
  | cons r rest ih =>
    simp only [loadAttributions] at h
    cases hc : convertAttributions r model with
    | error e => simp [hc] at h
    | ok x =>
      obtain ⟨key, m⟩ := x
      simp only [hc] at h
      cases hl : loadAttributions model rest with
      | error e => simp [hl, Except.map] at h
      | ok l' =>
        simp only [hl, Except.map, Except.ok.injEq] at h
        subst h
        by_cases hk : resultKeyEq (.slice key) slice = true
        · have : findSlice slice ((ResultKey.slice key, m) :: l') = some m := by
            simp [findSlice, List.find?, equalsSliceName_eq, hk]
          rw [this] at hf
          cases hf
          exact ⟨[], r, rest, key, rfl, hc, hk, by simp⟩
        · have hk' : resultKeyEq (.slice key) slice = false := by simpa using hk
          have : findSlice slice ((ResultKey.slice key, m) :: l') = findSlice slice l' := by
            simp [findSlice, List.find?, equalsSliceName_eq, hk']
          rw [this] at hf
          obtain ⟨pre, r', post, key', rfl, h1, h2, h3⟩ := ih l' hl hf
          refine ⟨r :: pre, r', post, key', rfl, h1, h2, ?_⟩
          intro r'' hr'' key'' hh
          rcases List.mem_cons.mp hr'' with rfl | hr''
          · have := (convert_attributions_spec _ _ _ _ hc).1
            rw [this] at hh
            cases hh
            exact hk'
          · exact h3 r'' hr'' key'' hh

/-- **C94**: what is returned as attributions for a slice, metric, output and sub key are the last ones stored there for the
chosen model in the first record of the slice, provided that `class_id` is not zero. Without a metric name it is the only
metric of the output and sub key. -/
theorem C94_attributions_partial (records : List (AttributionsRecord V)) (model : Option String)
    (l : List (ResultKey × Option (ByOutput (Dict String V)))) (h : loadAttributions model records = .ok l)
    (slice : ResultKey) (metricName output : String) (c k t : Option ℤ) (hc : c ≠ some 0) (hk : k ≠ some 0) (ht : t ≠ some 0)
    (v : Dict String V) (hg : getAttributionsForSlice l slice metricName output c k t = .ok (some v)) :
    ∃ pre r post key m, records = pre ++ r :: post ∧ deserializeKey r.key.sliceKey = .ok key ∧
      resultKeyEq (.slice key) slice = true ∧
      (∀ r' ∈ pre, ∀ key', deserializeKey r'.key.sliceKey = .ok key' → resultKeyEq (.slice key') slice = false) ∧
      Chosen (r.keysAndValues.map Prod.fst) model m ∧
      (metricName ≠ "" → LastAttributions r.keysAndValues m output c k t metricName v) ∧
      (metricName = "" → ∃ n, ∀ n' v', LastAttributions r.keysAndValues m output c k t n' v' ↔ n' = n ∧ v' = v) := by
  have hsubeq : attributionsSubKey c k t = metricsSubKey c k t := by
    have hz : ∀ x : Option ℤ, x ≠ some 0 → (truthy x = true ↔ x ≠ none) := by
      intro x hx
      cases x with
      | none => simp [truthy]
      | some i =>
        have : i ≠ 0 := fun e => hx (by rw [e])
        simp [truthy, this]
    unfold attributionsSubKey metricsSubKey
    by_cases hn : c = none ∧ k = none ∧ t = none
    · obtain ⟨rfl, rfl, rfl⟩ := hn
      simp [truthy]
    · have : (truthy c || truthy k || truthy t) = true := by
        by_contra hh
        apply hn
        simp only [Bool.or_eq_true, not_or, hz c hc, hz k hk, hz t ht, ne_eq, not_not] at hh
        exact ⟨hh.1.1, hh.1.2, hh.2⟩
      rw [if_pos this, if_neg hn]
  unfold getAttributionsForSlice at hg
  rw [hsubeq] at hg
  cases hs : metricsSubKey c k t with
  | error e => simp [hs] at hg
  | ok sub =>
    simp only [hs] at hg
    cases hf : findSlice slice l with
    | none => simp [hf] at hg
    | some mp =>
      simp only [hf] at hg
      cases hsub : subMap mp output sub with
      | error e => simp [hsub] at hg
      | ok names =>
        simp only [hsub] at hg
        obtain ⟨pre, r, post, key, rfl, h1, h2, h3⟩ := load_attributions_inv model records l h slice mp hf
        obtain ⟨a1, ⟨rfl, _⟩ | ⟨m, mp', rfl, a2, a3, a4⟩⟩ := convert_attributions_spec _ _ _ _ h1
        · simp [subMap] at hsub
        · have hnames : ∀ n v', Dict.get? names n = some v' ↔ LastAttributions r.keysAndValues m output c k t n v' := by
            intro n v'
            rw [subMap_ok hsub]
            exact a4 output c k t sub hs n v'
          refine ⟨pre, r, post, key, m, rfl, a1, h2, h3, a2, ?_, ?_⟩
          · intro hn
            unfold pickMetric at hg
            rw [if_pos hn] at hg
            cases hget : Dict.get? names metricName with
            | none => simp [hget, Except.map] at hg
            | some v' =>
              simp only [hget, Except.map, Except.ok.injEq, Option.some.injEq] at hg
              subst hg
              exact (hnames _ _).mp hget
          · intro hn
            unfold pickMetric at hg
            rw [if_neg (by simpa using hn)] at hg
            match names, hnames, hg with
            | [], _, hg => simp [Except.map] at hg
            | [x], hnames, hg =>
              simp only [Except.map, Except.ok.injEq, Option.some.injEq] at hg
              refine ⟨x.1, ?_⟩
              intro n' v'
              rw [← hnames]
              simp only [Dict.get?]
              by_cases he : x.1 = n'
              · simp only [he, if_true, Option.some.injEq, true_and]
                rw [hg]
                exact eq_comm
              · simp only [he, if_false, reduceCtorEq, false_iff, not_and]
                intro e
                exact absurd e.symm he
            | _ :: _ :: _, _, hg => simp [Except.map] at hg

/-! ### What is lost -/

/-- A record with the metrics `kvs` for the overall slice. -/
def overallRecord (kvs : List (MetricKeyPb × ℚ)) : MetricsRecord Unit :=
  ⟨.slice [], [], kvs.map fun p => ⟨p.1, .double p.2, {}⟩⟩

/-- The metrics shown for the overall slice. -/
def overallMetrics (records : List (MetricsRecord Unit)) (model : Option String) (output : String := "")
    (c k t : Option ℤ := none) : Option (Except Err (Option (Dict String (MetricValue Unit)))) :=
  (loadMetrics model records).toOption.map fun l => getMetricsForSlice l (.slice []) output c k t

/-- **C94** is false without the condition on places: the weighted and the unweighted variant of a metric are stored under
different keys, but only one of them is shown. -/
theorem C94_weighted_variant_lost :
    overallMetrics [overallRecord [({ name := "auc", exampleWeighted := some false }, 1),
      ({ name := "auc", exampleWeighted := some true }, 2)]] none = some (.ok (some [("auc", .double 2)])) := by
  decide +kernel

/-- **C94** is false without the condition on places: the diffs of different averages of a metric are shown under one name. -/
theorem C94_average_diff_lost :
    overallMetrics [overallRecord [
      ({ name := "auc", modelName := "m", aggregationType := some (.microAvg true), isDiff := true }, 1),
      ({ name := "auc", modelName := "m", aggregationType := some (.macroAvg true), isDiff := true }, 2)]] none =
      some (.ok (some [("auc_diff", .double 2)])) := by
  decide +kernel

/-- Without a model name, a record with several models and no diff metrics is dropped, although it has metrics that belong to no
model. -/
theorem C94_several_models_dropped :
    overallMetrics [overallRecord [({ name := "example_count" }, 5), ({ name := "auc", modelName := "a" }, 1),
      ({ name := "auc", modelName := "b" }, 2)]] none = some (.ok none) := by
  decide +kernel

/-- A record that only holds an error message, as written for slices that are too small, is dropped if a model name is given. -/
theorem C94_error_slice_dropped :
    (loadMetrics (some "a") [({ key := .slice [], legacy := [("__ERROR__", .other "too small")], keysAndValues := [] } :
      MetricsRecord String)]).toOption.map List.length = some 0 ∧
    (loadMetrics none [({ key := .slice [], legacy := [("__ERROR__", .other "too small")], keysAndValues := [] } :
      MetricsRecord String)]).toOption.map List.length = some 1 := by
  decide +kernel

/-- The attributions of class 0 are stored, but cannot be asked for: `class_id=0` is taken as no class. -/
theorem C94_class_zero_attributions :
    let records : List (AttributionsRecord ℚ) := [⟨.slice [], [
      ({ name := "mean", subKey := some { classId := some 0 } }, [("feature", 1)]),
      ({ name := "mean", subKey := some { classId := some 1 } }, [("feature", 2)]),
      ({ name := "mean" }, [("feature", 3)])]⟩]
    let ask (c : Option ℤ) := (loadAttributions none records).toOption.map fun l =>
      getAttributionsForSlice l (.slice []) "mean" "" c none none
    ask (some 0) = some (.ok (some [("feature", 3)])) ∧ ask (some 1) = some (.ok (some [("feature", 2)])) ∧
      ask none = some (.ok (some [("feature", 3)])) := by
  refine ⟨?_, ?_, ?_⟩ <;> decide +kernel

/-- Attributions that compare two slices are shown as those of the overall slice. -/
theorem C94_cross_slice_attributions :
    let records : List (AttributionsRecord ℚ) := [⟨.cross ⟨[], [⟨"a", some (.int64Value 1)⟩]⟩, [({ name := "mean" }, [("f", 1)])]⟩,
      ⟨.slice [], [({ name := "mean" }, [("f", 2)])]⟩]
    ((loadAttributions none records).toOption.map fun l => getAttributionsForSlice l (.slice []) "mean" "" none none none) =
      some (.ok (some [("f", 1)])) := by
  decide +kernel

/-! ### Which models are loaded from several output paths (C95) -/

variable {R : Type}

/-- The location of a model in a run: the stored one, and the empty text for a model that the run does not have; an old configuration has
one model without a name. -/
def Located : Locations → String → String → Prop
  | .run d, m, l => (m, l) ∈ d ∨ ((∀ l', (m, l') ∉ d) ∧ l = "")
  | .pickled l', m, l => m = "" ∧ l = l'

/-- The results are those of the given paths and models, in order, each loaded for its own path and model and with its location. -/
def Loads (load : ℕ → Option String → Except Err R) (locations : ℕ → Locations) (wanted : List (ℕ × String)) (rs : List (ℕ × String × R × String)) : Prop :=
  rs.map (fun r => (r.1, r.2.1)) = wanted ∧ ∀ r ∈ rs, load r.1 (some r.2.1) = .ok r.2.2.1 ∧ Located (locations r.1) r.2.1 r.2.2.2

private theorem loads_append {load : ℕ → Option String → Except Err R} {locations : ℕ → Locations} {w w' : List (ℕ × String)} {rs rs' : List (ℕ × String × R × String)}
    (h : Loads load locations w rs) (h' : Loads load locations w' rs') : Loads load locations (w ++ w') (rs ++ rs') := by
  refine ⟨by rw [List.map_append, h.1, h'.1], ?_⟩
  intro r hr
  rcases List.mem_append.mp hr with hr | hr
  · exact h.2 r hr
  · exact h'.2 r hr

private theorem loadResult_spec {load : ℕ → Option String → Except Err R} {locations : ℕ → Locations} {path : ℕ} {m : String}
    {r : R × String} (h : loadResult load locations path (some m) = .ok r) :
    load path (some m) = .ok r.1 ∧ Located (locations path) m r.2 := by
  unfold loadResult at h
  cases hl : load path (some m) with
  | error e => simp [hl] at h
  | ok r' =>
    simp only [hl] at h
    cases hp : locations path with
    | run d =>
      simp only [hp, Locations.lookup, Except.map, Except.ok.injEq] at h
      subst h
      refine ⟨rfl, ?_⟩
      cases hg : Dict.get? d m with
      | some l => exact Or.inl (Dict.mem_of_get? hg)
      | none =>
        refine Or.inr ⟨fun l' hm => ?_, rfl⟩
        exact (Dict.get?_eq_none_iff d m).1 hg (List.mem_map_of_mem (f := Prod.fst) hm)
    | pickled l =>
      simp only [hp, Locations.lookup] at h
      by_cases hm : m = ""
      · simp only [hm, if_true, Except.map, Except.ok.injEq] at h
        subst h
        exact ⟨rfl, hm, rfl⟩
      · simp [hm, Except.map] at h

private theorem loadModels_spec (load : ℕ → Option String → Except Err R) (locations : ℕ → Locations) (path : ℕ)
    (names : List String) (model : Option String) (rs : List (ℕ × String × R × String)) (model' : Option String)
    (h : loadModels load locations path names model = .ok (rs, model')) :
    Loads load locations (names.map (path, ·)) rs ∧ model' = (names.getLast?).or model := by
  induction names generalizing model rs with
  | nil =>
    simp only [loadModels, Except.ok.injEq, Prod.mk.injEq] at h
    obtain ⟨rfl, rfl⟩ := h
    exact ⟨⟨rfl, by simp⟩, by simp⟩
  | cons m rest ih =>
    simp only [loadModels] at h
    cases hl : loadResult load locations path (some m) with
    | error e => simp [hl] at h
    | ok r =>
      simp only [hl] at h
      cases hr : loadModels load locations path rest (some m) with
      | error e => simp [hr, Except.map] at h
      | ok p =>
        simp only [hr, Except.map, Except.ok.injEq, Prod.mk.injEq] at h
        obtain ⟨rfl, rfl⟩ := h
        obtain ⟨h1, h2⟩ := ih (some m) p.1 hr
        have hload := loadResult_spec hl
        refine ⟨⟨by simp [h1.1], ?_⟩, ?_⟩
        · intro x hx
          rcases List.mem_cons.mp hx with rfl | hx
          · exact hload
          · exact h1.2 x hx
        · rw [h2]
          cases rest <;> simp [List.getLast?_cons]

/-- **C95**: with a model name, that model is loaded from every path, in order. -/
theorem C95_named (load : ℕ → Option String → Except Err R) (locations : ℕ → Locations) (paths : List ℕ) (m : String)
    (rs : List (ℕ × String × R × String)) (h : loadResults load locations paths (some m) = .ok rs) :
    Loads load locations (paths.map (·, m)) rs := by
  induction paths generalizing rs with
  | nil =>
    simp only [loadResults, Except.ok.injEq] at h
    subst h
    exact ⟨rfl, by simp⟩
  | cons p rest ih =>
    simp only [loadResults] at h
    cases hm : loadModels load locations p [m] (some m) with
    | error e => simp [hm] at h
    | ok q =>
      obtain ⟨rs1, model'⟩ := q
      obtain ⟨h1, h2⟩ := loadModels_spec _ _ _ _ _ _ _ hm
      simp only [List.getLast?_singleton, Option.some_or] at h2
      subst h2
      simp only [hm] at h
      cases hr : loadResults load locations rest (some m) with
      | error e => simp [hr, Except.map] at h
      | ok rs2 =>
        simp only [hr, Except.map, Except.ok.injEq] at h
        subst h
        exact loads_append h1 (ih rs2 hr)

/-- **C95**: with a model name, loading fails exactly if the results of some path cannot be loaded for the model or the path has the results
of an old version and the name is not empty. -/
theorem C95_accepted (load : ℕ → Option String → Except Err R) (locations : ℕ → Locations) (paths : List ℕ) (m : String) :
    (∃ rs, loadResults load locations paths (some m) = .ok rs) ↔
      ∀ p ∈ paths, (∃ r, load p (some m) = .ok r) ∧ ((∃ d, locations p = .run d) ∨ m = "") := by
  have hone : ∀ p, (∃ r, loadResult load locations p (some m) = .ok r) ↔
      (∃ r, load p (some m) = .ok r) ∧ ((∃ d, locations p = .run d) ∨ m = "") := by
    intro p
    unfold loadResult
    cases load p (some m) with
    | error e => simp
    | ok r =>
      cases locations p with
      | run d => simp [Locations.lookup, Except.map]
      | pickled l => by_cases hm : m = "" <;> simp [Locations.lookup, Except.map, hm]
  induction paths with
  | nil => simp [loadResults]
  | cons p rest ih =>
    rw [List.forall_mem_cons]
    refine Iff.trans ?_ (and_congr (hone p) ih)
    simp only [loadResults, loadModels]
    cases hl : loadResult load locations p (some m) with
    | error e => simp
    | ok r =>
      simp only [Except.map]
      cases loadResults load locations rest (some m) with
      | error e => simp
      | ok rs => simp

/-- **C95**, what is loaded without a model name: all models of the first path that has any, and from all later paths only the
model that comes last there. -/
theorem C95_unnamed (load : ℕ → Option String → Except Err R) (locations : ℕ → Locations) (paths : List ℕ)
    (rs : List (ℕ × String × R × String)) (h : loadResults load locations paths none = .ok rs) :
    ((∀ p ∈ paths, (locations p).names = []) ∧ rs = []) ∨
    ∃ pre p rest last, paths = pre ++ p :: rest ∧ (∀ q ∈ pre, (locations q).names = []) ∧
      (locations p).names.getLast? = some last ∧
      Loads load locations ((locations p).names.map (p, ·) ++ rest.map (·, last)) rs := by
  induction paths generalizing rs with
  | nil =>
    simp only [loadResults, Except.ok.injEq] at h
    exact Or.inl ⟨by simp, h.symm⟩
  | cons p rest ih =>
    simp only [loadResults] at h
    cases hm : loadModels load locations p (locations p).names none with
    | error e => simp [hm] at h
    | ok q =>
      obtain ⟨rs1, model'⟩ := q
      obtain ⟨h1, h2⟩ := loadModels_spec _ _ _ _ _ _ _ hm
      simp only [hm] at h
      cases hr : loadResults load locations rest model' with
      | error e => simp [hr, Except.map] at h
      | ok rs2 =>
        simp only [hr, Except.map, Except.ok.injEq] at h
        subst h
        cases hlast : (locations p).names.getLast? with
        | none =>
          have hempty : (locations p).names = [] := List.getLast?_eq_none_iff.mp hlast
          rw [hlast] at h2
          simp only [Option.or_none] at h2
          subst h2
          have hrs1 : rs1 = [] := by
            have := h1.1
            rw [hempty] at this
            simpa using this
          subst hrs1
          rcases ih rs2 hr with ⟨g1, g2⟩ | ⟨pre, p', rest', last, rfl, g1, g2, g3⟩
          · refine Or.inl ⟨?_, by simpa using g2⟩
            intro x hx
            rcases List.mem_cons.mp hx with rfl | hx
            · exact hempty
            · exact g1 x hx
          · refine Or.inr ⟨p :: pre, p', rest', last, rfl, ?_, g2, by simpa using g3⟩
            intro x hx
            rcases List.mem_cons.mp hx with rfl | hx
            · exact hempty
            · exact g1 x hx
        | some last =>
          rw [hlast] at h2
          simp only [Option.some_or] at h2
          subst h2
          exact Or.inr ⟨[], p, rest, last, rfl, by simp, hlast, loads_append h1 (C95_named _ _ _ _ _ hr)⟩

/-- **C95**: without a model name all models of all paths are loaded if there is one path, or if every path has the same single
model. The documented behaviour, all models of all paths, is false in general. -/
theorem C95_all_models_partial (load : ℕ → Option String → Except Err R) (locations : ℕ → Locations) (paths : List ℕ)
    (hp : paths.length ≤ 1 ∨ ∃ m, ∀ p ∈ paths, (locations p).names = [m])
    (rs : List (ℕ × String × R × String)) (h : loadResults load locations paths none = .ok rs) :
    Loads load locations (paths.flatMap fun p => (locations p).names.map (p, ·)) rs := by
  rcases C95_unnamed load locations paths rs h with ⟨h1, rfl⟩ | ⟨pre, p, rest, last, rfl, h1, h2, h3⟩
  · refine ⟨?_, by simp⟩
    simp only [List.map_nil]
    symm
    rw [List.flatMap_eq_nil_iff]
    intro p hp
    rw [h1 p hp]
    rfl
  · have hpre : (pre.flatMap fun p => (locations p).names.map ((p, ·) : String → ℕ × String)) = [] := by
      rw [List.flatMap_eq_nil_iff]
      intro q hq
      rw [h1 q hq]
      rfl
    have hrest : (rest.flatMap fun p => (locations p).names.map ((p, ·) : String → ℕ × String)) = rest.map (·, last) := by
      rcases hp with hp | ⟨m, hp⟩
      · have : rest = [] := by
          simp only [List.length_append, List.length_cons] at hp
          exact List.eq_nil_of_length_eq_zero (by omega)
        simp [this]
      · have hm : last = m := by
          rw [hp p (by simp)] at h2
          simpa using h2.symm
        subst hm
        have : ∀ q ∈ rest, (locations q).names = [last] := fun q hq => hp q (by simp [hq])
        clear h3 hp h
        induction rest with
        | nil => rfl
        | cons q rest ih =>
          rw [List.flatMap_cons, this q (by simp), ih (fun q' hq' => this q' (by simp [hq']))]
          rfl
    rw [List.flatMap_append, List.flatMap_cons, hpre, hrest]
    simpa using h3

/-- Two runs of the models a and b: the documentation promises the four results, three are loaded. -/
theorem C95_later_models_missing :
    ((loadResults (fun path model => .ok (path, model)) (fun _ => .run [("a", "/a"), ("b", "/b")]) [0, 1] none).toOption.map
      fun rs => rs.map fun r => (r.1, r.2.1)) = some [(0, "a"), (0, "b"), (1, "b")] := by
  decide +kernel

/-! ### Examples -/

/-- The metrics of two models and one that belongs to none; the diff of the candidate to the baseline. -/
private def compared : MetricsRecord Unit :=
  ⟨.slice [], [], [⟨{ name := "example_count" }, .double 10, {}⟩,
    ⟨{ name := "auc", modelName := "cand", subKey := some { classId := some 0 } }, .double (1/2),
      ⟨some (.double (1/4)), some (.double (3/4))⟩⟩,
    ⟨{ name := "auc", modelName := "cand" }, .double (1/3), {}⟩,
    ⟨{ name := "auc", modelName := "base" }, .double (1/6), {}⟩,
    ⟨{ name := "auc", modelName := "cand", isDiff := true }, .double (1/6), {}⟩]⟩

example : overallMetrics [compared] none = some (.ok (some [("auc", .double (1/3)), ("auc_diff", .double (1/6)),
    ("example_count", .double 10)])) ∧
    overallMetrics [compared] none "" (some 0) = some (.ok (some [("auc", .bounded (1/4) (3/4) (1/2))])) ∧
    overallMetrics [compared] (some "base") = some (.ok (some [("auc", .double (1/6)), ("example_count", .double 10)])) := by
  refine ⟨?_, ?_, ?_⟩ <;> decide +kernel

example : overallMetrics [compared] none "other" = some (.error .keyError) ∧
    overallMetrics [overallRecord []] none = some (.error .typeError) := by
  refine ⟨?_, ?_⟩ <;> decide +kernel

example : Chosen (keysOf compared) none "cand" :=
  ⟨⟨{ name := "auc", modelName := "cand" }, by decide +kernel, rfl⟩, Or.inr ⟨Or.inl rfl, Or.inl ⟨by decide +kernel, by
    decide +kernel⟩⟩⟩

example : (loadResults (fun path model => .ok (path, model)) (fun _ => .run [("", "/m")]) [0, 1] none).toOption.map
    (fun rs => rs.map fun r => (r.1, r.2.1)) = some [(0, ""), (1, "")] := by
  decide +kernel

/-- A model that was not evaluated: there is a result, without a location. -/
example : (loadResults (fun path model => .ok (path, model)) (fun _ => .run [("a", "/a")]) [0] (some "other")).toOption.map
    (fun rs => rs.map fun r => (r.2.1, r.2.2.2)) = some [("other", "")] := by
  decide +kernel

end EvalResults
end TFMA
