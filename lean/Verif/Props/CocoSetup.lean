import Verif.Model.CocoSetup
import Verif.Props.MatrixSetup

/-!
# C107: object detection metrics with different settings
-/

namespace TFMA
namespace CocoSetup

open MatrixSetup Evaluate MetricKeys

/-- The evaluator keeps the computation. -/
def KeptIn {B : Type} (s : Separated B) (c : Computation B) : Prop :=
  c ∈ s.nonDerived ∨ c ∈ s.derived ∨ c ∈ s.crossSlice ∨ c ∈ s.ciDerived

private theorem pairwise_one {B : Type} {l : List (Computation B)} (hp : l.Pairwise fun c d => sameId c d = false)
    {x y : Computation B} (hx : x ∈ l) (hy : y ∈ l) (hid : sameId x y = true) : x = y := by
  induction l with
  | nil => cases hx
  | cons z l ih =>
    rw [List.pairwise_cons] at hp
    rcases List.mem_cons.1 hx with hxz | hxl <;> rcases List.mem_cons.1 hy with hyz | hyl
    · rw [hxz, hyz]
    · rw [hxz, hp.1 _ hyl] at hid; cases hid
    · rw [hyz, sameId_comm, hp.1 _ hxl] at hid; cases hid
    · exact ih hp.2 hxl hyl

private theorem metric_once {B : Type} {all : List (Computation B)} {s : Separated B} (h : separate all = .ok s)
    {x y : Computation B} (hx : KeptIn s x) (hy : KeptIn s y) (kx : x.kind = .metric) (ky : y.kind = .metric)
    (hid : sameId x y = true) : x = y := by
  obtain ⟨h1, h2, h3, h4⟩ := C29_first_occurrences all s h
  have key : ∀ kd c, c ∈ firsts (ofKind kd all) → c.kind = kd := by
    intro kd c hk
    have := (firsts_sublist _).subset hk
    simpa [ofKind] using (List.mem_filter.1 this).2
  have mem : ∀ c, KeptIn s c → c.kind = .metric → c ∈ s.nonDerived := by
    intro c hc hk
    rcases hc with hc | hc | hc | hc
    · exact hc
    · have := key _ c (h2 ▸ hc); rw [this] at hk; cases hk
    · have := key _ c (h3 ▸ hc); rw [this] at hk; cases hk
    · have := key _ c (h4 ▸ hc); rw [this] at hk; cases hk
  exact pairwise_one (C29_once_in_order all s h s.nonDerived (by simp)).2 (mem x hx kx) (mem y hy ky) hid

/-- What `compsWith` does to each computation. -/
private def tag {S : Type} (render : Name → String) (s : S) (c : Comp) : Computation (Body × Option S) :=
  { kind := c.kind, className := c.className, keys := c.keys.map (Key.text render), preprocessors := c.preprocessors
    body := (c.body, if c.preprocessors = [] then none else some s) }

private theorem comps_eq {S : Type} {pre m : String} {render : Name → String} {s : S} {r : Request} {cs}
    (h : compsWith pre m render s r = .ok cs) : ∃ ds,
      computations { r with preprocessors := [pre], modelName := m } = .ok ds ∧ cs = ds.map (tag render s) := by
  unfold compsWith at h
  cases hc : computations { r with preprocessors := [pre], modelName := m } with
  | error e => rw [hc] at h; cases h
  | ok ds => rw [hc] at h; cases h; exact ⟨ds, rfl, rfl⟩

private theorem first_metric {r : Request} {ds : List Comp} (h : computations r = .ok ds) :
    ∃ c rest k, ds = c :: rest ∧ c.kind = .metric ∧ c.keys = [k] ∧ c.preprocessors = r.preprocessors := by
  obtain ⟨num, ts, _, hb, _⟩ := readKey_eq r ds h
  simp only [build] at hb
  split_ifs at hb
  · cases hb; exact ⟨_, _, _, rfl, rfl, rfl, rfl⟩
  · cases hb; exact ⟨_, _, _, rfl, rfl, rfl, rfl⟩

private theorem shared {S : Type} (pre m : String) (render : Name → String) (s s' : S) (r : Request) (hne : s ≠ s') (cs cs')
    (h : compsWith pre m render s r = .ok cs) (h' : compsWith pre m render s' r = .ok cs') :
    cs.map Computation.keys = cs'.map Computation.keys ∧
    ∀ all st, separate all = .ok st → ¬ (∀ c ∈ cs ++ cs', KeptIn st c) := by
  obtain ⟨ds, hd, rfl⟩ := comps_eq h
  obtain ⟨ds', hd', rfl⟩ := comps_eq h'
  obtain rfl : ds = ds' := by rw [hd] at hd'; exact Except.ok.inj hd'
  refine ⟨by simp [List.map_map, Function.comp_def, tag], ?_⟩
  intro all st hst hall
  obtain ⟨c, rest, k, rfl, hk, hkeys, hpre⟩ := first_metric hd
  have e := metric_once hst (hall (tag render s c) (by simp)) (hall (tag render s' c) (by simp)) hk hk
    ((C29_identity _ _).2 ⟨rfl, rfl, rfl, [k.text render], by simp [tag, hkeys]; rfl⟩)
  have := congrArg (fun x => x.body.2) e
  simp only [tag, hpre] at this
  exact hne (by simpa using this)

/-- The settings agree in the class, the overlap threshold, the area range, the number of detections and the class weight. -/
def SameMatching (s s' : Setting) : Prop :=
  s.classId = s'.classId ∧ s.iouThreshold = s'.iouThreshold ∧ s.areaRange = s'.areaRange ∧ s.maxNumDetections = s'.maxNumDetections ∧
    s.classWeight = s'.classWeight

private theorem same_pname (s s' : Setting) : SameMatching s s' ↔ pname s = pname s' := by
  simp [SameMatching, pname]

/-- **C107** (false of the code): two object detection metrics of the same model that differ only in the columns from which boxes are
taken (or in the key of the number of detections, or in whether keys may be missing) read their matrices under the same key, and
the evaluator drops the computation of one of them, whatever else is configured: it reports the values of the other one. -/
theorem C107_shared (renderPre : PName → String) (render : Name → String) (s s' : Setting) (r : Request) (hne : s ≠ s')
    (hp : SameMatching s s') (hm : s.modelName = s'.modelName) (cs cs')
    (h : comps renderPre render s r = .ok cs) (h' : comps renderPre render s' r = .ok cs') :
    cs.map Computation.keys = cs'.map Computation.keys ∧
    ∀ all st, separate all = .ok st → ¬ (∀ c ∈ cs ++ cs', KeptIn st c) := by
  unfold comps at h h'
  rw [← (same_pname s s').1 hp, ← hm] at h'
  exact shared _ _ render s s' r hne cs cs' h h'

/-- **C107** (false of the code): likewise two set match metrics of the same model with the same top k that differ only in the keys
of the classes, scores and class weights, provided both or neither have class weights. -/
theorem C107_set_match_shared (renderPre : Option ℤ → String) (render : Name → String) (s s' : SetSetting) (r : Request)
    (hne : s ≠ s') (hp : s.topK = s'.topK) (hm : s.modelName = s'.modelName)
    (hw : (∃ k, s.weightKey = some k ∧ k ≠ "") ↔ (∃ k, s'.weightKey = some k ∧ k ≠ "")) (cs cs')
    (h : setComps renderPre render s r = .ok cs) (h' : setComps renderPre render s' r = .ok cs') :
    cs.map Computation.keys = cs'.map Computation.keys ∧
    ∀ all st, separate all = .ok st → ¬ (∀ c ∈ cs ++ cs', KeptIn st c) := by
  have ht : ∀ x : Option String, truthyText x = true ↔ ∃ k, x = some k ∧ k ≠ "" := by
    intro x; cases x <;> simp [truthyText]
  have e : truthyText s.weightKey = truthyText s'.weightKey := by rw [Bool.eq_iff_iff, ht, ht]; exact hw
  unfold setComps at h h'
  rw [← hp, ← hm, ← e] at h'
  exact shared _ _ render s s' _ hne cs cs' h h'

private theorem keys_weighted {r : Request} {ds : List Comp} (h : computations r = .ok ds) :
    ∀ c ∈ ds, ∀ k ∈ c.keys, k.exampleWeighted = r.exampleWeighted := by
  obtain ⟨num, ts, _, hb, _⟩ := readKey_eq r ds h
  simp only [build] at hb
  split_ifs at hb
  · cases hb
    simp [histogramComp, keyOf]
  · cases hb
    by_cases hk : truthyText r.idKey = true <;> simp [countsComp, fromCountsComp, keyOf, hk]

/-- **C107**: a set match metric is example weighted if it has a weight key, or if it is asked to be. -/
theorem C107_set_match_weighted (renderPre : Option ℤ → String) (render : Name → String) (s : SetSetting) (r : Request) (cs)
    (h : setComps renderPre render s r = .ok cs) :
    ∀ c ∈ cs, ∀ k ∈ c.keys, k.exampleWeighted = some true ↔ (∃ w, s.weightKey = some w ∧ w ≠ "") ∨ r.exampleWeighted = true := by
  have ht : ∀ x : Option String, truthyText x = true ↔ ∃ k, x = some k ∧ k ≠ "" := by
    intro x; cases x <;> simp [truthyText]
  obtain ⟨ds, hd, rfl⟩ := comps_eq h
  intro c hc k hk
  obtain ⟨d, hdm, rfl⟩ := List.mem_map.1 hc
  simp only [tag, List.mem_map] at hk
  obtain ⟨a, ha, rfl⟩ := hk
  have := keys_weighted hd d hdm a ha
  simp only [Key.text, this, ← ht]
  by_cases hw : truthyText s.weightKey = true <;> simp [hw]

/-- The preprocessors recorded in a name. -/
private def namePre : Name → Option (List String)
  | .given _ => none
  | .matrices _ _ _ _ p _ => some p
  | .examples _ _ _ _ p _ => some p
  | .histogram _ _ _ _ _ p _ => some p

private theorem keys_pre {r : Request} (hn : r.name = none) {ds : List Comp} (h : computations r = .ok ds) :
    ∀ c ∈ ds, c.keys ≠ [] ∧ ∀ k ∈ c.keys, namePre k.name = some r.preprocessors := by
  obtain ⟨num, ts, _, hb, _⟩ := readKey_eq r ds h
  simp only [build] at hb
  split_ifs at hb
  · cases hb
    simp [histogramComp, keyOf, names, hn, namePre]
  · cases hb
    by_cases hk : truthyText r.idKey = true <;>
      simp [countsComp, fromCountsComp, keyOf, names, hn, namePre, hk]

/-- **C107**, the part that holds: metrics whose settings differ in the class, the overlap threshold, the area range, the number of
detections or the class weight have no key in common, so that none of their computations are merged.  Missing: the other
settings (`C107_shared`). -/
theorem C107_apart_partial (renderPre : PName → String) (hpre : Function.Injective renderPre) (render : Name → String)
    (hren : Function.Injective render) (s s' : Setting) (r r' : Request) (hn : r.name = none) (hn' : r'.name = none)
    (hp : ¬ SameMatching s s') (cs cs')
    (h : comps renderPre render s r = .ok cs) (h' : comps renderPre render s' r' = .ok cs') :
    ∀ c ∈ cs, ∀ c' ∈ cs', (∀ k ∈ c.keys, k ∉ c'.keys) ∧ sameId c c' = false := by
  obtain ⟨ds, hd, rfl⟩ := comps_eq h
  obtain ⟨ds', hd', rfl⟩ := comps_eq h'
  intro c hc c' hc'
  obtain ⟨d, hdm, rfl⟩ := List.mem_map.1 hc
  obtain ⟨d', hdm', rfl⟩ := List.mem_map.1 hc'
  obtain ⟨ne, e⟩ := keys_pre (r := { r with preprocessors := [renderPre (pname s)], modelName := s.modelName }) hn hd d hdm
  obtain ⟨ne', e'⟩ := keys_pre (r := { r' with preprocessors := [renderPre (pname s')], modelName := s'.modelName }) hn' hd' d' hdm'
  have hdis : ∀ k ∈ (tag render s d).keys, k ∉ (tag render s' d').keys := by
    intro k hk hk'
    simp only [tag, List.mem_map] at hk hk'
    obtain ⟨a, ha, rfl⟩ := hk
    obtain ⟨b, hb, hab⟩ := hk'
    have h1 : b.name = a.name := hren (congrArg MetricKey.name hab)
    have h2 := e a ha
    have h3 := e' b hb
    rw [h1, h2] at h3
    simp only [Option.some.injEq, List.cons.injEq, and_true] at h3
    exact hp ((same_pname s s').2 (hpre h3))
  refine ⟨hdis, ?_⟩
  rw [← Bool.not_eq_true, C29_identity]
  rintro ⟨-, hkeys, -⟩
  obtain ⟨k, hk⟩ := List.exists_mem_of_ne_nil _ ne
  have hmem : k.text render ∈ (tag render s d).keys := List.mem_map_of_mem hk
  exact hdis _ hmem (hkeys ▸ hmem)

/-- Two mean average precision metrics that read their boxes from different columns: both hypotheses are met. -/
private def firstBoxes : Setting := { classId := 0, labelsToStack := some ["xmin", "ymin"] }
private def secondBoxes : Setting := { classId := 0, labelsToStack := some ["left", "top"] }

example : firstBoxes ≠ secondBoxes ∧ SameMatching firstBoxes secondBoxes ∧ firstBoxes.modelName = secondBoxes.modelName :=
  ⟨by decide +kernel, ⟨rfl, rfl, rfl, rfl, rfl⟩, rfl⟩

example (renderPre : PName → String) (render : Name → String) : ∃ cs cs',
    comps renderPre render firstBoxes { thresholds := some [.ninf] } = .ok cs ∧
    comps renderPre render secondBoxes { thresholds := some [.ninf] } = .ok cs' ∧ cs ≠ cs' := by
  have hi : ([Fl.ninf] : List Fl) ≠ interpolated 1 := by simp [interpolated]
  have hc : choose none (some [.ninf]) = .ok (none, [.ninf]) := by
    simp only [choose, reset]
    rw [if_neg (by rintro ⟨-, h⟩; exact hi h), if_neg (by simp)]
    rfl
  refine ⟨_, _, by simp only [comps, compsWith, computations, hc]; rfl, by simp only [comps, compsWith, computations, hc]; rfl, ?_⟩
  intro h
  have := congrArg (fun l => l.map fun c => c.body.2) h
  revert this
  simp [histogramComp, firstBoxes, secondBoxes]

example : ∃ s s' : SetSetting, s ≠ s' ∧ s.topK = s'.topK ∧ s.modelName = s'.modelName ∧
    ((∃ k, s.weightKey = some k ∧ k ≠ "") ↔ (∃ k, s'.weightKey = some k ∧ k ≠ "")) :=
  ⟨{ weightKey := some "price" }, { weightKey := some "clicks" }, by decide, rfl, rfl, by simp⟩

example : ¬ SameMatching firstBoxes { firstBoxes with classId := 1 } := by simp [SameMatching, firstBoxes]

end CocoSetup
end TFMA
