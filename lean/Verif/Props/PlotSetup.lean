import Verif.Model.PlotSetup
import Verif.Props.MatrixSetup
import Verif.Props.Coco

/-!
# C143: which matrices a confusion matrix plot shows
-/

namespace TFMA
namespace PlotSetup

open MetricKeys Evaluate MatrixSetup

variable {H M P : Type}

/-! ### Specification -/

/-- The key of a plot in the results. -/
def resultKey (a : PlotArgs) : MetricKey :=
  { name := a.name, modelName := a.modelName, outputName := a.outputName, subKey := a.plotSubKey, exampleWeighted := some a.exampleWeighted }

/-- The histogram of a plot has 10000 buckets and takes the examples as the preprocessors of the plot give them. -/
def histogramOf (I : Meaning H M P) (a : PlotArgs) : H :=
  I.data a.preprocessors (.histogram 10000 a.modelName a.outputName a.subKey a.aggregationType a.classWeights a.exampleWeighted true)

/-- The thresholds of a plot: 0, 1/n, … 1, and one slightly below 0. -/
def thresholdsFor (n : ℕ) : List Fl := .fin (-1 / 1000000) :: (List.range (n + 1)).map fun (i : ℕ) => Fl.fin ((i : ℚ) / n)

/-- What the plot of `a` has to show. -/
def shows (I : Meaning H M P) (a : PlotArgs) : P := I.shown (I.mats (thresholdsFor a.num) (histogramOf I a))

/-- Two plots agree in the settings which make up the key of their matrices. -/
def SameMatrices (a b : PlotArgs) : Prop :=
  a.name = b.name ∧ a.modelName = b.modelName ∧ a.outputName = b.outputName ∧ a.subKey = b.subKey ∧ a.exampleWeighted = b.exampleWeighted

instance (a b : PlotArgs) : Decidable (SameMatrices a b) := by unfold SameMatrices; infer_instance

/-- The generated name of the histogram. -/
def histName (a : PlotArgs) : Name := .histogram a.classWeights true 0 10000 true a.preprocessors 1

/-- How names are turned into text: given names are kept; the texts of the histograms of these plots begin with the name of histograms, and
differ if the arguments they are made of do. -/
structure Readable (render : Name → String) (as : List PlotArgs) : Prop where
  given : ∀ s, render (.given (some s)) = s
  start : ∀ a ∈ as, ∃ s, render (histName a) = "_calibration_histogram" ++ s
  inj : ∀ a ∈ as, ∀ b ∈ as, render (histName a) = render (histName b) → histName a = histName b

/-- Plots the theorems are about: some thresholds, no aggregation, no empty class weights, names which are not private. -/
structure Usual (a : PlotArgs) : Prop where
  num : a.num ≠ 0
  aggregation : a.aggregationType = none
  weights : a.classWeights ≠ some []
  named : ¬ PrivateName a.name

/-! ### The computations of a plot -/

private theorem keepWeights_eq {cw : Option (Dict ℤ ℚ)} (h : cw ≠ some []) : keepWeights cw = cw := by
  rcases cw with _ | _ | _
  · rfl
  · exact absurd rfl h
  · rfl

private def hKey (a : PlotArgs) : Key :=
  { name := histName a, modelName := a.modelName, outputName := a.outputName, subKey := a.subKey, exampleWeighted := a.exampleWeighted }

private def mKey (a : PlotArgs) : Key :=
  { name := .given (some ("_binary_confusion_matrices_" ++ a.name)), modelName := a.modelName, outputName := a.outputName
    subKey := a.subKey, exampleWeighted := a.exampleWeighted }

private def hComp (render : Name → String) (a : PlotArgs) : Computation PBody :=
  { kind := .metric, className := "_CalibrationHistogramCombiner", keys := [(hKey a).text render], preprocessors := a.preprocessors
    body := .matrices (.histogram 10000 a.modelName a.outputName a.subKey a.aggregationType a.classWeights a.exampleWeighted true) }

private def mComp (render : Name → String) (a : PlotArgs) : Computation PBody :=
  { kind := .derived, className := "function", keys := [(mKey a).text render]
    body := .matrices (.fromHistogram (thresholdsFor a.num) (hKey a)) }

private def pComp (render : Name → String) (a : PlotArgs) : Computation PBody :=
  { kind := .derived, className := "function", keys := [(plotKey a).text render], body := .plot (mKey a) }

private theorem comps_eq {a : PlotArgs} (h : Usual a) (render : Name → String) :
    ∃ cs, comps a = .ok cs ∧ cs.map (textOf render) = [hComp render a, mComp render a, pComp render a] := by
  obtain ⟨m, hm⟩ := C88_given (thresholdsFor a.num)
  have hb : numBuckets (thresholdsFor a.num) = 10000 := by
    obtain ⟨k, hk⟩ := Nat.exists_eq_succ_of_ne_zero h.num
    simp [numBuckets, thresholdsFor, List.range_succ_eq_map]
  have hc : computations (request a (thresholdsFor a.num)) = .ok
      [{ kind := .metric, className := "_CalibrationHistogramCombiner", keys := [hKey a], preprocessors := a.preprocessors
         body := .histogram 10000 a.modelName a.outputName a.subKey a.aggregationType a.classWeights a.exampleWeighted true },
       { kind := .derived, className := "function", keys := [mKey a], body := .fromHistogram (thresholdsFor a.num) (hKey a) }] := by
    unfold computations
    have : choose (request a (thresholdsFor a.num)).num (request a (thresholdsFor a.num)).thresholds = .ok (m, thresholdsFor a.num) := hm
    rw [this]
    simp [build, request, truthyText, truthyInt, histogramComp, hb, keyOf, names, hKey, mKey, histName, keepWeights_eq h.weights]
  have hp : Plots.plotThresholds a.num = .ok (thresholdsFor a.num) := if_neg h.num
  unfold comps
  rw [hp]
  simp only
  rw [hc]
  exact ⟨_, rfl, rfl⟩

private theorem allComps_eq {as : List PlotArgs} (h : ∀ a ∈ as, Usual a) (render : Name → String) :
    allComps render as = .ok (as.flatMap fun a => [hComp render a, mComp render a, pComp render a]) := by
  induction as with
  | nil => rfl
  | cons a as ih =>
    obtain ⟨cs, h1, h2⟩ := comps_eq (h a (by simp)) render
    simp only [allComps, h1, ih fun b hb => h b (by simp [hb]), h2, List.flatMap_cons]

/-! ### Keys -/

private theorem private_calibration (s : String) : PrivateName ("_calibration_histogram" ++ s) := by
  refine ⟨"calibration_histogram".toList ++ s.toList, ?_, ?_⟩
  · rw [String.toList_append]; rfl
  · simp

private theorem private_matrices (s : String) : PrivateName ("_binary_confusion_matrices_" ++ s) := by
  refine ⟨"binary_confusion_matrices_".toList ++ s.toList, ?_, ?_⟩
  · rw [String.toList_append]; rfl
  · simp

private theorem calibration_ne (s t : String) : "_calibration_histogram" ++ s ≠ "_binary_confusion_matrices_" ++ t := by
  intro h
  have := congrArg String.toList h
  simp [String.toList_append] at this

private theorem prefix_inj {s t : String} (h : "_binary_confusion_matrices_" ++ s = "_binary_confusion_matrices_" ++ t) : s = t := by
  have := congrArg String.toList h
  rw [String.toList_append, String.toList_append] at this
  exact String.toList_injective (List.append_cancel_left this)

section
variable {render : Name → String} {as : List PlotArgs} (hr : Readable render as)
include hr

private theorem pKey_eq (a : PlotArgs) : (plotKey a).text render = resultKey a := by
  simp [Key.text, plotKey, resultKey, hr.given]

private theorem mKey_iff (a b : PlotArgs) : (mKey a).text render = (mKey b).text render ↔ SameMatrices a b := by
  simp only [Key.text, mKey, hr.given, SameMatrices, MetricKey.mk.injEq]
  constructor
  · rintro ⟨h1, h2, h3, h4, -, h5, -⟩
    exact ⟨prefix_inj h1, h2, h3, h4, by simpa using h5⟩
  · rintro ⟨h1, h2, h3, h4, h5⟩
    simp [h1, h2, h3, h4, h5]

private theorem mKey_private (a : PlotArgs) : PrivateName ((mKey a).text render).name := by
  simp only [Key.text, mKey, hr.given]
  exact private_matrices _

private theorem hKey_private {a : PlotArgs} (ha : a ∈ as) : PrivateName ((hKey a).text render).name := by
  obtain ⟨s, hs⟩ := hr.start a ha
  simp only [Key.text, hKey, hs]
  exact private_calibration _

private theorem hKey_ne {a : PlotArgs} (ha : a ∈ as) (b : PlotArgs) : (mKey b).text render ≠ (hKey a).text render := by
  obtain ⟨s, hs⟩ := hr.start a ha
  intro h
  have := congrArg MetricKey.name h
  simp only [Key.text, mKey, hKey, hr.given, hs] at this
  exact calibration_ne _ _ this.symm

end

/-! ### The histograms -/

private theorem one_id (c : Computation PBody) (k : MetricKey) (h : c.keys = [k]) : c.id = .ok (c.className, [k], c.preprocessors) := by
  unfold Computation.id
  rw [h]; rfl

private theorem initial_wf (I : Meaning H M P) (render : Name → String) (l : List PlotArgs) : Dict.WF (initial I (l.map (hComp render))) := by
  cases l with
  | nil => exact Dict.WF_nil
  | cons b l =>
    have w1 : Dict.WF [((hKey b).text render, Kind.metric, (Value.hist (histogramOf I b) : Value H M P))] := List.nodup_singleton _
    exact WF_updateWith w1 _

private theorem initial_get (I : Meaning H M P) (render : Name → String) (l : List PlotArgs) (k : MetricKey) (v : H)
    (hv : ∀ b ∈ l, (hKey b).text render = k → histogramOf I b = v) :
    Dict.WF (initial I (l.map (hComp render))) ∧
    ((∃ b ∈ l, (hKey b).text render = k) → Dict.get? (initial I (l.map (hComp render))) k = some (.metric, .hist v)) ∧
    ((∀ b ∈ l, (hKey b).text render ≠ k) → Dict.get? (initial I (l.map (hComp render))) k = none) := by
  induction l with
  | nil => exact ⟨Dict.WF_nil, fun ⟨_, h, _⟩ => (by cases h), fun _ => rfl⟩
  | cons b l ih =>
    obtain ⟨w, i1, i2⟩ := ih fun c hc => hv c (by simp [hc])
    have e : initial I ((b :: l).map (hComp render)) =
        updateWith [((hKey b).text render, Kind.metric, .hist (histogramOf I b))] (initial I (l.map (hComp render))) := rfl
    have w1 : Dict.WF [((hKey b).text render, Kind.metric, (Value.hist (histogramOf I b) : Value H M P))] := List.nodup_singleton _
    rw [e, get?_updateWith _ _ w]
    refine ⟨WF_updateWith w1 _, fun hx => ?_, fun hx => ?_⟩
    · by_cases hl : ∃ c ∈ l, (hKey c).text render = k
      · rw [i1 hl]
        simp only [Dict.get?_cons]
        split <;> rfl
      · rw [i2 fun c hc hk => hl ⟨c, hc, hk⟩]
        obtain ⟨c, hc, hk⟩ := hx
        rcases List.mem_cons.1 hc with rfl | hc
        · simp [Dict.get?_cons, hk, hv c (by simp) hk]
        · exact absurd ⟨c, hc, hk⟩ hl
    · rw [i2 fun c hc => hx c (by simp [hc])]
      simp [hx b (by simp), Dict.get?]

/-! ### The derived computations which are kept -/

private def derivedOf (render : Name → String) (as : List PlotArgs) : List (Computation PBody) :=
  as.flatMap fun a => [mComp render a, pComp render a]

/-- The derived computations which are kept, after those of `seen`. -/
private def steps (render : Name → String) : List PlotArgs → List PlotArgs → List (Computation PBody)
  | _, [] => []
  | seen, a :: rest => (if ∃ b ∈ seen, SameMatrices b a then [] else [mComp render a]) ++ pComp render a :: steps render (seen ++ [a]) rest

section
variable {render : Name → String} {as : List PlotArgs} (hr : Readable render as)
include hr

private theorem mm_same (a b : PlotArgs) : sameId (mComp render a) (mComp render b) = true ↔ SameMatrices a b := by
  rw [C29_identity, ← mKey_iff hr]
  simp only [mComp, List.cons.injEq, and_true, true_and]
  exact ⟨fun h => h.1, fun h => ⟨h, _, rfl⟩⟩

private theorem pp_same (a b : PlotArgs) : sameId (pComp render a) (pComp render b) = true ↔ resultKey a = resultKey b := by
  rw [C29_identity]
  simp only [pComp, pKey_eq hr, List.cons.injEq, and_true, true_and]
  exact ⟨fun h => h.1, fun h => ⟨h, _, rfl⟩⟩

private theorem key_ne {b : PlotArgs} (hb : ¬ PrivateName b.name) (a : PlotArgs) : (mKey a).text render ≠ resultKey b := by
  intro h
  have := mKey_private hr a
  rw [h] at this
  exact hb this

private theorem mp_same (a : PlotArgs) {b : PlotArgs} (hb : ¬ PrivateName b.name) : sameId (mComp render a) (pComp render b) = false := by
  rw [Bool.eq_false_iff]
  intro h
  rw [C29_identity] at h
  simp only [mComp, pComp, pKey_eq hr, List.cons.injEq, and_true] at h
  exact key_ne hr hb a h.2.1

private theorem later_steps (rest : List PlotArgs) (hk : (rest.map resultKey).Nodup) (hn : ∀ a ∈ rest, ¬ PrivateName a.name)
    (seen : List PlotArgs) (l : List (Computation PBody))
    (hm : ∀ a, l.any (fun d => sameId d (mComp render a)) = true ↔ ∃ b ∈ seen, SameMatrices b a)
    (hp : ∀ a ∈ rest, l.any (fun d => sameId d (pComp render a)) = false) :
    later l (derivedOf render rest) = steps render seen rest := by
  induction rest generalizing seen l with
  | nil => rfl
  | cons a rest ih =>
    have ha : ¬ PrivateName a.name := hn a (by simp)
    have hpa : l.any (fun d => sameId d (pComp render a)) = false := hp a (by simp)
    have hk' := List.nodup_cons.1 hk
    have e : derivedOf render (a :: rest) = mComp render a :: pComp render a :: derivedOf render rest := rfl
    have pne : ∀ b ∈ rest, sameId (pComp render a) (pComp render b) = false := by
      intro b hb
      rw [Bool.eq_false_iff]
      intro h
      exact hk'.1 (List.mem_map.2 ⟨b, hb, ((pp_same hr a b).1 h).symm⟩)
    rw [e, steps]
    by_cases hs : ∃ b ∈ seen, SameMatrices b a
    · rw [later_cons_old ((hm a).2 hs), later_cons_new hpa, if_pos hs, List.nil_append]
      congr 1
      refine ih hk'.2 (fun b hb => hn b (by simp [hb])) _ _ (fun x => ?_) fun b hb => ?_
      · rw [List.any_append, Bool.or_eq_true, hm x]
        simp only [List.any_cons, List.any_nil, Bool.or_false, sameId_comm (pComp render a), mp_same hr x ha, Bool.false_eq_true, or_false,
          List.mem_append, List.mem_singleton]
        constructor
        · rintro ⟨b, hb, h⟩; exact ⟨b, .inl hb, h⟩
        · rintro ⟨b, hb | rfl, h⟩
          · exact ⟨b, hb, h⟩
          · obtain ⟨c, hc, h'⟩ := hs
            exact ⟨c, hc, h'.1.trans h.1, h'.2.1.trans h.2.1, h'.2.2.1.trans h.2.2.1, h'.2.2.2.1.trans h.2.2.2.1, h'.2.2.2.2.trans h.2.2.2.2⟩
      · simp [List.any_append, hp b (by simp [hb]), pne b hb]
    · have hs' : l.any (fun d => sameId d (mComp render a)) = false := by
        rw [Bool.eq_false_iff, ne_eq, hm a]; exact hs
      rw [later_cons_new hs', later_cons_new (by simp [List.any_append, hpa, mp_same hr a ha]), if_neg hs, List.singleton_append]
      congr 2
      refine ih hk'.2 (fun b hb => hn b (by simp [hb])) _ _ (fun x => ?_) fun b hb => ?_
      · rw [List.any_append, List.any_append, Bool.or_eq_true, Bool.or_eq_true, hm x]
        simp only [List.any_cons, List.any_nil, Bool.or_false, sameId_comm (pComp render a), mp_same hr x ha, Bool.false_eq_true, or_false,
          List.mem_append, List.mem_singleton, mm_same hr]
        constructor
        · rintro (⟨b, hb, h⟩ | h)
          · exact ⟨b, .inl hb, h⟩
          · exact ⟨a, .inr rfl, h⟩
        · rintro ⟨b, hb | rfl, h⟩
          · exact .inl ⟨b, hb, h⟩
          · exact .inr h
      · simp [List.any_append, hp b (by simp [hb]), pne b hb, mp_same hr a (hn b (by simp [hb]))]

end

/-! ### Running them -/

/-- The first of the plots which has the same matrices. -/
def leader (as : List PlotArgs) (a : PlotArgs) : Option PlotArgs := as.find? fun b => decide (SameMatrices b a)

private structure Inv (I : Meaning H M P) (render : Name → String) (all seen : List PlotArgs) (d : Results (Value H M P)) : Prop where
  wf : Dict.WF d
  hist : ∀ a ∈ all, Dict.get? d ((hKey a).text render) = some (.metric, .hist (histogramOf I a))
  mats : ∀ a b, leader seen a = some b → ∃ kd, Dict.get? d ((mKey a).text render) = some (kd, .mats (I.mats (thresholdsFor b.num) (histogramOf I b)))
  plots : ∀ a ∈ seen, ∀ b, leader seen a = some b → Dict.get? d (resultKey a) = some (.plot, .shown (shows I b))
  keys : ∀ k, Dict.get? d k ≠ none → PrivateName k.name ∨ ∃ a ∈ seen, k = resultKey a

private theorem leader_append (seen : List PlotArgs) (a x : PlotArgs) :
    leader (seen ++ [a]) x = (leader seen x).or (if SameMatrices a x then some a else none) := by
  unfold leader
  rw [List.find?_append]
  congr 1
  by_cases h : SameMatrices a x <;> simp [List.find?, h]

private theorem leader_none {seen : List PlotArgs} {x : PlotArgs} : leader seen x = none ↔ ¬ ∃ b ∈ seen, SameMatrices b x := by
  unfold leader
  simp [List.find?_eq_none]

private theorem steps_run (I : Meaning H M P) {render : Name → String} {all : List PlotArgs} (hr : Readable render all) (rest : List PlotArgs)
    (seen : List PlotArgs) (hall : ∀ a ∈ rest, a ∈ all) (hk : ((seen ++ rest).map resultKey).Nodup) (hn : ∀ a ∈ seen ++ rest, ¬ PrivateName a.name)
    (d : Results (Value H M P)) (hd : Inv I render all seen d) :
    ∃ r, addDerived ((steps render seen rest).map (derivedFn I render)) d = .ok r ∧ Inv I render all (seen ++ rest) r := by
  induction rest generalizing seen d with
  | nil => exact ⟨d, rfl, by simpa using hd⟩
  | cons a rest ih =>
    have ha : ¬ PrivateName a.name := hn a (by simp)
    have haall : a ∈ all := hall a (by simp)
    have sa : SameMatrices a a := ⟨rfl, rfl, rfl, rfl, rfl⟩
    -- the matrices
    have key : ∃ d', (∀ cs, addDerived (((if ∃ b ∈ seen, SameMatrices b a then [] else [mComp render a]) ++ cs).map (derivedFn I render)) d =
          addDerived (cs.map (derivedFn I render)) d') ∧ Dict.WF d' ∧
        (∀ k, (∀ x, k ≠ (mKey x).text render) → Dict.get? d' k = Dict.get? d k) ∧
        (∀ x b, leader (seen ++ [a]) x = some b →
          ∃ kd, Dict.get? d' ((mKey x).text render) = some (kd, .mats (I.mats (thresholdsFor b.num) (histogramOf I b)))) ∧
        (∀ k, Dict.get? d' k ≠ none → PrivateName k.name ∨ ∃ a ∈ seen, k = resultKey a) := by
      by_cases hs : ∃ b ∈ seen, SameMatrices b a
      · refine ⟨d, fun cs => by rw [if_pos hs]; rfl, hd.wf, fun k _ => rfl, fun x b hb => hd.mats x b ?_, hd.keys⟩
        rw [leader_append] at hb
        by_cases hx : SameMatrices a x
        · obtain ⟨c, hc, hca⟩ := hs
          have : leader seen x ≠ none := by
            rw [ne_eq, leader_none, not_not]
            exact ⟨c, hc, hca.1.trans hx.1, hca.2.1.trans hx.2.1, hca.2.2.1.trans hx.2.2.1, hca.2.2.2.1.trans hx.2.2.2.1,
              hca.2.2.2.2.trans hx.2.2.2.2⟩
          obtain ⟨y, hy⟩ := Option.ne_none_iff_exists'.1 this
          rw [hy] at hb ⊢
          exact hb
        · simpa [hx] using hb
      · have hbody : (derivedFn I render (mComp render a)).body d =
            .ok [((mKey a).text render, Kind.metric, .mats (I.mats (thresholdsFor a.num) (histogramOf I a)))] := by
          simp only [derivedFn, mComp, hd.hist a haall, List.map_cons, List.map_nil]
        refine ⟨put d ((mKey a).text render) .metric (.mats (I.mats (thresholdsFor a.num) (histogramOf I a))), fun cs => ?_, WF_put hd.wf _ _ _,
          fun k hkx => ?_, fun x b hb => ?_, fun k hkx => ?_⟩
        · rw [if_neg hs, List.singleton_append, List.map_cons, addDerived, hbody]
          rfl
        · rw [get?_put, if_neg fun e => hkx a e.symm]
        · rw [leader_append] at hb
          by_cases hx : SameMatrices a x
          · have e := (mKey_iff hr a x).2 hx
            have hnone : leader seen x = none := by
              rw [leader_none]
              rintro ⟨c, hc, hcx⟩
              exact hs ⟨c, hc, hcx.1.trans hx.1.symm, hcx.2.1.trans hx.2.1.symm, hcx.2.2.1.trans hx.2.2.1.symm,
                hcx.2.2.2.1.trans hx.2.2.2.1.symm, hcx.2.2.2.2.trans hx.2.2.2.2.symm⟩
            rw [hnone, if_pos hx, Option.none_or, Option.some.injEq] at hb
            subst hb
            rw [get?_put, if_pos e]
            exact ⟨_, rfl⟩
          · rw [get?_put, if_neg fun e => hx ((mKey_iff hr a x).1 e)]
            exact hd.mats x b (by simpa [hx] using hb)
        · rw [get?_put] at hkx
          by_cases e : (mKey a).text render = k
          · exact .inl (e ▸ mKey_private hr a)
          · rw [if_neg e] at hkx
            exact hd.keys k hkx
    obtain ⟨d', hrun, wf', same', mats', keys'⟩ := key
    -- the plot
    obtain ⟨b, hb⟩ : ∃ b, leader (seen ++ [a]) a = some b := by
      rw [leader_append, if_pos sa]
      cases leader seen a with
      | none => exact ⟨a, rfl⟩
      | some y => exact ⟨y, rfl⟩
    obtain ⟨kd, hmat⟩ := mats' a b hb
    have hbody : (derivedFn I render (pComp render a)).body d' = .ok [(resultKey a, Kind.plot, .shown (shows I b))] := by
      simp only [derivedFn, pComp, hmat, List.map_cons, List.map_nil, pKey_eq hr]
      rfl
    have hfresh : Dict.get? d' (resultKey a) = none := by
      rw [same' _ fun x => (key_ne hr ha x).symm]
      by_contra hne
      rcases hd.keys _ hne with h | ⟨c, hc, h⟩
      · exact ha h
      · rw [List.map_append, List.nodup_append] at hk
        exact hk.2.2 _ (List.mem_map_of_mem hc) _ (List.mem_map_of_mem (List.mem_cons_self ..)) h.symm
    have hadd : ∀ cs, addDerived ((pComp render a :: cs).map (derivedFn I render)) d' =
        addDerived (cs.map (derivedFn I render)) (put d' (resultKey a) .plot (.shown (shows I b))) := by
      intro cs
      rw [List.map_cons, addDerived, hbody]
      rfl
    have hget : ∀ k, Dict.get? (put d' (resultKey a) .plot (.shown (shows I b))) k =
        if resultKey a = k then some (.plot, .shown (shows I b)) else Dict.get? d' k := by
      intro k
      rw [get?_put, hfresh]
      rfl
    rw [steps, hrun, hadd]
    have := ih (seen ++ [a]) (fun c hc => hall c (by simp [hc])) (by simpa using hk) (by simpa using hn)
      (put d' (resultKey a) .plot (.shown (shows I b))) ⟨WF_put wf' _ _ _, fun c hc => ?_, fun x y hy => ?_, fun x hx y hy => ?_, fun k hkx => ?_⟩
    · simpa using this
    · have : resultKey a ≠ (hKey c).text render := fun e => ha (by
        have := hKey_private hr hc
        rw [← e] at this
        exact this)
      rw [hget, if_neg this, same' _ fun x => (hKey_ne hr hc x).symm]
      exact hd.hist c hc
    · rw [hget, if_neg fun e => key_ne hr ha x e.symm]
      exact mats' x y hy
    · rw [hget]
      rcases List.mem_append.1 hx with hx | hx
      · have hne : resultKey a ≠ resultKey x := by
          intro e
          rw [List.map_append, List.nodup_append] at hk
          exact hk.2.2 _ (List.mem_map_of_mem hx) _ (List.mem_map_of_mem (List.mem_cons_self ..)) e.symm
        rw [if_neg hne, same' _ fun z => (key_ne hr (hn x (by simp [hx])) z).symm]
        refine hd.plots x hx y ?_
        rw [leader_append] at hy
        have : leader seen x ≠ none := by
          rw [ne_eq, leader_none, not_not]
          exact ⟨x, hx, rfl, rfl, rfl, rfl, rfl⟩
        obtain ⟨z, hz⟩ := Option.ne_none_iff_exists'.1 this
        rw [hz] at hy ⊢
        exact hy
      · obtain rfl := List.mem_singleton.1 hx
        rw [hb] at hy
        cases hy
        rw [if_pos rfl]
    · rw [hget] at hkx
      by_cases e : resultKey a = k
      · exact .inr ⟨a, by simp, e.symm⟩
      · rw [if_neg e] at hkx
        rcases keys' k hkx with h | ⟨c, hc, h⟩
        · exact .inl h
        · exact .inr ⟨c, by simp [hc], h⟩

private theorem ofKinds (render : Name → String) (as : List PlotArgs) :
    ofKind .metric (as.flatMap fun a => [hComp render a, mComp render a, pComp render a]) = as.map (hComp render) ∧
    ofKind .derived (as.flatMap fun a => [hComp render a, mComp render a, pComp render a]) = derivedOf render as := by
  induction as with
  | nil => exact ⟨rfl, rfl⟩
  | cons a as ih =>
    unfold ofKind derivedOf at ih ⊢
    constructor
    · rw [List.flatMap_cons, List.filter_append, ih.1]; rfl
    · rw [List.flatMap_cons, List.filter_append, ih.2]; rfl

/-- **C143** (what the code does): the plots of a slice are those of the configuration, each under its own key; a plot shows the matrices
of the first plot of the configuration which has the same name, model, output, sub key of the matrices and use of weights. -/
theorem C143_first (I : Meaning H M P) (render : Name → String) (as : List PlotArgs) (hr : Readable render as) (hu : ∀ a ∈ as, Usual a)
    (hk : (as.map resultKey).Nodup) :
    ∃ r, evaluate I render as = .ok r ∧
      (∀ a ∈ as, ∃ b, as.find? (fun b => decide (SameMatrices b a)) = some b ∧ Dict.get? r (resultKey a) = some (.plot, .shown (shows I b))) ∧
      ∀ k, Dict.get? r k ≠ none → ∃ a ∈ as, k = resultKey a := by
  have hn : ∀ a ∈ as, ¬ PrivateName a.name := fun a ha => (hu a ha).named
  have hsep : ∃ s, separate (as.flatMap fun a => [hComp render a, mComp render a, pComp render a]) = .ok s := by
    cases h : separate (as.flatMap fun a => [hComp render a, mComp render a, pComp render a]) with
    | ok s => exact ⟨s, rfl⟩
    | error e =>
      exfalso
      obtain rfl := (C29_error _).2 e h
      obtain ⟨c, hc, hbad⟩ := (C29_error _).1.1 h
      obtain ⟨a, -, hc⟩ := List.mem_flatMap.1 hc
      simp only [List.mem_cons, List.not_mem_nil, or_false] at hc
      rcases hc with rfl | rfl | rfl <;> rcases hbad with hb | ⟨e, he⟩ <;>
        first | (cases hb; done) | (rw [one_id _ _ rfl] at he; cases he)
  obtain ⟨s, hs⟩ := hsep
  obtain ⟨e1, e2, -, -⟩ := C29_first_occurrences _ s hs
  rw [(ofKinds render as).1] at e1
  rw [(ofKinds render as).2, ← later_nil, later_steps hr as hk hn [] [] (by simp) (by simp)] at e2
  -- the histograms
  obtain ⟨l, hl, hfl⟩ : ∃ l : List PlotArgs, l.Sublist as ∧ firsts (as.map (hComp render)) = l.map (hComp render) := by
    obtain ⟨l, h1, h2⟩ := List.sublist_map_iff.1 (firsts_sublist (as.map (hComp render)))
    exact ⟨l, h1, h2⟩
  have hsame : ∀ a ∈ as, ∀ b ∈ as, (hKey b).text render = (hKey a).text render → histogramOf I b = histogramOf I a := by
    intro a ha b hb h
    simp only [Key.text, hKey, MetricKey.mk.injEq] at h
    obtain ⟨h1, h2, h3, h4, -, h5, -⟩ := h
    have hnm := hr.inj b hb a ha h1
    simp only [histName, Name.histogram.injEq, true_and, and_true] at hnm
    unfold histogramOf
    rw [hnm.2, h2, h3, h4, (hu a ha).aggregation, (hu b hb).aggregation, hnm.1, Option.some.inj h5]
  have hinit : Inv I render as [] (initial I s.nonDerived) := by
    rw [e1, hfl]
    have hex : ∀ a ∈ as, ∃ b ∈ l, (hKey b).text render = (hKey a).text render := by
      intro a ha
      rcases firsts_represent (as.map (hComp render)) (hComp render a) (List.mem_map_of_mem ha) with h | ⟨c, hc, h⟩
      · rw [hfl] at h
        obtain ⟨b, hb, h⟩ := List.mem_map.1 h
        exact ⟨b, hb, by simpa [hComp] using congrArg Computation.keys h⟩
      · rw [hfl] at hc
        obtain ⟨b, hb, rfl⟩ := List.mem_map.1 hc
        rw [C29_identity] at h
        exact ⟨b, hb, by simpa [hComp] using h.2.1⟩
    refine ⟨initial_wf I render l, fun a ha => ?_, fun a b h => ?_, fun a ha => (by cases ha), fun k hne => .inl ?_⟩
    · exact (initial_get I render l _ (histogramOf I a) fun b hb h => hsame a ha b (hl.subset hb) h).2.1 (hex a ha)
    · cases h
    · by_contra hp
      have hno : ∀ b ∈ l, (hKey b).text render ≠ k := fun b hb h => hp (h ▸ hKey_private hr (hl.subset hb))
      cases l with
      | nil => exact hne rfl
      | cons b l => exact hne ((initial_get I render (b :: l) k (histogramOf I b) fun c hc h => absurd h (hno c hc)).2.2 hno)
  obtain ⟨d, hd, inv⟩ := steps_run I hr as [] (fun _ h => h) (by simpa using hk) (by simpa using hn) _ hinit
  rw [List.nil_append] at inv
  have hfilter : ∀ k, ¬ PrivateName k.name → ∀ v, Dict.get? d k = some (.plot, v) → Dict.get? (filterKind .plot (removePrivate d)) k = some (.plot, v) := by
    intro k hkn v hv
    rw [← (C31_private_get d k).2 hkn] at hv
    have hm : (k, Kind.plot, v) ∈ removePrivate d := Dict.mem_of_get? hv
    have hm' := ((C31_separated (removePrivate d)).1 .plot (k, .plot, v)).2 ⟨hm, rfl⟩
    refine Dict.get?_of_mem ?_ hm'
    exact ((inv.wf.sublist ((C31_private d).1.map Prod.fst)).sublist (List.filter_sublist.map Prod.fst))
  refine ⟨filterKind .plot (removePrivate d), ?_, fun a ha => ?_, fun k hne => ?_⟩
  · unfold evaluate
    rw [allComps_eq hu render]
    simp only [hs]
    rw [e2, hd]
  · obtain ⟨b, hb⟩ : ∃ b, leader as a = some b := by
      refine Option.ne_none_iff_exists'.1 ?_
      rw [ne_eq, leader_none, not_not]
      exact ⟨a, ha, rfl, rfl, rfl, rfl, rfl⟩
    exact ⟨b, hb, hfilter _ (hn a ha) _ (inv.plots a ha b hb)⟩
  · obtain ⟨v, hv⟩ := Option.ne_none_iff_exists'.1 hne
    have hm := ((C31_separated (removePrivate d)).1 .plot (k, v)).1 (Dict.mem_of_get? hv)
    have hm' := ((C31_private d).2.1 (k, v)).1 hm.1
    have : Dict.get? d k ≠ none := by
      rw [Dict.get?_of_mem inv.wf hm'.1]; simp
    rcases inv.keys k this with h | h
    · exact absurd h hm'.2
    · exact h

/-- **C143**: a plot shows the matrices of its own histogram at its own thresholds, as long as no two plots agree in name, model, output, sub
key of the matrices and use of weights.  Missing: plots which do (`C143_classes_fail`). -/
theorem C143_own_partial (I : Meaning H M P) (render : Name → String) (as : List PlotArgs) (hr : Readable render as) (hu : ∀ a ∈ as, Usual a)
    (hk : (as.map resultKey).Nodup) (hm : ∀ a ∈ as, ∀ b ∈ as, SameMatrices a b → a = b) :
    ∃ r, evaluate I render as = .ok r ∧ (∀ a ∈ as, Dict.get? r (resultKey a) = some (.plot, .shown (shows I a))) ∧
      ∀ k, Dict.get? r k ≠ none → ∃ a ∈ as, k = resultKey a := by
  obtain ⟨r, h1, h2, h3⟩ := C143_first I render as hr hu hk
  refine ⟨r, h1, fun a ha => ?_, h3⟩
  obtain ⟨b, hb, hg⟩ := h2 a ha
  obtain rfl := hm b (List.mem_of_find?_eq_some hb) a ha (by simpa using List.find?_some hb)
  exact hg

/-- Three plots: two names, two outputs. -/
example : let render : Name → String := fun n => match n with
            | .given (some s) => s
            | .histogram _ _ _ _ _ ps _ => "_calibration_histogram" ++ String.join ps
            | _ => ""
          let as : List PlotArgs := [{ preprocessors := ["p"] }, { name := "plot", num := 3, preprocessors := ["q"] }, { outputName := "o", preprocessors := ["p"] }]
    Readable render as ∧ (∀ a ∈ as, Usual a) ∧ (as.map resultKey).Nodup ∧ ∀ a ∈ as, ∀ b ∈ as, SameMatrices a b → a = b := by
  have pub : ∀ s : String, s.toList.head? ≠ some '_' → ¬ PrivateName s := by
    rintro s h ⟨r, hr, -⟩
    rw [hr] at h
    exact h rfl
  have e : "p" ≠ "q" := by decide
  have e' : "q" ≠ "p" := by decide
  refine ⟨⟨fun s => rfl, fun a _ => ⟨_, rfl⟩, ?_⟩, ?_, by decide, ?_⟩
  · intro a ha b hb h
    simp only [List.mem_cons, List.not_mem_nil, or_false] at ha hb
    rcases ha with rfl | rfl | rfl <;> rcases hb with rfl | rfl | rfl <;> first | rfl | (revert h; decide)
  · intro a ha
    simp only [List.mem_cons, List.not_mem_nil, or_false] at ha
    rcases ha with rfl | rfl | rfl <;> exact ⟨by decide, rfl, by decide, pub _ (by decide)⟩
  · intro a ha b hb h
    simp only [List.mem_cons, List.not_mem_nil, or_false] at ha hb
    rcases ha with rfl | rfl | rfl <;> rcases hb with rfl | rfl | rfl <;> first | rfl | exact absurd h (by decide)

/-! ### Object detection -/

/-- **C143**: the arguments of an object detection plot are checked; the class is part of the key of the plot but not of that of the
matrices. -/
theorem C143_detection_args (renderPre : CocoSetup.PName → String) (num : ℕ) (name outputName : String) (w : Bool) (s : CocoSetup.Setting) :
    ((∀ x, s.classWeight = some x → 0 ≤ x) ∧ (∀ lo hi, s.areaRange = some (lo, hi) → Fl.lt hi lo = false) ∧
      (∀ n, s.maxNumDetections = some n → 0 < n) ∧
      (outputName = "" ∨ (s.labelsToStack.getD [] = [] ∧ s.predictionsToStack.getD [] = [])) →
      ∃ a, detectionArgs renderPre num name outputName w s = .ok a ∧ a.num = num ∧ a.subKey = none ∧ a.aggregationType = none ∧
        a.classWeights = none ∧ a.preprocessors = [renderPre (CocoSetup.pname s)] ∧
        resultKey a = { name := name, modelName := s.modelName, outputName := outputName, subKey := some ⟨some s.classId, none, none⟩
                        exampleWeighted := some w }) ∧
    (¬ ((∀ x, s.classWeight = some x → 0 ≤ x) ∧ (∀ lo hi, s.areaRange = some (lo, hi) → Fl.lt hi lo = false) ∧
      (∀ n, s.maxNumDetections = some n → 0 < n) ∧
      (outputName = "" ∨ (s.labelsToStack.getD [] = [] ∧ s.predictionsToStack.getD [] = []))) →
      detectionArgs renderPre num name outputName w s = .error .valueError) := by
  have key : Coco.validate { classIds := some [s.classId], classWeights := s.classWeight.map fun w => [w]
                             areaRange := s.areaRange.map fun r => [r.1, r.2], maxNumDetections := s.maxNumDetections
                             stacked := (s.labelsToStack.getD [] ++ s.predictionsToStack.getD []) ≠ [], outputName := outputName } = .ok () ↔
      (∀ x, s.classWeight = some x → 0 ≤ x) ∧ (∀ lo hi, s.areaRange = some (lo, hi) → Fl.lt hi lo = false) ∧
      (∀ n, s.maxNumDetections = some n → 0 < n) ∧
      (outputName = "" ∨ (s.labelsToStack.getD [] = [] ∧ s.predictionsToStack.getD [] = [])) := by
    rw [Coco.C106_validate]
    simp only [Option.some.injEq, exists_eq_left', Option.map_eq_some_iff, forall_exists_index, and_imp, Prod.forall, decide_eq_false_iff_not,
      ne_eq, not_not, List.append_eq_nil_iff]
    refine and_congr ⟨fun h x hx => (h _ x hx rfl).2 x (by simp), fun h ws x hx hw => ?_⟩ (and_congr ⟨fun h lo hi hx => ?_, fun h r lo hi hx hw => ?_⟩ Iff.rfl)
    · subst hw; simpa using h x hx
    · obtain ⟨lo', hi', h1, h2⟩ := h _ lo hi hx rfl
      simp only [List.cons.injEq, and_true] at h1
      rw [h1.1, h1.2]; exact h2
    · exact ⟨lo, hi, hw.symm, h lo hi hx⟩
  constructor
  · intro h
    unfold detectionArgs
    rw [key.2 h]
    exact ⟨_, rfl, rfl, rfl, rfl, rfl, rfl, rfl⟩
  · intro h
    unfold detectionArgs
    cases hv : Coco.validate { classIds := some [s.classId], classWeights := s.classWeight.map fun w => [w]
                               areaRange := s.areaRange.map fun r => [r.1, r.2], maxNumDetections := s.maxNumDetections
                               stacked := (s.labelsToStack.getD [] ++ s.predictionsToStack.getD []) ≠ [], outputName := outputName } with
    | ok u => exact absurd (key.1 hv) h
    | error e =>
      unfold Coco.validate at hv
      simp only at hv
      split_ifs at hv <;> cases hv <;> rfl

/-- **C143** (false of the code): two object detection plots of the same name, model and output for different classes: the plot of the
second class shows the matrices of the first class. -/
theorem C143_classes_fail (I : Meaning H M P) (render : Name → String) (renderPre : CocoSetup.PName → String) (num num' : ℕ)
    (name outputName : String) (w : Bool) (s s' : CocoSetup.Setting) (a a' : PlotArgs)
    (h : detectionArgs renderPre num name outputName w s = .ok a) (h' : detectionArgs renderPre num' name outputName w s' = .ok a')
    (hs : s.modelName = s'.modelName) (hc : s.classId ≠ s'.classId) (hn : num ≠ 0) (hn' : num' ≠ 0) (hname : ¬ PrivateName name)
    (hr : Readable render [a, a']) :
    ∃ r, evaluate I render [a, a'] = .ok r ∧
      Dict.get? r (resultKey a) = some (.plot, .shown (shows I a)) ∧ Dict.get? r (resultKey a') = some (.plot, .shown (shows I a)) := by
  have ea : a = { num, name, modelName := s.modelName, outputName, exampleWeighted := w, preprocessors := [renderPre (CocoSetup.pname s)]
                  plotSubKey := some ⟨some s.classId, none, none⟩ } := by
    unfold detectionArgs at h
    split at h
    · cases h
    · cases h; rfl
  have ea' : a' = { num := num', name, modelName := s'.modelName, outputName, exampleWeighted := w
                    preprocessors := [renderPre (CocoSetup.pname s')], plotSubKey := some ⟨some s'.classId, none, none⟩ } := by
    unfold detectionArgs at h'
    split at h'
    · cases h'
    · cases h'; rfl
  have hsame : ∀ x ∈ [a, a'], SameMatrices a x := by
    intro x hx
    simp only [List.mem_cons, List.not_mem_nil, or_false] at hx
    rcases hx with rfl | rfl
    · exact ⟨rfl, rfl, rfl, rfl, rfl⟩
    · subst ea ea'
      exact ⟨rfl, hs, rfl, rfl, rfl⟩
  obtain ⟨r, h1, h2, -⟩ := C143_first I render [a, a'] hr (by
    intro x hx
    simp only [List.mem_cons, List.not_mem_nil, or_false] at hx
    rcases hx with rfl | rfl
    · subst ea; exact ⟨hn, rfl, by simp, hname⟩
    · subst ea'; exact ⟨hn', rfl, by simp, hname⟩) (by
    subst ea ea'
    simp [resultKey, hc])
  have fst : ∀ x ∈ [a, a'], Dict.get? r (resultKey x) = some (.plot, .shown (shows I a)) := by
    intro x hx
    obtain ⟨b, hb, hg⟩ := h2 x hx
    rw [List.find?_cons_of_pos (by simpa using hsame x hx)] at hb
    cases hb
    exact hg
  exact ⟨r, h1, fst a (by simp), fst a' (by simp)⟩

/-- Two classes whose histograms differ; both plots show the first. -/
example : let render : Name → String := fun n => match n with
            | .given (some s) => s
            | .histogram _ _ _ _ _ ps _ => "_calibration_histogram" ++ String.join ps
            | _ => ""
          let pre : CocoSetup.PName → String := fun p => if p.classId = 1 then "first" else "second"
          let I : Meaning (List String) (List String) (List String) := ⟨fun ps _ => ps, fun _ h => h, fun m => m⟩
    ∃ a a' r, detectionArgs pre 2 "plot" "" false { classId := 1 } = .ok a ∧ detectionArgs pre 2 "plot" "" false { classId := 2 } = .ok a' ∧
      Readable render [a, a'] ∧ shows I a = ["first"] ∧ shows I a' = ["second"] ∧ evaluate I render [a, a'] = .ok r ∧
      r.map (fun p => p.1.subKey) = [some ⟨some 1, none, none⟩, some ⟨some 2, none, none⟩] ∧
      r.map (fun p => p.2.2) = [.shown ["first"], .shown ["first"]] := by
  refine ⟨_, _, [({ name := "plot", subKey := some ⟨some 1, none, none⟩, exampleWeighted := some false }, .plot, .shown ["first"]),
    ({ name := "plot", subKey := some ⟨some 2, none, none⟩, exampleWeighted := some false }, .plot, .shown ["first"])],
    rfl, rfl, ⟨fun s => rfl, fun a _ => ⟨_, rfl⟩, ?_⟩, rfl, rfl, by decide +kernel, rfl, rfl⟩
  intro a ha b hb h
  simp only [List.mem_cons, List.not_mem_nil, or_false] at ha hb
  rcases ha with rfl | rfl <;> rcases hb with rfl | rfl <;> first | rfl | (revert h; decide)

end PlotSetup
end TFMA
