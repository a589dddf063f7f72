import Verif.Model.Comparisons
import Verif.Props.SelfMerge
import Verif.Props.InputsKeys
import Verif.Py.DictLemmas
import Mathlib.Tactic.FieldSimp
import Mathlib.Tactic.Linarith
import Mathlib.Algebra.Order.BigOperators.Group.List

/-!
# C128: metrics that compare models
-/

namespace TFMA
namespace Comparisons

open Inputs MetricKeys Combiners Beam

/-! ### specification -/

/-- The predictions of a model for an output. -/
inductive Predicts (P : Forest (Option (Arr Fl))) (model output : String) (p : Arr Fl) : Prop
  | alone : output = "" → P.find? model = some (.leaf (some p)) → Predicts P model output p
  | named {O : Forest (Option (Arr Fl))} : output ≠ "" → P.find? model = some (.node O) → O ≠ .nil →
      O.find? output = some (.leaf (some p)) → Predicts P model output p

/-- An example whose first predictions by the baseline and the model are those of `x`, with labels for all predictions or
none, and with one weight. -/
structure Compared (base model output : String) (weighted : Bool) (r : Raw) (x : PredPair) : Prop where
  base_named : base ≠ ""
  model_named : model ≠ ""
  values : ∃ P pb pm, r.prediction = .node P ∧ Predicts P base output pb ∧ Predicts P model output pm ∧
    pb.data.head? = some (.fin x.base) ∧ pm.data.head? = some (.fin x.model) ∧
    (r.label = .leaf none ∨ ∃ l, r.label = .leaf (some l) ∧ l.size = pb.size ∧ l.size = pm.size)
  weight : (weighted = false ∧ x.weight = 1) ∨ (weighted = true ∧ r.weight = .leaf none ∧ x.weight = 1) ∨
    (weighted = true ∧ ∃ s, r.weight = .leaf (some ⟨s, [x.weight]⟩))

/-- The total weight of some examples. -/
def weightOf (xs : List PredPair) : ℚ := (xs.map fun x => x.weight).sum

/-- Whether an example counts: the predictions of the baseline and of the model are above the threshold or not. -/
def Counted (k : Kind) (t : ℚ) (x : PredPair) : Prop :=
  match k with
  | .symmetric => ¬ (t < x.base ↔ t < x.model)
  | .negToNeg => x.base ≤ t ∧ x.model ≤ t
  | .negToPos => x.base ≤ t ∧ t < x.model
  | .posToNeg => t < x.base ∧ x.model ≤ t
  | .posToPos => t < x.base ∧ t < x.model

open Classical in
/-- The share of the weight of the examples that count. -/
noncomputable def share (k : Kind) (t : ℚ) (xs : List PredPair) : ℚ :=
  weightOf (xs.filter fun x => Counted k t x) / weightOf xs

/-! ### what is read from an example -/

private theorem requireKey_leaf {β : Type} {f : Forest β} {k : String} {x : β} (h : f.find? k = some (.leaf x)) :
    requireKey (.node f) k = .ok (.leaf x) := by
  simp [requireKey, getByKey, h, isEmptyNode]

private theorem requireKey_node {β : Type} {f g : Forest β} {k : String} (h : f.find? k = some (.node g)) (hg : g ≠ .nil) :
    requireKey (.node f) k = .ok (.node g) := by
  cases g with
  | nil => exact absurd rfl hg
  | cons a b c => simp [requireKey, getByKey, h, isEmptyNode]

private theorem find_found {specs : List (ModelSpec × Bool)} {model output : String} (hm : model ≠ "") (weighted n : Bool)
    {P : Forest (Option (Arr Fl))} {p : Arr Fl} (hp : Predicts P model output p) (l : Option (Arr ℚ))
    (wt : Tree (Option (Arr ℚ))) (w : ℚ)
    (hw : (weighted = false ∧ w = 1) ∨ (weighted = true ∧ wt = .leaf none ∧ w = 1) ∨
      (weighted = true ∧ ∃ s, wt = .leaf (some ⟨s, [w]⟩))) :
    ∃ s, find (args specs (some model) output weighted n) ⟨.leaf l, .node P, wt⟩ = .ok ⟨l, some p, ⟨s, [w]⟩⟩ := by
  unfold find
  cases hp with
  | alone ho hf =>
    rcases hw with ⟨h1, h2⟩ | ⟨h1, h2, h3⟩ | ⟨h1, s, h2⟩
    · exact ⟨[], by simp [args, byName, hm, ho, h1, h2, isNoneLeaf, requireKey_leaf hf, optionalKey, requireLeaf,
        preparePrediction, bind, Except.bind, pure, Except.pure]⟩
    · exact ⟨[], by simp [args, byName, hm, ho, h1, h2, h3, isNoneLeaf, requireKey_leaf hf, optionalKey, requireLeaf,
        preparePrediction, bind, Except.bind, pure, Except.pure]⟩
    · exact ⟨s, by simp [args, byName, hm, ho, h1, h2, isNoneLeaf, requireKey_leaf hf, optionalKey, requireLeaf,
        preparePrediction, bind, Except.bind, pure, Except.pure]⟩
  | named ho hf hne hg =>
    rcases hw with ⟨h1, h2⟩ | ⟨h1, h2, h3⟩ | ⟨h1, s, h2⟩
    · exact ⟨[], by simp [args, byName, hm, ho, h1, h2, isNoneLeaf, requireKey_node hf hne, requireKey_leaf hg, optionalKey,
        requireLeaf, preparePrediction, bind, Except.bind, pure, Except.pure]⟩
    · exact ⟨[], by simp [args, byName, hm, ho, h1, h2, h3, isNoneLeaf, requireKey_node hf hne, requireKey_leaf hg,
        optionalKey, requireLeaf, preparePrediction, bind, Except.bind, pure, Except.pure]⟩
    · exact ⟨s, by simp [args, byName, hm, ho, h1, h2, isNoneLeaf, requireKey_node hf hne, requireKey_leaf hg, optionalKey,
        requireLeaf, preparePrediction, bind, Except.bind, pure, Except.pure]⟩

private theorem squeeze_data {α : Type} (a : Arr α) : (squeeze a).data = a.data := by
  unfold squeeze
  simp only
  split
  · rfl
  · split <;> rfl

private theorem process_first (part : ℕ → List Fl → List ℕ) (specs : List (ModelSpec × Bool)) (model : Option String)
    (output : String) (weighted n : Bool) (l : Option (Arr ℚ)) (p : Arr Fl) (s : List ℕ) (w : ℚ) (q : Fl)
    (hq : p.data.head? = some q) (hl : (n = true ∧ l = none) ∨ ∃ a, l = some a ∧ a.size = p.size) :
    ∃ items i, process part (args specs model output weighted n) ⟨l, some p, ⟨s, [w]⟩⟩ = .ok items ∧ first items = .ok i ∧
      i.prediction.data = [q] ∧ i.weight.data = [w] := by
  obtain ⟨ps, hps⟩ : ∃ ps, p.data = q :: ps := by
    cases hd : p.data with
    | nil => rw [hd] at hq; cases hq
    | cons a ps => rw [hd] at hq; cases hq; exact ⟨ps, rfl⟩
  have hpd : (atLeast1 p).data = q :: ps := by rw [atLeast1_data, hps]
  have hpsz : (atLeast1 p).size = ps.length + 1 := by simp [Arr.size, hpd]
  have hwd : (atLeast1 (⟨s, [w]⟩ : Arr ℚ)).data = [w] := atLeast1_data _
  have hc : checkNone (args specs model output weighted n) ⟨l, some p, ⟨s, [w]⟩⟩ = .ok () := by
    unfold checkNone
    rcases hl with ⟨h1, _⟩ | ⟨a, h1, _⟩
    · rw [if_pos (by simpa [args] using h1)]
    · subst h1
      split <;> simp
  have hs1 : singleWeight (args specs model output weighted n) ⟨s, [w]⟩ = .ok ⟨s, [w]⟩ := by
    unfold singleWeight
    rw [if_neg (by simp [args])]
  have hsk : optSubKey part (args specs model output weighted n) ⟨l, some p, ⟨s, [w]⟩⟩ = .ok (l, some p) := by
    unfold optSubKey
    simp [args]
  have hfw : flattenWeights (ps.length + 1) (atLeast1 (⟨s, [w]⟩ : Arr ℚ)) =
      .ok ⟨[ps.length + 1], List.replicate (ps.length + 1) w⟩ := by
    unfold flattenWeights
    rw [hwd]
  have hproc : process part (args specs model output weighted n) ⟨l, some p, ⟨s, [w]⟩⟩ =
      yieldResults true true (orEmpty l) (atLeast1 p) ⟨[ps.length + 1], List.replicate (ps.length + 1) w⟩ := by
    unfold process
    rw [hc, hs1]
    simp only [bind, Except.bind]
    rw [hsk]
    simp only
    unfold emit
    have e1 : (args specs model output weighted n).flatten = true := rfl
    have e2 : (args specs model output weighted n).classWeights = [] := rfl
    have e3 : orEmpty (some p) = atLeast1 p := rfl
    simp only [e1, e2, e3, if_true, bind, Except.bind, hpsz]
    rw [if_neg (by omega), hfw]
    simp only [applyClassWeights, if_true]
    unfold yieldAll
    have e4 : (args specs model output weighted n).squeeze = true := rfl
    have e5 : (args specs model output weighted n).fractional = false := rfl
    simp only [e1, e4, e5, Bool.false_and, Bool.false_eq_true, if_false, bind, Except.bind]
    cases yieldResults true true (orEmpty l) (atLeast1 p) ⟨[ps.length + 1], List.replicate (ps.length + 1) w⟩ <;> rfl
  rw [hproc]
  unfold yieldResults
  simp only [hpsz, Bool.not_true, Bool.false_or]
  rcases hl with ⟨_, h1⟩ | ⟨a, h1, h2⟩
  · subst h1
    have hz : (orEmpty (none : Option (Arr ℚ))).size = 0 := rfl
    simp only [hz]
    rw [if_neg (by simp), if_pos trivial, hpd, List.replicate_succ, List.zipWith_cons_cons]
    exact ⟨_, _, rfl, rfl, rfl, rfl⟩
  · subst h1
    have hasz : (orEmpty (some a)).size = ps.length + 1 := by
      show (atLeast1 a).size = _
      rw [atLeast1_size, h2, ← atLeast1_size, hpsz]
    have hrep : Arr.size (⟨[ps.length + 1], List.replicate (ps.length + 1) w⟩ : Arr ℚ) = ps.length + 1 := by
      simp [Arr.size]
    simp only [hasz, hrep]
    by_cases h0 : ps = []
    · subst h0
      rw [if_pos (by simp)]
      refine ⟨_, _, rfl, rfl, ?_, ?_⟩
      · show (squeeze (atLeast1 p)).data = _
        rw [squeeze_data, hpd]
      · show (squeeze _).data = _
        rw [squeeze_data]
        rfl
    · have hlen : ps.length ≠ 0 := fun h => h0 (List.length_eq_zero_iff.1 h)
      rw [if_neg (by simp [h0]), if_neg (by omega), if_neg (by omega), if_pos (by simp), hpd, List.replicate_succ]
      cases hd : (orEmpty (some a)).data with
      | nil => simp [Arr.size, hd] at hasz
      | cons x xs => exact ⟨_, _, rfl, rfl, rfl, rfl⟩

/-- **C128 (what is compared).**  For such an example, the first predictions of the two models are compared, with the
weight of the example (as the baseline has it). -/
theorem C128_compared (part : ℕ → List Fl → List ℕ) (specs : List (ModelSpec × Bool)) {base model output : String}
    {weighted : Bool} {r : Raw} {x : PredPair} (h : Compared base model output weighted r x) (n : Bool)
    (hn : n = true ∨ ∃ l, r.label = .leaf (some l)) :
    pair part specs (some base) model output weighted n r = .ok x := by
  obtain ⟨P, pb, pm, h1, h2, h3, h4, h5, h6⟩ := h.values
  obtain ⟨l, hl, hb, hm⟩ : ∃ l, r.label = .leaf l ∧ ((n = true ∧ l = none) ∨ ∃ a, l = some a ∧ a.size = pb.size) ∧
      ((n = true ∧ l = none) ∨ ∃ a, l = some a ∧ a.size = pm.size) := by
    rcases h6 with h6 | ⟨l, h6, h7, h8⟩
    · rcases hn with hn | ⟨l, hn⟩
      · exact ⟨none, h6, .inl ⟨hn, rfl⟩, .inl ⟨hn, rfl⟩⟩
      · rw [h6] at hn; cases hn
    · exact ⟨some l, h6, .inr ⟨l, rfl, h7⟩, .inr ⟨l, rfl, h8⟩⟩
  obtain ⟨rl, rp, rw'⟩ := r
  simp only at h1 hl
  subst h1 hl
  obtain ⟨s1, f1⟩ := find_found (specs := specs) h.base_named weighted n h2 l rw' x.weight h.weight
  obtain ⟨s2, f2⟩ := find_found (specs := specs) h.model_named weighted n h3 l rw' x.weight h.weight
  obtain ⟨i1, j1, a1, b1, c1, d1⟩ := process_first part specs (some base) output weighted n l pb s1 x.weight _ h4 hb
  obtain ⟨i2, j2, a2, b2, c2, d2⟩ := process_first part specs (some model) output weighted n l pm s2 x.weight _ h5 hm
  unfold pair toLabelPredictionWeight
  simp only [f1, f2, bind, Except.bind, a1, a2, b1, b2, toScalar, prediction, c1, c2, d1]
  rfl

/-! ### keys -/

/-- **C128 (keys).**  Exactly the models that are not the baseline are compared with it, for all outputs and sub keys; the
keys are marked as differences. -/
theorem C128_keys (name : String) (weighted : Bool) (baseline : Option String) (models outputs : List String)
    (subKeys : List (Option SubKey)) (k : MetricKey) :
    k ∈ keys name weighted baseline models outputs subKeys ↔
      k.name = name ∧ k.modelName ∈ models ∧ baseline ≠ some k.modelName ∧ k.outputName ∈ outputs ∧
        (k.subKey ∈ subKeys ∨ (subKeys = [] ∧ k.subKey = none)) ∧ k.aggregationType = none ∧
        k.exampleWeighted = some weighted ∧ k.isDiff = true := by
  unfold keys
  simp only [List.mem_flatMap, List.mem_filter, List.mem_map, decide_eq_true_eq]
  constructor
  · rintro ⟨m, ⟨hm, hb⟩, o, ho, sk, hsk, rfl⟩
    refine ⟨rfl, hm, fun h => hb h.symm, ho, ?_, rfl, rfl, rfl⟩
    cases subKeys with
    | nil => right; simpa using hsk
    | cons a l => left; simpa using hsk
  · rintro ⟨h1, h2, h3, h4, h5, h6, h7, h8⟩
    refine ⟨k.modelName, ⟨h2, fun h => h3 h.symm⟩, k.outputName, h4, k.subKey, ?_, ?_⟩
    · cases subKeys with
      | nil => simpa using h5
      | cons a l => simpa using h5
    · obtain ⟨n, m, o, sk, ag, ew, d⟩ := k
      simp only at h1 h6 h7 h8
      subst h1 h6 h7 h8
      rfl

/-- **C128 (baseline).**  The baseline is the first model spec marked as such. -/
theorem C128_baseline (specs : List (ModelSpec × Bool)) (b : String) :
    baselineName specs = some b ↔ ∃ before s after, specs = before ++ (s, true) :: after ∧ s.name = b ∧
      ∀ x ∈ before, x.2 = false := by
  unfold baselineName
  rw [Option.map_eq_some_iff]
  constructor
  · rintro ⟨⟨s, f⟩, h1, h2⟩
    rw [List.find?_eq_some_iff_append] at h1
    obtain ⟨h3, before, after, h4, h5⟩ := h1
    simp only at h3
    subst h3
    exact ⟨before, s, after, h4, h2, fun x hx => by simpa using h5 x hx⟩
  · rintro ⟨before, s, after, h1, h2, h3⟩
    exact ⟨(s, true), List.find?_eq_some_iff_append.2 ⟨rfl, before, after, h1, fun x hx => by simp [h3 x hx]⟩, h2⟩

/-! ### counts -/

private theorem countsName_inj {e : Env} (he : Function.Injective e.text) {t t' : ℚ} (h : countsName e t = countsName e t') :
    t = t' := by
  unfold countsName at h
  have h := congrArg String.toList h
  simp only [String.toList_append, List.append_cancel_left_eq] at h
  exact he (String.ext_iff.2 (by simpa using h))

/-- **C128 (thresholds).**  Rates with different thresholds never share counts, nor do those for different models, outputs
or kinds of weights, if different numbers are written differently. -/
theorem C128_not_shared {e : Env} (he : Function.Injective e.text) {t t' : Task} (h : t.countsKey e = t'.countsKey e) :
    t.threshold = t'.threshold ∧ t.key.modelName = t'.key.modelName ∧ t.key.outputName = t'.key.outputName ∧
      t.weighted = t'.weighted := by
  unfold Task.countsKey at h
  simp only [MetricKey.mk.injEq, Option.some.injEq] at h
  exact ⟨countsName_inj he h.1, h.2.1, h.2.2.1, by tauto⟩

private theorem combiner_congr {e : Env} (he : Function.Injective e.text) {t t' : Task} (h : t.countsKey e = t'.countsKey e) :
    t.combiner e = t'.combiner e := by
  obtain ⟨h1, h2, h3, h4⟩ := C128_not_shared he h
  unfold Task.combiner
  rw [h1, h2, h3, h4]

private theorem counts_get {e : Env} (he : Function.Injective e.text) {s : Sched Raw} {ts : List Task}
    {d c : Dict MetricKey FlipAcc} (h : counts e s ts d = .ok c) {t : Task}
    (ht : t ∈ ts ∨ ∃ a, (t.combiner e).run s = .ok a ∧ Dict.get? d (t.countsKey e) = some a) :
    ∃ a, (t.combiner e).run s = .ok a ∧ Dict.get? c (t.countsKey e) = some a := by
  induction ts generalizing d with
  | nil =>
    cases h
    rcases ht with ht | ht
    · cases ht
    · exact ht
  | cons u ts ih =>
    unfold counts at h
    cases hr : (u.combiner e).run s with
    | error x => rw [hr] at h; cases h
    | ok b =>
      rw [hr] at h
      refine ih h ?_
      by_cases hk : t.countsKey e = u.countsKey e
      · right
        refine ⟨b, by rw [combiner_congr he hk, hr], ?_⟩
        rw [hk, Dict.get?_set_self]
      · rcases ht with ht | ⟨a, h1, h2⟩
        · rcases List.mem_cons.1 ht with rfl | ht
          · exact absurd rfl hk
          · exact .inl ht
        · exact .inr ⟨a, h1, by rw [Dict.get?_set_ne _ _ (Ne.symm hk)]; exact h2⟩

private theorem rates_get {e : Env} {c : Dict MetricKey FlipAcc} {ts : List Task} {d r : Dict MetricKey ℚ}
    (h : rates e c ts d = .ok r) {t : Task} (hu : ∀ u ∈ ts, u.key = t.key → u = t)
    (ht : t ∈ ts ∨ ∃ a q, Dict.get? c (t.countsKey e) = some a ∧ t.kind.result a = .ok q ∧ Dict.get? d t.key = some q) :
    ∃ a q, Dict.get? c (t.countsKey e) = some a ∧ t.kind.result a = .ok q ∧ Dict.get? r t.key = some q := by
  induction ts generalizing d with
  | nil =>
    cases h
    rcases ht with ht | ht
    · cases ht
    · exact ht
  | cons u ts ih =>
    unfold rates at h
    cases hc : Dict.get? c (u.countsKey e) with
    | none => rw [hc] at h; cases h
    | some a =>
      rw [hc] at h
      simp only at h
      cases hq : u.kind.result a with
      | error x => rw [hq] at h; cases h
      | ok q =>
        rw [hq] at h
        refine ih h (fun v hv => hu v (by simp [hv])) ?_
        by_cases hk : u.key = t.key
        · have := hu u (by simp) hk
          subst this
          exact .inr ⟨a, q, hc, hq, Dict.get?_set_self _ _ _⟩
        · rcases ht with ht | ⟨a', q', h1, h2, h3⟩
          · rcases List.mem_cons.1 ht with rfl | ht
            · exact absurd rfl hk
            · exact .inl ht
          · exact .inr ⟨a', q', h1, h2, by rw [Dict.get?_set_ne _ _ hk]; exact h3⟩

/-! ### rates -/

mutual
private def mapS {ε δ : Type} (f : ε → δ) : Sched ε → Sched δ
  | .bundle xs => .bundle (xs.map f)
  | .extend s xs => .extend (mapS f s) (xs.map f)
  | .merge ss => .merge (mapSs f ss)
private def mapSs {ε δ : Type} (f : ε → δ) : Scheds ε → Scheds δ
  | .one s => .one (mapS f s)
  | .cons s ss => .cons (mapS f s) (mapSs f ss)
end

mutual
private theorem mapS_inputs {ε δ : Type} (f : ε → δ) : ∀ s : Sched ε, (mapS f s).inputs = s.inputs.map f
  | .bundle xs => rfl
  | .extend s xs => by simp [mapS, Sched.inputs, mapS_inputs f s]
  | .merge ss => by simp [mapS, Sched.inputs, mapSs_inputs f ss]
private theorem mapSs_inputs {ε δ : Type} (f : ε → δ) : ∀ s : Scheds ε, (mapSs f s).inputs = s.inputs.map f
  | .one s => by simp [mapSs, Scheds.inputs, mapS_inputs f s]
  | .cons s ss => by simp [mapSs, Scheds.inputs, mapS_inputs f s, mapSs_inputs f ss]
end

private theorem addAll_map {ε δ α : Type} (c : CombineFn ε α) (c' : CombineFn δ α) (f : ε → δ)
    (h : ∀ a x, c.addInput a x = c'.addInput a (f x)) (xs : List ε) (a : α) : c.addAll a xs = c'.addAll a (xs.map f) := by
  induction xs generalizing a with
  | nil => rfl
  | cons x xs ih =>
    simp only [CombineFn.addAll, List.map_cons, h]
    cases c'.addInput a (f x) with
    | error e => rfl
    | ok b => exact ih b

mutual
private theorem run_map {ε δ α : Type} (c : CombineFn ε α) (c' : CombineFn δ α) (f : ε → δ) (h0 : c.create = c'.create)
    (h : ∀ a x, c.addInput a x = c'.addInput a (f x)) (hm : c.merge = c'.merge) : ∀ s, c.run s = c'.run (mapS f s)
  | .bundle xs => by simp [mapS, CombineFn.run, h0, addAll_map c c' f h]
  | .extend s xs => by
    simp only [mapS, CombineFn.run, run_map c c' f h0 h hm s]
    cases c'.run (mapS f s) with
    | error e => rfl
    | ok a => exact addAll_map c c' f h xs a
  | .merge ss => by simp only [mapS, CombineFn.run, runs_map c c' f h0 h hm ss, hm]
private theorem runs_map {ε δ α : Type} (c : CombineFn ε α) (c' : CombineFn δ α) (f : ε → δ) (h0 : c.create = c'.create)
    (h : ∀ a x, c.addInput a x = c'.addInput a (f x)) (hm : c.merge = c'.merge) : ∀ ss, c.runs ss = c'.runs (mapSs f ss)
  | .one s => by simp only [mapSs, CombineFn.runs, run_map c c' f h0 h hm s]
  | .cons s ss => by simp only [mapSs, CombineFn.runs, run_map c c' f h0 h hm s, runs_map c c' f h0 h hm ss]
end

private theorem flipWeight_cons' (t : ℚ) (b m : Bool) (x : PredPair) (xs : List PredPair) :
    flipWeight t b m (x :: xs) =
      (if decide (t < x.base) == b && decide (t < x.model) == m then x.weight else 0) + flipWeight t b m xs := by
  unfold flipWeight
  rw [List.filter_cons]
  split <;> simp

private theorem flipWeight_share (k : Kind) (t : ℚ) (xs : List PredPair) (a : FlipAcc)
    (ha : a = { examples := (xs.map fun x => x.weight).sum
                negToNeg := flipWeight t false false xs
                negToPos := flipWeight t false true xs
                posToNeg := flipWeight t true false xs
                posToPos := flipWeight t true true xs }) : k.count a / a.examples = share k t xs := by
  classical
  have key : k.count a = weightOf (xs.filter fun x => Counted k t x) := by
    subst ha
    cases k <;> simp only [Kind.count]
    · induction xs with
      | nil => simp [flipWeight, weightOf]
      | cons x xs ih =>
        rw [flipWeight_cons', flipWeight_cons', List.filter_cons]
        by_cases h1 : t < x.base <;> by_cases h2 : t < x.model <;>
          simp [h1, h2, Counted, weightOf] at ih ⊢ <;> linarith
    all_goals
      induction xs with
      | nil => simp [flipWeight, weightOf]
      | cons x xs ih =>
        rw [flipWeight_cons', List.filter_cons]
        by_cases h1 : t < x.base <;> by_cases h2 : t < x.model <;>
          simp [h1, h2, Counted, weightOf, not_le.2, not_lt.1, le_of_not_gt] at ih ⊢ <;> linarith
  rw [key]
  subst ha
  rfl

/-- **C128 (rates).**  However the examples are distributed, the rate is the share of their weight that belongs to the
examples whose predictions lie on the sides of the threshold that the rate is named after; a prediction equal to the
threshold is negative. With a total weight of zero the evaluation fails.  `_partial`: collections of accumulators are
iterators; for lists see C16. -/
theorem C128_rate_partial {e : Env} (he : e.reiterable = false) {base : String} (hb : baselineName e.specs = some base)
    (t : Task) {data : List Raw} {xs : List PredPair}
    (h : List.Forall₂ (Compared base t.key.modelName t.key.outputName t.weighted) data xs) (s : Sched Raw)
    (hs : s.inputs.Perm data) :
    ((t.combiner e).run s).bind t.kind.result =
      if weightOf xs = 0 then .error .zeroDivisionError else .ok (share t.kind t.threshold xs) := by
  have hmap : data.map (pair e.part e.specs (baselineName e.specs) t.key.modelName t.key.outputName t.weighted true) =
      xs.map Except.ok := by
    rw [hb]
    clear hs
    induction h with
    | nil => rfl
    | cons h1 _ ih => rw [List.map_cons, List.map_cons, ih, C128_compared _ _ h1 true (.inl rfl)]
  have hrun : (t.combiner e).run s = (flipCombiner e.reiterable t.threshold).run
      (mapS (pair e.part e.specs (baselineName e.specs) t.key.modelName t.key.outputName t.weighted true) s) :=
    run_map (t.combiner e) (flipCombiner e.reiterable t.threshold) _ rfl (fun _ _ => rfl) rfl s
  have hp : (mapS (pair e.part e.specs (baselineName e.specs) t.key.modelName t.key.outputName t.weighted true) s).inputs.Perm
      (xs.map Except.ok) := by
    rw [mapS_inputs, ← hmap]
    exact hs.map _
  have h1 := C16_flip_counts_partial t.threshold _ _ hp
  rw [C16_flip_counts_value] at h1
  rw [hrun, he]
  cases hr : (flipCombiner false t.threshold).run
      (mapS (pair e.part e.specs (baselineName e.specs) t.key.modelName t.key.outputName t.weighted true) s) with
  | error x => rw [hr] at h1; cases h1
  | ok a =>
    rw [hr] at h1
    have ha := Option.some.inj h1
    show t.kind.result a = _
    unfold Kind.result
    rw [flipWeight_share t.kind t.threshold xs a ha]
    have : a.examples = weightOf xs := by rw [ha]; rfl
    rw [this]

/-- **C128 (report).**  In the report of an evaluation with any flip rate metrics, the value under each key is the rate of
its own kind, threshold, model and output. -/
theorem C128_report_partial {e : Env} (he : e.reiterable = false) (hi : Function.Injective e.text) {base : String}
    (hb : baselineName e.specs = some base) (ms : List Metric) (s : Sched Raw) {d : Dict MetricKey ℚ}
    (hd : evaluate e ms s = .ok d) {m : Metric} (hm : m ∈ ms) {t : Task} (ht : t ∈ m.tasks e)
    (hu : ∀ m' ∈ ms, ∀ u ∈ m'.tasks e, u.key = t.key → u = t) {data : List Raw} {xs : List PredPair}
    (h : List.Forall₂ (Compared base t.key.modelName t.key.outputName t.weighted) data xs) (hs : s.inputs.Perm data) :
    Dict.get? d t.key = some (share t.kind t.threshold xs) := by
  unfold evaluate at hd
  simp only at hd
  cases hc : counts e s (ms.flatMap (Metric.tasks e)) [] with
  | error x => rw [hc] at hd; cases hd
  | ok c =>
    rw [hc] at hd
    have hmem : t ∈ ms.flatMap (Metric.tasks e) := List.mem_flatMap.2 ⟨m, hm, ht⟩
    obtain ⟨a, h1, h2⟩ := counts_get hi hc (.inl hmem)
    obtain ⟨a', q, h3, h4, h5⟩ := rates_get hd (t := t) (fun u hu' hk => by
      obtain ⟨m', hm', hu''⟩ := List.mem_flatMap.1 hu'
      exact hu m' hm' u hu'' hk) (.inl hmem)
    rw [h2] at h3
    cases h3
    have h6 := C128_rate_partial he hb t h s hs
    rw [h1] at h6
    change t.kind.result a = _ at h6
    rw [h4] at h6
    split at h6
    · cases h6
    · rw [h5, Except.ok.inj h6]

/-- **C128 (which tasks).**  The keys of the report are those of `C128_keys`. -/
theorem C128_tasks (e : Env) (m : Metric) (t : Task) :
    t ∈ m.tasks e ↔ t.kind = m.kind ∧ t.threshold = m.threshold ∧ t.weighted = m.weighted ∧ t.key.name = m.name ∧
      t.key.modelName ∈ m.models ∧ baselineName e.specs ≠ some t.key.modelName ∧ t.key.outputName ∈ m.outputs ∧
      (t.key.subKey ∈ m.subKeys ∨ (m.subKeys = [] ∧ t.key.subKey = none)) ∧ t.key.aggregationType = none ∧
      t.key.exampleWeighted = some m.weighted ∧ t.key.isDiff = true := by
  unfold Metric.tasks
  rw [List.mem_map]
  constructor
  · rintro ⟨k, hk, rfl⟩
    exact ⟨rfl, rfl, rfl, (C128_keys _ _ _ _ _ _ _).1 hk⟩
  · rintro ⟨h1, h2, h3, h4⟩
    refine ⟨t.key, (C128_keys _ _ _ _ _ _ _).2 h4, ?_⟩
    rw [← h1, ← h2, ← h3]

/-! ### how the rates belong together -/

/-- **C128 (parts).**  The four rates of the directions add up to one, and the symmetric rate is the sum of the two in which
the sides differ. -/
theorem C128_parts (t : ℚ) (xs : List PredPair) (h : weightOf xs ≠ 0) :
    share .negToNeg t xs + share .negToPos t xs + share .posToNeg t xs + share .posToPos t xs = 1 ∧
    share .symmetric t xs = share .negToPos t xs + share .posToNeg t xs := by
  classical
  have key : ∀ xs : List PredPair,
      weightOf (xs.filter fun x => Counted .negToNeg t x) + weightOf (xs.filter fun x => Counted .negToPos t x) +
        weightOf (xs.filter fun x => Counted .posToNeg t x) + weightOf (xs.filter fun x => Counted .posToPos t x) =
          weightOf xs ∧
      weightOf (xs.filter fun x => Counted .symmetric t x) =
        weightOf (xs.filter fun x => Counted .negToPos t x) + weightOf (xs.filter fun x => Counted .posToNeg t x) := by
    intro xs
    induction xs with
    | nil => simp [weightOf]
    | cons x xs ih =>
      obtain ⟨ih1, ih2⟩ := ih
      have hf : ∀ k : Kind, weightOf ((x :: xs).filter fun x => Counted k t x) =
          (if Counted k t x then x.weight else 0) + weightOf (xs.filter fun x => Counted k t x) := by
        intro k
        rw [List.filter_cons]
        by_cases hk : Counted k t x <;> simp [hk, weightOf]
      have hc : weightOf (x :: xs) = x.weight + weightOf xs := by simp [weightOf]
      simp only [hf, hc, ← ih1, ih2]
      by_cases h1 : t < x.base <;> by_cases h2 : t < x.model
      · simp only [Counted, h1, h2, not_le.2 h1, not_le.2 h2, and_self, and_false, false_and, not_true, iff_self, if_true,
          if_false]
        constructor <;> ring
      · simp only [Counted, h1, h2, not_le.2 h1, not_lt.1 h2, and_self, and_true, and_false, false_and, if_true, if_false,
          iff_false, not_true, not_false_eq_true]
        constructor <;> ring
      · simp only [Counted, h1, h2, not_le.2 h2, not_lt.1 h1, and_self, and_true, and_false, false_and, if_true, if_false,
          iff_true, not_true, not_false_eq_true]
        constructor <;> ring
      · simp only [Counted, h1, h2, not_lt.1 h1, not_lt.1 h2, and_self, and_true, and_false, false_and, if_true, if_false,
          iff_self, not_true]
        constructor <;> ring
  obtain ⟨h1, h2⟩ := key xs
  unfold share
  constructor
  · rw [← add_div, ← add_div, ← add_div, h1, div_self h]
  · rw [← add_div, h2]

/-- **C128 (bounds).**  With weights that are not negative, rates are between 0 and 1. -/
theorem C128_bounds (k : Kind) (t : ℚ) (xs : List PredPair) (h : ∀ x ∈ xs, 0 ≤ x.weight) :
    0 ≤ share k t xs ∧ share k t xs ≤ 1 := by
  classical
  have h0 : ∀ ys : List PredPair, (∀ x ∈ ys, 0 ≤ x.weight) → 0 ≤ weightOf ys := by
    intro ys hy
    refine List.sum_nonneg ?_
    rintro w hw
    obtain ⟨x, hx, rfl⟩ := List.mem_map.1 hw
    exact hy x hx
  have hle : ∀ ys : List PredPair, (∀ x ∈ ys, 0 ≤ x.weight) → weightOf (ys.filter fun x => Counted k t x) ≤ weightOf ys := by
    intro ys hy
    induction ys with
    | nil => simp [weightOf]
    | cons x ys ih =>
      have hx := hy x (by simp)
      have ih := ih fun z hz => hy z (by simp [hz])
      unfold weightOf at ih ⊢
      rw [List.filter_cons]
      split
      · simp only [List.map_cons, List.sum_cons]; linarith
      · simp only [List.map_cons, List.sum_cons]; linarith
  unfold share
  exact ⟨div_nonneg (h0 _ fun x hx => h x (List.mem_of_mem_filter hx)) (h0 _ h), div_le_one_of_le₀ (hle _ h) (h0 _ h)⟩

/-- **C128 (all five).**  `BooleanFlipRates` reports each of the five rates under its own name. -/
theorem C128_boolean (e : Env) (sy nn np pn pp : String) (threshold : ℚ) (weighted : Bool) (models outputs : List String)
    (subKeys : List (Option SubKey)) (k : Kind) (name : String) :
    (∃ m ∈ booleanFlipRates sy nn np pn pp threshold weighted models outputs subKeys, m.kind = k ∧ m.name = name ∧
      m.threshold = threshold ∧ m.weighted = weighted ∧ m.models = models ∧ m.outputs = outputs ∧ m.subKeys = subKeys) ↔
    name = (match k with | .symmetric => sy | .negToNeg => nn | .negToPos => np | .posToNeg => pn | .posToPos => pp) := by
  cases k <;> simp [booleanFlipRates, eq_comm]

/-! ### where it is false -/

/-- Two examples with two classes. The models agree on the first class, and disagree on the second. -/
private def classes : List Raw :=
  [⟨.leaf (some ⟨[2], [1, 0]⟩), .node (.cons "b" (.leaf (some ⟨[2], [.fin 1, .fin 0]⟩))
      (.cons "m" (.leaf (some ⟨[2], [.fin 1, .fin 1]⟩)) .nil)), .leaf none⟩,
   ⟨.leaf (some ⟨[2], [1, 0]⟩), .node (.cons "b" (.leaf (some ⟨[2], [.fin 1, .fin 0]⟩))
      (.cons "m" (.leaf (some ⟨[2], [.fin 1, .fin 1]⟩)) .nil)), .leaf none⟩]

private def env : Env := ⟨fun _ _ => [], [(⟨"b", "", ""⟩, true), (⟨"m", "", ""⟩, false)], "", fun _ => "", false⟩

/-- **C128 fails for sub keys:** the sub key of a rate is part of its key but has no effect, here no flips are reported for
class 1 although the models disagree on it in all examples. -/
theorem C128_sub_key_fails :
    evaluate env [⟨.symmetric, "flips", 1 / 2, false, ["b", "m"], [""], [some ⟨some 1, none, none⟩]⟩] (.bundle classes) =
      .ok [({ name := "flips", modelName := "m", subKey := some ⟨some 1, none, none⟩, isDiff := true }, 0)] := by
  decide +kernel

/-- **C128 fails for sub keys (always):** rates that differ in the sub key only are computed from the same counts. -/
theorem C128_sub_keys_same (e : Env) (t : Task) (sk : Option SubKey) :
    ({ t with key := { t.key with subKey := sk } } : Task).countsKey e = t.countsKey e ∧
    ({ t with key := { t.key with subKey := sk } } : Task).combiner e = t.combiner e := ⟨rfl, rfl⟩

/-- **C128 fails for examples without weight:** a slice whose examples all have weight zero makes the evaluation fail. -/
theorem C128_no_weight_fails :
    evaluate env [⟨.symmetric, "flips", 1 / 2, true, ["b", "m"], [""], []⟩]
      (.bundle [⟨.leaf none, .node (.cons "b" (.leaf (some ⟨[1], [.fin 1]⟩)) (.cons "m" (.leaf (some ⟨[1], [.fin 1]⟩)) .nil)),
        .leaf (some ⟨[1], [0]⟩)⟩]) = .error .zeroDivisionError := by
  decide +kernel

/-- **C128 fails without a baseline:** if no model is marked as the baseline, a single model is compared with itself, and no
flips are reported. -/
theorem C128_no_baseline_fails :
    evaluate ⟨fun _ _ => [], [(⟨"m", "", ""⟩, false)], "", fun _ => "", false⟩
      [⟨.symmetric, "flips", 1 / 2, false, [""], [""], []⟩]
      (.bundle [⟨.leaf none, .leaf (some ⟨[1], [.fin 1]⟩), .leaf none⟩]) =
      .ok [({ name := "flips", isDiff := true }, 0)] := by
  decide +kernel

/-! ### cases that meet the hypotheses -/

/-- An example with two classes and a weight. -/
example : Compared "b" "m" "out" true
    ⟨.leaf (some ⟨[2], [1, 0]⟩), .node (.cons "b" (.node (.cons "out" (.leaf (some ⟨[2], [.fin 1, .fin 0]⟩)) .nil))
      (.cons "m" (.node (.cons "out" (.leaf (some ⟨[2], [.fin 0, .fin 1]⟩)) .nil)) .nil)), .leaf (some ⟨[1], [3]⟩)⟩
    ⟨1, 0, 3⟩ where
  base_named := by decide
  model_named := by decide
  values := ⟨_, _, _, rfl, .named (by decide) rfl (by simp) rfl, .named (by decide) rfl (by simp) rfl, rfl, rfl,
    .inr ⟨_, rfl, rfl, rfl⟩⟩
  weight := .inr (.inr ⟨rfl, _, rfl⟩)

/-- Different models, thresholds and kinds in one evaluation. -/
example : evaluate ⟨fun _ _ => [], [(⟨"b", "", ""⟩, true), (⟨"m", "", ""⟩, false)], "", fun q => toString q, false⟩
    [⟨.symmetric, "low", 1 / 4, false, ["b", "m"], [""], []⟩, ⟨.negToPos, "high", 3 / 4, false, ["b", "m"], [""], []⟩]
    (.bundle [⟨.leaf none, .node (.cons "b" (.leaf (some ⟨[1], [.fin (1 / 2)]⟩)) (.cons "m" (.leaf (some ⟨[1], [.fin 1]⟩)) .nil)),
        .leaf none⟩]) =
    .ok [({ name := "low", modelName := "m", isDiff := true }, 0), ({ name := "high", modelName := "m", isDiff := true }, 1)] := by
  decide +kernel

end Comparisons
end TFMA
