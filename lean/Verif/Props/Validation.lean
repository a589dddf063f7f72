import Verif.Model.Validation
import Verif.Py.DictLemmas
import Mathlib.Tactic.Tauto

/-!
# C34–C36: validation of one slice
-/

namespace TFMA
namespace Validation

open Slicer MetricKeys

variable {c : NumCodec} {baseline : Option String} {metrics : Metrics} {key : MetricKey}

/-! ### C36 -/

/-- C36: a value threshold passes exactly if the metric lies between the bounds that are set, both inclusive. -/
theorem C36_value (l u : Option Fl) (x : Fl) (hx : x ≠ .nan) :
    checkThreshold baseline metrics key (.value l u) (.num x) = .ok true ↔
      (∀ b, l = some b → b.le x = true) ∧ (∀ b, u = some b → x.le b = true) := by
  have h1 : Fl.ninf.le x = true := by cases x <;> simp_all [Fl.le]
  have h2 : x.le .pinf = true := by cases x <;> simp_all [Fl.le]
  simp only [checkThreshold, MetricValue.float, bind, Except.bind, pure, Except.pure, Except.ok.injEq, Bool.and_eq_true]
  cases l <;> cases u <;> simp [h1, h2]

/-- C36 for finite values: a closed interval of numbers. -/
theorem C36_interval (a b x : ℚ) :
    checkThreshold baseline metrics key (.value (some (.fin a)) (some (.fin b))) (.num (.fin x)) =
      .ok (decide (a ≤ x ∧ x ≤ b)) := by
  simp [checkThreshold, MetricValue.float, bind, Except.bind, pure, Except.pure, Fl.le, Bool.decide_and]

/-- The number lies on the good side of the bound, for lower or higher is better. -/
def Good (d : Direction) (x bound : Fl) : Prop :=
  (d = .lowerIsBetter ∧ x.le bound = true) ∨ (d = .higherIsBetter ∧ bound.le x = true)

private theorem onGoodSide_iff (d : Direction) (x bound : Fl) : onGoodSide d x bound = .ok true ↔ Good d x bound := by
  cases d <;> simp [onGoodSide, Good]

/-- C36: a change threshold passes exactly if the bounds that are set hold: the change is on the good side of the
absolute bound, and the baseline is there, is not zero and the change divided by it is on the good side of the relative
bound. -/
theorem C36_change (a r : Option Fl) (d : Direction) (x : Fl) :
    checkThreshold baseline metrics key (.change a r d) (.num x) = .ok true ↔
      (∀ b, a = some b → Good d x b) ∧
      (∀ b, r = some b → ∃ name y, baseline = some name ∧
        Dict.get? metrics (key.makeBaselineKey name) = some (.num y) ∧ y ≠ .fin 0 ∧ Good d (x.div y) b) := by
  have habs : checkAbsolute a d x = .ok true ↔ (∀ b, a = some b → Good d x b) := by
    cases a with
    | none => simp [checkAbsolute]
    | some b => simp [checkAbsolute, onGoodSide_iff]
  have hnan : ∀ b, ¬ Good d .nan b := by intro b; simp [Good, Fl.le]; cases b <;> simp [Fl.le]
  have hrel : checkRelative baseline metrics key r d x = .ok true ↔
      (∀ b, r = some b → ∃ name y, baseline = some name ∧
        Dict.get? metrics (key.makeBaselineKey name) = some (.num y) ∧ y ≠ .fin 0 ∧ Good d (x.div y) b) := by
    cases r with
    | none => simp [checkRelative]
    | some b =>
      simp only [checkRelative, baselineValue, Option.some.injEq, forall_eq']
      cases baseline with
      | none => simp [bind, Except.bind]
      | some name =>
        cases hm : Dict.get? metrics (key.makeBaselineKey name) with
        | none => simp [bind, Except.bind, hm]
        | some m =>
          cases m with
          | raises e => simp [bind, Except.bind, MetricValue.float, hm]
          | num y =>
            simp only [hm]
            show onGoodSide d (ratio x y) b = .ok true ↔ _
            rw [onGoodSide_iff, ratio]
            by_cases h0 : y = .fin 0
            · subst h0
              simp [isZero, hnan, hm]
            · have : isZero y = false := by
                cases y <;> simp_all [isZero]
              simp only [this, Bool.false_eq_true, if_false]
              constructor
              · intro h; exact ⟨name, y, rfl, hm, h0, h⟩
              · rintro ⟨n, y', hn, hy, _, h⟩
                cases hn
                rw [hm] at hy
                cases hy
                exact h
  rw [← habs, ← hrel]
  simp only [checkThreshold, MetricValue.float, bind, Except.bind]
  cases checkAbsolute a d x with
  | error e => simp
  | ok ra =>
    cases checkRelative baseline metrics key r d x with
    | error e => simp
    | ok rr => simp [pure, Except.pure]

/-- C36: finite change and finite non-zero baseline value, both bounds set, higher is better. -/
theorem C36_higher (a r x y : ℚ) (name : String) (hb : baseline = some name) (hy : y ≠ 0)
    (hm : Dict.get? metrics (key.makeBaselineKey name) = some (.num (.fin y))) :
    checkThreshold baseline metrics key (.change (some (.fin a)) (some (.fin r)) .higherIsBetter) (.num (.fin x)) =
      .ok (decide (a ≤ x ∧ r ≤ x / y)) := by
  subst hb
  simp [checkThreshold, MetricValue.float, bind, Except.bind, pure, Except.pure, checkAbsolute, checkRelative,
    baselineValue, hm, ratio, isZero, hy, onGoodSide, Fl.le, Fl.div, Bool.decide_and]

/-- C36: lower is better. -/
theorem C36_lower (a r x y : ℚ) (name : String) (hb : baseline = some name) (hy : y ≠ 0)
    (hm : Dict.get? metrics (key.makeBaselineKey name) = some (.num (.fin y))) :
    checkThreshold baseline metrics key (.change (some (.fin a)) (some (.fin r)) .lowerIsBetter) (.num (.fin x)) =
      .ok (decide (x ≤ a ∧ x / y ≤ r)) := by
  subst hb
  simp [checkThreshold, MetricValue.float, bind, Except.bind, pure, Except.pure, checkAbsolute, checkRelative,
    baselineValue, hm, ratio, isZero, hy, onGoodSide, Fl.le, Fl.div, Bool.decide_and]

/-- C36: a bound without direction never passes. -/
theorem C36_unknown (a r : Option Fl) (h : a ≠ none ∨ r ≠ none) (m : MetricValue) :
    checkThreshold baseline metrics key (.change a r .unknown) m ≠ .ok true := by
  intro h'
  cases m with
  | raises e => simp [checkThreshold, MetricValue.float, bind, Except.bind] at h'
  | num x =>
    rw [C36_change] at h'
    rcases h with h | h
    · obtain ⟨b, hb⟩ := Option.ne_none_iff_exists'.1 h
      have := h'.1 b hb
      simp [Good] at this
    · obtain ⟨b, hb⟩ := Option.ne_none_iff_exists'.1 h
      obtain ⟨_, _, _, _, _, this⟩ := h'.2 b hb
      simp [Good] at this

/-! ### C35 -/

/-- C35: NaN passes no value threshold (with or without bounds) and no change threshold that has a bound. -/
theorem C35_nan (t : Threshold) (h : ∀ d, t ≠ .change none none d) :
    checkThreshold baseline metrics key t (.num .nan) ≠ .ok true := by
  intro h'
  cases t with
  | value l u =>
    simp only [checkThreshold, MetricValue.float, bind, Except.bind, pure, Except.pure, Except.ok.injEq,
      Bool.and_eq_true] at h'
    have := h'.2
    simp [Fl.le] at this
  | change a r d =>
    rw [C36_change] at h'
    have hg : ∀ b, ¬ Good d .nan b := by intro b; simp [Good, Fl.le]; cases b <;> simp [Fl.le]
    cases a with
    | some b => exact hg _ (h'.1 b rfl)
    | none =>
      cases r with
      | none => exact h d rfl
      | some b =>
        obtain ⟨_, y, _, _, _, this⟩ := h'.2 b rfl
        exact hg _ (by simpa [Fl.div] using this)

/-- C35: a relative change threshold never passes when the baseline is zero, NaN or missing, whatever the change. -/
theorem C35_ratio (a : Option Fl) (r : Fl) (d : Direction) (x : MetricValue)
    (hb : ∀ name, baseline = some name → Dict.get? metrics (key.makeBaselineKey name) = none ∨
      Dict.get? metrics (key.makeBaselineKey name) = some (.num (.fin 0)) ∨
      Dict.get? metrics (key.makeBaselineKey name) = some (.num .nan)) :
    checkThreshold baseline metrics key (.change a (some r) d) x ≠ .ok true := by
  intro h'
  cases x with
  | raises e => simp [checkThreshold, MetricValue.float, bind, Except.bind] at h'
  | num x =>
    rw [C36_change] at h'
    obtain ⟨name, y, h1, h2, h3, h4⟩ := h'.2 r rfl
    rcases hb name h1 with h | h | h
    · rw [h] at h2; cases h2
    · rw [h] at h2; cases h2; exact h3 rfl
    · rw [h] at h2; cases h2
      have : x.div .nan = .nan := by cases x <;> rfl
      rw [this] at h4
      revert h4
      simp only [Good]
      cases r <;> simp [Fl.le]

/-- C35 (boundary): a change threshold without any bound passes NaN. -/
theorem C35_no_bound (d : Direction) :
    checkThreshold baseline metrics key (.change none none d) (.num .nan) = .ok true := rfl

/-! ### C34 -/

/-- The threshold is meant for the slice: no spec for every ordinary slice, a slicing spec for the slices it
applies to, a cross slicing spec for the cross slices it applies to. -/
def Concerns (c : NumCodec) : Key → Option SliceSpec → Prop
  | .ordinary _, none => True
  | .ordinary k, some (.single s) => s.isSliceApplicable c k = true
  | .cross x y, some (.cross b cs) => b.isSliceApplicable c x = true ∧ ∃ s ∈ cs, s.isSliceApplicable c y = true
  | _, _ => False

/-- What the code does for missing metrics: thresholds of slicing specs count for all ordinary slices. -/
def ConcernsLoosely (c : NumCodec) : Key → Option SliceSpec → Prop
  | .ordinary _, some (.single _) => True
  | k, s => Concerns c k s

theorem applies_iff (k : Key) (s : Option SliceSpec) : applies c k s = true ↔ Concerns c k s := by
  cases k <;> rcases s with _ | s <;> try cases s
  all_goals simp [applies, Concerns, crossApplicable, Key.isCross]

theorem appliesMissing_iff (k : Key) (s : Option SliceSpec) : appliesMissing c k s = true ↔ ConcernsLoosely c k s := by
  cases k <;> rcases s with _ | s <;> try cases s
  all_goals simp [appliesMissing, Concerns, ConcernsLoosely, crossApplicable, Key.isCross]

/-- The metric is a number that satisfies the threshold. -/
def Passes (baseline : Option String) (metrics : Metrics) (key : MetricKey) (t : Threshold) (m : MetricValue) : Prop :=
  checkThreshold baseline metrics key t m = .ok true

theorem tryCheck_true {t : Threshold} {m : MetricValue} {b : Bool} {msg : Message}
    (h : tryCheck baseline metrics key t m = .ok (b, msg)) : b = true ↔ Passes baseline metrics key t m := by
  unfold tryCheck at h
  unfold Passes
  split at h
  · rename_i b' h'
    cases h
    rw [h']
    simp
  · rename_i h'
    cases h
    rw [h']
    simp
  · cases h

private theorem checkMetric_nil {sk : Key} {m : MetricValue} {ts : List SliceThreshold} {seen} {fs ds}
    (h : checkMetric c baseline metrics sk key m ts seen = .ok (fs, ds)) (hs : ∀ b ∈ seen, ∃ s t,
      Concerns c sk s ∧ ¬ Passes baseline metrics key t m ∧ t.bytes = b) :
    (fs = [] → seen = [] → ∀ p ∈ ts, Concerns c sk p.1 → Passes baseline metrics key p.2 m) ∧
    ((∀ p ∈ ts, Concerns c sk p.1 → Passes baseline metrics key p.2 m) → fs = []) := by
  induction ts generalizing seen fs ds with
  | nil => cases h; simp
  | cons p rest ih =>
    obtain ⟨s, t⟩ := p
    unfold checkMetric at h
    split at h
    · rename_i ha
      have ha' : ¬ Concerns c sk s := by
        rw [← applies_iff]; simpa using ha
      obtain ⟨i1, i2⟩ := ih h hs
      refine ⟨fun h1 h2 p hp => ?_, fun h1 => i2 fun p hp => h1 p (by simp [hp])⟩
      rcases List.mem_cons.1 hp with rfl | hp
      · exact fun h3 => absurd h3 ha'
      · exact i1 h1 h2 p hp
    · rename_i ha
      have ha' : Concerns c sk s := by
        rw [← applies_iff]; simpa using ha
      cases hc : tryCheck baseline metrics key t m with
      | error e => rw [hc] at h; cases h
      | ok r =>
        obtain ⟨b, msg⟩ := r
        rw [hc] at h
        have hb := tryCheck_true hc
        simp only [bind, Except.bind] at h
        cases b with
        | true =>
          simp only [if_true] at h
          cases hr : checkMetric c baseline metrics sk key m rest seen with
          | error e => rw [hr] at h; cases h
          | ok r =>
            obtain ⟨fs', ds'⟩ := r
            rw [hr] at h
            cases h
            obtain ⟨i1, i2⟩ := ih hr hs
            refine ⟨fun h1 h2 p hp => ?_, fun h1 => i2 fun p hp => h1 p (by simp [hp])⟩
            rcases List.mem_cons.1 hp with rfl | hp
            · exact fun _ => hb.1 rfl
            · exact i1 h1 h2 p hp
        | false =>
          have hnp : ¬ Passes baseline metrics key t m := fun h => by simpa using hb.2 h
          simp only [Bool.false_eq_true, if_false] at h
          split at h
          · rename_i hseen
            refine ⟨fun _ h2 => ?_, fun h1 => absurd (h1 (s, t) (by simp) ha') hnp⟩
            rw [h2] at hseen; simp at hseen
          · refine ⟨fun h1 => ?_, fun h1 => absurd (h1 (s, t) (by simp) ha') hnp⟩
            exfalso
            cases hf : m.float with
            | error e => rw [hf] at h; cases h
            | ok x =>
              rw [hf] at h
              simp only at h
              cases hr : checkMetric c baseline metrics sk key m rest (t.bytes :: seen) with
              | error e => rw [hr] at h; cases h
              | ok r => rw [hr] at h; cases h; cases h1

private theorem checkMetrics_nil {all : Metrics} {th : Thresholds} {sk : Key} {ms : Metrics} {fs ds}
    (h : checkMetrics c baseline all th sk ms = .ok (fs, ds)) :
    fs = [] ↔ ∀ km ∈ ms, ∀ ts, Dict.get? th km.1 = some ts → baseline ≠ some km.1.modelName →
      ∀ p ∈ ts, Concerns c sk p.1 → Passes baseline all km.1 p.2 km.2 := by
  induction ms generalizing fs ds with
  | nil => cases h; simp
  | cons km rest ih =>
    obtain ⟨k, m⟩ := km
    unfold checkMetrics at h
    split at h
    · rename_i hk
      rw [ih h]
      simp [hk]
    · rename_i ts hk
      split at h
      · rename_i hb
        rw [ih h]
        simp [hb]
      · rename_i hb
        cases hc : checkMetric c baseline all sk k m ts [] with
        | error e => rw [hc] at h; cases h
        | ok r =>
          obtain ⟨fs1, ds1⟩ := r
          cases hr : checkMetrics c baseline all th sk rest with
          | error e => rw [hc, hr] at h; cases h
          | ok r =>
            obtain ⟨fs2, ds2⟩ := r
            rw [hc, hr] at h
            cases h
            have h1 := checkMetric_nil hc (by simp)
            rw [List.append_eq_nil_iff, ih hr]
            simp only [List.mem_cons, forall_eq_or_imp, hk, Option.some.injEq, forall_eq']
            constructor
            · rintro ⟨a, b⟩; exact ⟨fun _ => h1.1 a rfl, b⟩
            · rintro ⟨a, b⟩; exact ⟨h1.2 (a hb), b⟩

private theorem missingMetric_nil (sk : Key) (k : MetricKey) (ts : List SliceThreshold) :
    missingMetric c sk k ts [] = [] ↔ ∀ p ∈ ts, ¬ ConcernsLoosely c sk p.1 := by
  induction ts with
  | nil => simp [missingMetric]
  | cons p rest ih =>
    obtain ⟨s, t⟩ := p
    unfold missingMetric
    by_cases h : appliesMissing c sk s = true
    · simp [h, (appliesMissing_iff sk s).1 h]
    · have h' : ¬ ConcernsLoosely c sk s := by rw [← appliesMissing_iff]; exact h
      simp only [h, Bool.not_false, Bool.not_eq_true] at *
      simp [h, ih, h']

private theorem missingMetrics_nil (sk : Key) (th : Thresholds) :
    missingMetrics c baseline sk th = [] ↔ ∀ kt ∈ th, baseline ≠ some kt.1.modelName →
      ∀ p ∈ kt.2, ¬ ConcernsLoosely c sk p.1 := by
  induction th with
  | nil => simp [missingMetrics]
  | cons kt rest ih =>
    obtain ⟨k, ts⟩ := kt
    unfold missingMetrics
    by_cases h : baseline = some k.modelName
    · rw [if_pos h, ih]
      simp [h]
    · rw [if_neg h, List.append_eq_nil_iff, missingMetric_nil, ih]
      simp [h]

/-- The exact meaning of the verdict for one slice. -/
private theorem ok_iff {th : Thresholds} {sk : Key} (hth : Dict.WF th) (hm : Dict.WF metrics) {r : Result}
    (h : validate c baseline th sk metrics = .ok r) :
    r.ok = true ↔ ∀ k ts, (k, ts) ∈ th → baseline ≠ some k.modelName → ∀ s t, (s, t) ∈ ts →
      (∀ m, Dict.get? metrics k = some m → Concerns c sk s → Passes baseline metrics k t m) ∧
      (Dict.get? metrics k = none → ¬ ConcernsLoosely c sk s) := by
  unfold validate at h
  cases hc : checkMetrics c baseline metrics th sk metrics with
  | error e => rw [hc] at h; cases h
  | ok r' =>
    obtain ⟨fs, ds⟩ := r'
    rw [hc] at h
    cases h
    simp only [List.isEmpty_iff, List.append_eq_nil_iff, checkMetrics_nil hc, missingMetrics_nil]
    constructor
    · rintro ⟨h1, h2⟩ k ts hk hb s t hst
      refine ⟨fun m hm' hcon => h1 (k, m) (Dict.mem_of_get? hm') ts (Dict.get?_of_mem hth hk) hb (s, t) hst hcon, ?_⟩
      intro hn
      exact h2 (k, ts) (by simp [hk, Dict.has, hn]) hb (s, t) hst
    · intro h
      refine ⟨fun km hkm ts hts hb p hp hcon => ?_, fun kt hkt hb p hp => ?_⟩
      · exact (h km.1 ts (Dict.mem_of_get? hts) hb p.1 p.2 hp).1 km.2 (Dict.get?_of_mem hm hkm) hcon
      · simp only [List.mem_filter, Dict.has, Bool.not_eq_true', Option.isSome_eq_false_iff, Option.isNone_iff_eq_none] at hkt
        exact (h kt.1 kt.2 hkt.1 hb p.1 p.2 hp).2 hkt.2

/-- C34, safe direction: if the verdict of a slice is ok then every threshold of a non-baseline model that concerns
the slice has its metric, and the metric satisfies it. -/
theorem C34_ok_sound {th : Thresholds} {sk : Key} (hth : Dict.WF th) (hm : Dict.WF metrics) {r : Result}
    (h : validate c baseline th sk metrics = .ok r) (hok : r.ok = true) (k : MetricKey) (ts : List SliceThreshold)
    (hk : (k, ts) ∈ th) (hb : baseline ≠ some k.modelName) (s : Option SliceSpec) (t : Threshold) (hst : (s, t) ∈ ts)
    (hcon : Concerns c sk s) : ∃ m, Dict.get? metrics k = some m ∧ Passes baseline metrics k t m := by
  have := (ok_iff hth hm h).1 hok k ts hk hb s t hst
  cases hg : Dict.get? metrics k with
  | none =>
    exfalso
    apply this.2 hg
    unfold ConcernsLoosely
    split
    · trivial
    · exact hcon
  | some m => exact ⟨m, rfl, this.1 m hg hcon⟩

/-- C34: the verdict is ok exactly if every threshold that concerns the slice has its metric and is satisfied,
provided that a metric missing from the slice has no threshold for slicing specs that do not apply to the slice.
Without the proviso the statement is false (`C34_missing_elsewhere`). -/
theorem C34_ok_iff_partial {th : Thresholds} {sk : Key} (hth : Dict.WF th) (hm : Dict.WF metrics) {r : Result}
    (h : validate c baseline th sk metrics = .ok r)
    (hmiss : ∀ k ts, (k, ts) ∈ th → baseline ≠ some k.modelName → Dict.get? metrics k = none →
      ∀ s t, (some (.single s), t) ∈ ts → ∀ q, sk = .ordinary q → s.isSliceApplicable c q = true) :
    r.ok = true ↔ ∀ k ts, (k, ts) ∈ th → baseline ≠ some k.modelName → ∀ s t, (s, t) ∈ ts → Concerns c sk s →
      ∃ m, Dict.get? metrics k = some m ∧ Passes baseline metrics k t m := by
  constructor
  · intro hok k ts hk hb s t hst hcon
    exact C34_ok_sound hth hm h hok k ts hk hb s t hst hcon
  · intro hall
    rw [ok_iff hth hm h]
    intro k ts hk hb s t hst
    refine ⟨fun m hm' hcon => ?_, fun hn hcon => ?_⟩
    · obtain ⟨m', h1, h2⟩ := hall k ts hk hb s t hst hcon
      rw [hm'] at h1
      cases h1
      exact h2
    · have hcon' : Concerns c sk s := by
        unfold ConcernsLoosely at hcon
        split at hcon
        · exact hmiss k ts hk hb hn _ t hst _ rfl
        · exact hcon
      obtain ⟨m', h1, _⟩ := hall k ts hk hb s t hst hcon'
      rw [hn] at h1
      cases h1

def k0 : MetricKey := { name := "m" }

/-- C34 (negation): the metric of a threshold for the slices of "age" is missing; the overall slice, which the threshold
does not concern, fails too. -/
theorem C34_missing_elsewhere :
    ∃ r, validate c none [(k0, [(some (.single ⟨["age"], []⟩), .value none none)])] (.ordinary []) [] = .ok r ∧
      r.ok = false ∧ ¬ Concerns c (.ordinary []) (some (.single ⟨["age"], []⟩)) := by
  refine ⟨_, rfl, rfl, ?_⟩
  simp [Concerns, Spec.isSliceApplicable, applicableLoop]

/-- C34 (negation): a metric that is not a number (a text that `float` rejects with ValueError) is meant to be a failure
with a message; validation raises the error instead when it copies the metric to the failure. -/
theorem C34_invalid_raises :
    validate c none [(k0, [(none, .value none none)])] (.ordinary []) [(k0, .raises .valueError)] =
      .error .valueError := rfl

/-- C34: validation never raises if the metrics with thresholds are numbers and no threshold is relative. -/
theorem C34_total (th : Thresholds) (sk : Key) (hnum : ∀ k m, (k, m) ∈ metrics → ∃ x, m = .num x)
    (hrel : ∀ k ts, (k, ts) ∈ th → ∀ s a r d, (s, Threshold.change a r d) ∈ ts → r = none) :
    ∃ r, validate c baseline th sk metrics = .ok r := by
  have h1 : ∀ k x ts seen, (∀ s a r d, (s, Threshold.change a r d) ∈ ts → r = none) →
      ∃ p, checkMetric c baseline metrics sk k (.num x) ts seen = .ok p := by
    intro k x ts
    induction ts with
    | nil => intro seen _; exact ⟨_, rfl⟩
    | cons p rest ih =>
      obtain ⟨s, t⟩ := p
      intro seen hr
      have ih' := fun seen => ih seen fun s a r d h => hr s a r d (by simp [h])
      have ht : ∃ b, tryCheck baseline metrics k t (.num x) = .ok b := by
        cases t with
        | value l u => exact ⟨_, rfl⟩
        | change a r d =>
          have := hr s a r d (by simp)
          subst this
          unfold tryCheck checkThreshold
          simp only [MetricValue.float, bind, Except.bind, checkRelative]
          cases a with
          | none => exact ⟨_, rfl⟩
          | some b => cases d <;> exact ⟨_, rfl⟩
      unfold checkMetric
      obtain ⟨⟨b, msg⟩, hb⟩ := ht
      rw [hb]
      simp only [bind, Except.bind, MetricValue.float]
      split
      · exact ih' seen
      · split
        · obtain ⟨p, hp⟩ := ih' seen
          rw [hp]; exact ⟨_, rfl⟩
        · split
          · exact ih' seen
          · obtain ⟨p, hp⟩ := ih' (t.bytes :: seen)
            rw [hp]; exact ⟨_, rfl⟩
  have h2 : ∀ ms : Metrics, (∀ km ∈ ms, km ∈ metrics) → ∃ p, checkMetrics c baseline metrics th sk ms = .ok p := by
    intro ms
    induction ms with
    | nil => intro _; exact ⟨_, rfl⟩
    | cons km rest ih =>
      obtain ⟨k, m⟩ := km
      intro hsub
      obtain ⟨q, hq⟩ := ih fun km h => hsub km (by simp [h])
      unfold checkMetrics
      split
      · exact ⟨q, hq⟩
      · rename_i ts hts
        split
        · exact ⟨q, hq⟩
        · obtain ⟨x, rfl⟩ := hnum k m (hsub (k, m) (by simp))
          obtain ⟨p, hp⟩ := h1 k x ts [] (hrel k ts (Dict.mem_of_get? hts))
          rw [hp, hq]
          exact ⟨_, rfl⟩
  obtain ⟨p, hp⟩ := h2 metrics fun _ h => h
  exact ⟨_, by unfold validate; rw [hp]; rfl⟩

/-- A satisfied and a violated threshold. -/
example : (validate c none [(k0, [(none, .value (some (.fin 1)) none)])] (.ordinary []) [(k0, .num (.fin 1))]).map
    Result.ok = .ok true ∧
  (validate c none [(k0, [(none, .value (some (.fin 1)) none)])] (.ordinary []) [(k0, .num (.fin 0))]).map
    Result.ok = .ok false := by
  constructor <;> rfl

end Validation
end TFMA
