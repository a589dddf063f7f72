import Verif.Props.Plots

/-!
# C104: score distribution plots
-/

namespace TFMA
namespace Plots

open Beam

/-! ### Specification -/

/-- Total weight of the scores above, and of those at or below, the threshold. -/
def weightAbove (t : Fl) (xs : List (ℚ × ℚ)) : ℚ := ((xs.filter fun x => Fl.lt t (.fin x.1)).map Prod.snd).sum
def weightUpTo (t : Fl) (xs : List (ℚ × ℚ)) : ℚ := ((xs.filter fun x => !Fl.lt t (.fin x.1)).map Prod.snd).sum

/-- A score that is accepted as a label: within 1e-7 of the interval from 0 to 1. -/
def ScoreOk (q : ℚ) : Prop := -1 / 10000000 ≤ q ∧ q ≤ 1 + 1 / 10000000

/-! ### Helpers -/

private theorem scoreRows_ok (x : ℚ × ℚ) (h : ScoreOk x.1) :
    ∃ rows, scoreRows x = .ok rows ∧ (∀ r ∈ rows, r.pred = .fin x.1) ∧ (rows.map Bcm.Row.weight).sum = x.2 := by
  have hin : Inputs.withinInterval x.1 0 1 = true := by
    unfold Inputs.withinInterval Inputs.epsilon
    simp only [Bool.and_eq_true, decide_eq_true_eq]
    constructor <;> linarith [h.1, h.2]
  refine ⟨([((0 : ℚ), x.2 * (1 - x.1)), (1, x.2 * x.1)].filter fun lw => !Inputs.mathIsClose lw.2 0).map fun lw =>
    ⟨.fin lw.1, .fin x.1, lw.2⟩, ?_, ?_, ?_⟩
  · simp only [scoreRows, Inputs.fractionalLabels, Inputs.one, hin, bind, Except.bind, pure, Except.pure, Bool.not_true,
      Bool.false_eq_true, if_false, List.map_map]
    rfl
  · intro r hr
    obtain ⟨_, _, rfl⟩ := List.mem_map.1 hr
    rfl
  · rw [List.map_map]
    by_cases h1 : x.2 * (1 - x.1) = 0 <;> by_cases h2 : x.2 * x.1 = 0 <;>
      simp [List.filter_cons, Inputs.mathIsClose_zero, ← Bool.not_eq_true, h1, h2] <;> linarith

private theorem scoreRows_error (x : ℚ × ℚ) (h : ¬ ScoreOk x.1) : scoreRows x = .error .valueError := by
  have : Inputs.fractionalLabels ⟨Inputs.one x.1, Inputs.one (.fin x.1), Inputs.one x.2⟩ = .error .valueError := by
    rw [Inputs.C27_rejects_iff]
    unfold ScoreOk at h
    rcases not_and_or.1 h with h | h
    · left; push Not at h; exact h
    · right; push Not at h; exact h
  simp only [scoreRows, this, bind, Except.bind]

private theorem mapE_scores (xs : List (ℚ × ℚ)) (h : ∀ x ∈ xs, ScoreOk x.1) :
    ∃ rows, Inputs.mapE scoreRows xs = .ok rows ∧
      ∀ p : ℚ → Prop, ∀ [DecidablePred p], ∀ P : Bcm.Row → Prop, ∀ [DecidablePred P], (∀ r q, r.pred = .fin q → (P r ↔ p q)) →
        Bcm.weightWhere P rows.flatten = ((xs.filter fun x => decide (p x.1)).map Prod.snd).sum := by
  induction xs with
  | nil => exact ⟨[], rfl, by intros; rfl⟩
  | cons x xs ih =>
    obtain ⟨rows, h1, h2⟩ := ih fun y hy => h y (by simp [hy])
    obtain ⟨rs, e1, e2, e3⟩ := scoreRows_ok x (h x (by simp))
    refine ⟨rs :: rows, by simp only [Inputs.mapE, e1, h1, bind, Except.bind, pure, Except.pure], ?_⟩
    intro p _ P _ hP
    have : Bcm.weightWhere P rs = if p x.1 then x.2 else 0 := by
      unfold Bcm.weightWhere
      by_cases hp : p x.1
      · rw [if_pos hp, List.filter_eq_self.2, e3]
        intro r hr
        simpa using (hP r _ (e2 r hr)).2 hp
      · rw [if_neg hp, List.filter_eq_nil_iff.2]
        · rfl
        · intro r hr
          simpa using mt (hP r _ (e2 r hr)).1 hp
    have happ : Bcm.weightWhere P (rs ++ rows.flatten) = Bcm.weightWhere P rs + Bcm.weightWhere P rows.flatten := by
      unfold Bcm.weightWhere; simp
    rw [List.flatten_cons, happ, this, h2 p P hP]
    by_cases hp : p x.1 <;> simp [hp]

private theorem lt_decide (t : Fl) (q : ℚ) : decide (Fl.lt t (.fin q) = true) = Fl.lt t (.fin q) := by simp

/-- What the combiner has to hold for the rows of a list of scores, after the negative and positive parts are joined. -/
private theorem collapse_matrix (t : Fl) (xs : List (ℚ × ℚ)) (rows : List (List Bcm.Row))
    (h : ∀ p : ℚ → Prop, ∀ [DecidablePred p], ∀ P : Bcm.Row → Prop, ∀ [DecidablePred P],
      (∀ r q, r.pred = .fin q → (P r ↔ p q)) →
        Bcm.weightWhere P rows.flatten = ((xs.filter fun x => decide (p x.1)).map Prod.snd).sum) :
    let m := Bcm.matrixOf true t rows.flatten
    m.tp + m.fp = weightAbove t xs ∧ m.tn + m.fn = weightUpTo t xs := by
  have split : ∀ (rs : List Bcm.Row) (A B : Bcm.Row → Prop) [DecidablePred A] [DecidablePred B],
      Bcm.weightWhere (fun r => A r ∧ B r) rs + Bcm.weightWhere (fun r => ¬ A r ∧ B r) rs = Bcm.weightWhere B rs := by
    intro rs A B _ _
    unfold Bcm.weightWhere
    induction rs with
    | nil => simp
    | cons r rs ih =>
      by_cases ha : A r <;> by_cases hb : B r <;> simp [ha, hb] at ih ⊢ <;> linarith
  simp only [Bcm.matrixOf]
  refine ⟨?_, ?_⟩
  · rw [split, h (fun q => Fl.lt t (.fin q) = true) _ (by intro r q hr; rw [hr])]
    simp [weightAbove]
  · rw [add_comm, split, h (fun q => ¬ Fl.lt t (.fin q) = true) _ (by intro r q hr; rw [hr])]
    simp [weightUpTo]

private theorem scoreExample_ok (xs : List (ℚ × ℚ)) (h : ∀ x ∈ xs, ScoreOk x.1) :
    ∃ rows, Inputs.mapE scoreRows xs = .ok rows ∧ scoreExample xs = .ok ⟨rows.flatten, none⟩ := by
  obtain ⟨rows, h1, _⟩ := mapE_scores xs h
  exact ⟨rows, h1, by simp only [scoreExample, h1, bind, Except.bind, pure, Except.pure]⟩

private theorem mapE_append {β γ : Type} (f : β → Except Err γ) (a b : List β) (x y : List γ) (h1 : Inputs.mapE f a = .ok x)
    (h2 : Inputs.mapE f b = .ok y) : Inputs.mapE f (a ++ b) = .ok (x ++ y) := by
  induction a generalizing x with
  | nil => simp only [Inputs.mapE, Except.ok.injEq] at h1; subst h1; exact h2
  | cons u a ih =>
    simp only [Inputs.mapE, bind, Except.bind, pure, Except.pure] at h1
    cases hu : f u with
    | error e => rw [hu] at h1; cases h1
    | ok v =>
      rw [hu] at h1
      cases ha : Inputs.mapE f a with
      | error e => rw [ha] at h1; cases h1
      | ok w =>
        rw [ha] at h1
        simp only [Except.ok.injEq] at h1
        subst h1
        simp only [List.cons_append, Inputs.mapE, hu, ih w ha, bind, Except.bind, pure, Except.pure]

private theorem allOk_scores (data : List (List (ℚ × ℚ))) (h : ∀ x ∈ data.flatten, ScoreOk x.1) :
    ∃ es rows, Bcm.allOk (data.map scoreExample) = some es ∧ Inputs.mapE scoreRows data.flatten = .ok rows ∧
      (es.map Bcm.Example.rows).flatten = rows.flatten := by
  induction data with
  | nil => exact ⟨[], [], rfl, rfl, rfl⟩
  | cons xs data ih =>
    obtain ⟨es, rows, h1, h2, h3⟩ := ih fun x hx => h x (by simp [hx])
    obtain ⟨rs, e1, e2⟩ := scoreExample_ok xs fun x hx => h x (by simp [hx])
    refine ⟨⟨rs.flatten, none⟩ :: es, rs ++ rows, ?_, ?_, ?_⟩
    · unfold Bcm.allOk at h1 ⊢
      simp only [List.map_cons, Combiners.collect, e2, h1, Except.toOption]
    · rw [List.flatten_cons]; exact mapE_append _ _ _ _ _ e1 h2
    · simp [h3]

private theorem thresholds_nodup (n : ℕ) (hn : 0 < n) :
    (Fl.fin (-1 / 1000000) :: (List.range (n + 1)).map fun (i : ℕ) => Fl.fin ((i : ℚ) / n)).Nodup := by
  obtain ⟨ts, h1, _, h3, _⟩ := C103_thresholds n hn
  rw [plotThresholds, if_neg (by omega), Except.ok.injEq] at h1
  rw [h1]
  refine List.Nodup.map (fun a b h => by simpa using h) (h3.imp fun h => ne_of_lt h)

/-! ### Theorems -/

/-- C104: for scores within [0, 1], and every bundling, the rows of a score distribution plot hold in order of the thresholds
the weight of the scores above the threshold as true positives and of all others as true negatives. -/
theorem C104_plot (n : ℕ) (hn : 0 < n) (data : List (List (ℚ × ℚ))) (h : ∀ x ∈ data.flatten, ScoreOk x.1)
    (s : Sched (Except Err Bcm.Example)) (hs : s.inputs.Perm (data.map scoreExample)) :
    ∃ rows ts, scoreDistribution n s = .ok rows ∧ plotThresholds n = .ok ts ∧
      (rows.map fun r => (r.threshold, r.tp, r.fp, r.tn, r.fn, r.precision, r.recall)) =
        ts.map fun t => (round6 t, weightAbove t data.flatten, 0, weightUpTo t data.flatten, 0, .fin 0, .fin 0) := by
  obtain ⟨es, rows, h1, h2, h3⟩ := allOk_scores data h
  obtain ⟨rows', h2', h4⟩ := mapE_scores data.flatten h
  rw [h2, Except.ok.injEq] at h2'
  subst h2'
  have hts : plotThresholds n =
      .ok (.fin (-1 / 1000000) :: (List.range (n + 1)).map fun (i : ℕ) => Fl.fin ((i : ℚ) / n)) := by
    rw [plotThresholds, if_neg (by omega)]
  have hnd := thresholds_nodup n hn
  generalize (Fl.fin (-1 / 1000000) :: (List.range (n + 1)).map fun (i : ℕ) => Fl.fin ((i : ℚ) / n)) = ts at hts hnd
  have hm := Bcm.C17_matrices ⟨ts, 0, true⟩ hnd (data.map scoreExample) s hs
  rw [h1, Option.map_some, h3] at hm
  cases hr : (Bcm.combiner ⟨ts, 0, true⟩).run s with
  | error e => rw [hr] at hm; simp [Except.bind, Except.toOption] at hm
  | ok a =>
    rw [hr] at hm
    simp only [Except.bind] at hm
    cases hq : Bcm.toMatrices (Bcm.extract ⟨ts, 0, true⟩ a) ts with
    | error e => rw [hq] at hm; simp [Except.toOption] at hm
    | ok ms =>
      rw [hq] at hm
      simp only [Except.toOption, Option.map_some, Option.some.injEq] at hm
      refine ⟨(toProto (ms.map Prod.fst)).map collapse, ts, ?_, hts, ?_⟩
      · simp only [scoreDistribution, hts, hr, hq, bind, Except.bind, pure, Except.pure]
      · rw [hm]
        simp only [toProto, List.map_map]
        apply List.map_congr_left
        intro t _
        obtain ⟨c1, c2⟩ := collapse_matrix t data.flatten rows h4
        simp only [Function.comp_def, collapse, plotRow]
        rw [c1, c2]

/-- Every row holds the total weight. -/
theorem C104_total (t : Fl) (xs : List (ℚ × ℚ)) : weightAbove t xs + weightUpTo t xs = (xs.map Prod.snd).sum := by
  unfold weightAbove weightUpTo
  induction xs with
  | nil => simp
  | cons x xs ih =>
    by_cases h : Fl.lt t (.fin x.1) = true <;> simp [h] at ih ⊢ <;> linarith

/-- C104: a single score outside [0, 1] by more than 1e-7 (as for a regression model) makes the whole plot fail, although no
label is involved. -/
theorem C104_out_of_range (n : ℕ) (hn : 0 < n) (data : List (List (ℚ × ℚ))) (x : ℚ × ℚ) (hx : x ∈ data.flatten)
    (h : ¬ ScoreOk x.1) (s : Sched (Except Err Bcm.Example)) (hs : s.inputs.Perm (data.map scoreExample)) :
    ∀ rows, scoreDistribution n s ≠ .ok rows := by
  have hbad : Bcm.allOk (data.map scoreExample) = none := by
    obtain ⟨xs, hxs, hx⟩ := List.mem_flatten.1 hx
    have hE : ∃ e, Inputs.mapE scoreRows xs = .error e := by
      clear hxs
      induction xs with
      | nil => cases hx
      | cons y ys ih =>
        simp only [Inputs.mapE, bind, Except.bind, pure, Except.pure]
        cases hy : scoreRows y with
        | error e => exact ⟨e, rfl⟩
        | ok r =>
          have hne : x ≠ y := by
            rintro rfl
            rw [scoreRows_error x h] at hy; cases hy
          obtain ⟨e, he⟩ := ih (by simpa [hne] using hx)
          exact ⟨e, by simp [he]⟩
    obtain ⟨e, he⟩ := hE
    have hs : scoreExample xs = .error e := by simp only [scoreExample, he, bind, Except.bind]
    have gen : ∀ d : List (List (ℚ × ℚ)), xs ∈ d → Bcm.allOk (d.map scoreExample) = none := by
      intro d hd
      unfold Bcm.allOk
      induction d with
      | nil => cases hd
      | cons ys d ih =>
        rcases List.mem_cons.1 hd with rfl | hd
        · simp only [List.map_cons, Combiners.collect, hs, Except.toOption]
        · simp only [List.map_cons, Combiners.collect, ih hd]
          cases (scoreExample ys).toOption <;> rfl
    exact gen data hxs
  intro rows hrows
  have hts : plotThresholds n =
      .ok (.fin (-1 / 1000000) :: (List.range (n + 1)).map fun (i : ℕ) => Fl.fin ((i : ℚ) / n)) := by
    rw [plotThresholds, if_neg (by omega)]
  have hnd := thresholds_nodup n hn
  generalize (Fl.fin (-1 / 1000000) :: (List.range (n + 1)).map fun (i : ℕ) => Fl.fin ((i : ℚ) / n)) = ts at hts hnd
  have hm := Bcm.C17_matrices ⟨ts, 0, true⟩ hnd (data.map scoreExample) s hs
  rw [hbad, Option.map_none] at hm
  simp only [scoreDistribution, hts, bind, Except.bind, pure, Except.pure] at hrows
  cases hr : (Bcm.combiner ⟨ts, 0, true⟩).run s with
  | error e => rw [hr] at hrows; cases hrows
  | ok a =>
    rw [hr] at hm hrows
    simp only [Except.bind] at hm hrows
    cases hq : Bcm.toMatrices (Bcm.extract ⟨ts, 0, true⟩ a) ts with
    | error e => rw [hq] at hrows; cases hrows
    | ok ms => rw [hq] at hm; simp [Except.toOption] at hm

/-- Non-vacuous: three scores in two bundles. -/
example : (scoreDistribution 2 (.merge (.cons (.bundle [scoreExample [(1 / 2, 2)]])
      (.one (.bundle [scoreExample [(1 / 4, 1), (3 / 4, 1)]]))))).toOption.map (·.map fun r => (r.threshold, r.tp, r.tn)) =
    some [(.fin (-1 / 1000000), 4, 0), (.fin 0, 4, 0), (.fin (1 / 2), 1, 3), (.fin 1, 0, 4)] := by
  decide +kernel

/-- F1, accuracy and the rates keep the values they had before the cells were joined: for one score of 1/2 all the weight is
reported as true positive at threshold 0, and the accuracy as 1/2. -/
theorem C104_stale_accuracy :
    (scoreDistribution 1 (.bundle [scoreExample [(1 / 2, 2)]])).toOption.map (·.map fun r => (r.tp, r.tn, r.accuracy)) =
      some [(2, 0, .fin (1 / 2)), (2, 0, .fin (1 / 2)), (0, 2, .fin (1 / 2))] := by
  decide +kernel

example : ¬ ScoreOk 2 ∧ ScoreOk (1 / 2) := by constructor <;> norm_num [ScoreOk]

end Plots
end TFMA
