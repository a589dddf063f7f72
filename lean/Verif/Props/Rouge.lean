import Verif.Model.Rouge
import Verif.Lemmas.Combine
import Verif.Props.Combiners
import Mathlib.Algebra.Order.BigOperators.Group.List
import Mathlib.Algebra.BigOperators.Ring.List
import Mathlib.Tactic.Linarith
import Mathlib.Tactic.FieldSimp

/-!
# C112: ROUGE
-/

namespace TFMA
namespace Rouge

open Beam MetricKeys Evaluate

variable {S : Type}

/-! ### Specification -/

/-- The examples that can be scored: weight and score of each; nothing if one of them has no prediction, no weight or is rejected
otherwise. -/
def scored (scorer : List S → S → Score) : List (Elem S) → Option (List (ℚ × Score))
  | [] => some []
  | .ok (labels, p :: _, w :: _) :: xs => (scored scorer xs).map ((w, scorer labels p) :: ·)
  | _ :: _ => none

/-- Weighted sum. -/
def wsum (f : Score → ℚ) (l : List (ℚ × Score)) : ℚ := (l.map fun x => x.1 * f x.2).sum

/-- Sum of the weights. -/
def wtotal (l : List (ℚ × Score)) : ℚ := (l.map Prod.fst).sum

/-! ### Helpers -/

private abbrev M := ℚ × ℚ × ℚ × ℚ

private def view (a : Acc) : M := (a.weightedCount, a.totalPrecision, a.totalRecall, a.totalFmeasure)

private def one (scorer : List S → S → Score) : Elem S → Option M
  | .ok (labels, p :: _, w :: _) =>
    some (w, w * (scorer labels p).precision, w * (scorer labels p).recall, w * (scorer labels p).fmeasure)
  | _ => none

private theorem ohom (scorer : List S → S → Score) :
    OHom (combiner scorer) (· + ·) (0 : M) (one scorer) view (fun _ => True) where
  assoc := add_assoc
  comm := add_comm
  left := zero_add
  inv_create := trivial
  inv_add _ _ _ _ _ := trivial
  create := rfl
  add a x _ := by
    rcases x with e | ⟨labels, ps, ws⟩
    · rfl
    · cases ws with
      | nil => cases ps <;> rfl
      | cons w ws =>
        cases ps with
        | nil => rfl
        | cons p ps =>
          simp only [combiner, addInput, one, Except.toOption, Option.map_some, view, mul_comm w]
          rfl
  merge a as _ := ⟨_, rfl, trivial, foldl_hom (fun _ _ => rfl) a as⟩

private theorem total_scored (scorer : List S → S → Score) (xs : List (Elem S)) :
    total (· + ·) (0 : M) (one scorer) xs =
      (scored scorer xs).map fun l => (wtotal l, wsum Score.precision l, wsum Score.recall l, wsum Score.fmeasure l) := by
  induction xs with
  | nil => rfl
  | cons x xs ih =>
    rw [total_cons, ih]
    rcases x with e | ⟨labels, ps, ws⟩
    · rfl
    · cases ps with
      | nil => cases ws <;> rfl
      | cons p ps =>
        cases ws with
        | nil => rfl
        | cons w ws =>
          simp only [one, scored]
          cases scored scorer xs with
          | none => rfl
          | some l =>
            simp only [Option.map_some, liftOp, wtotal, wsum, List.map_cons, List.sum_cons]
            rfl

/-! ### Theorems -/

/-- In every schedule: precision, recall and F-measure are the averages of those of the examples, weighted by the example weights; NaN
if the weights add up to zero; no result if an example has no prediction or no weight. -/
theorem C112_average (scorer : List S → S → Score) (data : List (Elem S)) (s : Sched (Elem S)) (hp : s.inputs.Perm data) :
    ((combiner scorer).run s).toOption.map extract = (scored scorer data).map fun l =>
      if wtotal l = 0 then none else some ⟨wsum Score.precision l / wtotal l, wsum Score.recall l / wtotal l,
        wsum Score.fmeasure l / wtotal l⟩ := by
  have h := orun_eq (ohom scorer) hp
  rw [total_scored] at h
  cases hr : (combiner scorer).run s with
  | error e =>
    rw [hr] at h
    cases hs : scored scorer data with
    | none => rfl
    | some l => rw [hs] at h; cases h
  | ok a =>
    rw [hr] at h
    cases hs : scored scorer data with
    | none => rw [hs] at h; cases h
    | some l =>
      rw [hs] at h
      simp only [Except.toOption, Option.map_some, Option.some.injEq, view, Prod.mk.injEq] at h
      obtain ⟨h1, h2, h3, h4⟩ := h
      simp only [Except.toOption, Option.map_some, extract, h1, h2, h3, h4]

example : ((combiner (fun (l : List ℕ) p => if p ∈ l then ⟨1, 1, 1⟩ else ⟨0, 0, 0⟩)).run
    (.merge (.cons (.bundle [.ok ([1, 2], [2], [1])]) (.one (.bundle [.ok ([1], [2], [3])]))))).toOption.map extract =
      some (some ⟨1 / 4, 1 / 4, 1 / 4⟩) := by decide +kernel

/-- With weights that are not negative and not all zero the average of scores between `lo` and `hi` is between them. -/
theorem C112_between (f : Score → ℚ) (l : List (ℚ × Score)) (lo hi : ℚ) (hw : ∀ x ∈ l, 0 ≤ x.1) (h0 : wtotal l ≠ 0)
    (hb : ∀ x ∈ l, lo ≤ f x.2 ∧ f x.2 ≤ hi) : lo ≤ wsum f l / wtotal l ∧ wsum f l / wtotal l ≤ hi := by
  have key : 0 ≤ wtotal l ∧ lo * wtotal l ≤ wsum f l ∧ wsum f l ≤ hi * wtotal l := by
    clear h0
    induction l with
    | nil => simp [wtotal, wsum]
    | cons x l ih =>
      obtain ⟨i0, i1, i2⟩ := ih (fun y hy => hw y (List.mem_cons_of_mem _ hy)) (fun y hy => hb y (List.mem_cons_of_mem _ hy))
      have h1 := hw x (by simp)
      obtain ⟨h2, h3⟩ := hb x (by simp)
      simp only [wtotal, wsum, List.map_cons, List.sum_cons] at *
      have h4 : x.1 * lo ≤ x.1 * f x.2 := mul_le_mul_of_nonneg_left h2 h1
      have h5 : x.1 * f x.2 ≤ x.1 * hi := mul_le_mul_of_nonneg_left h3 h1
      refine ⟨by linarith, ?_, ?_⟩
      · rw [mul_add]; linarith
      · rw [mul_add]; linarith
  have hpos : 0 < wtotal l := lt_of_le_of_ne key.1 (Ne.symm h0)
  rw [le_div_iff₀ hpos, div_le_iff₀ hpos]
  exact key.2

example : (1 / 4 : ℚ) ≤ wsum Score.recall [(1, ⟨1, 1 / 2, 1⟩), (3, ⟨0, 1 / 4, 0⟩)] / wtotal [(1, ⟨1, 1 / 2, 1⟩), (3, ⟨0, 1 / 4, 0⟩)] := by
  decide +kernel

/-- The F-measure that is reported is not the harmonic mean of the precision and the recall that are reported. -/
theorem C112_fmeasure_not_harmonic :
    let scorer : List ℕ → ℕ → Score := fun _ p => if p = 0 then ⟨1, 1 / 3, 1 / 2⟩ else ⟨1 / 3, 1, 1 / 2⟩
    (∀ p, (scorer [] p).fmeasure = 2 * (scorer [] p).precision * (scorer [] p).recall /
      ((scorer [] p).precision + (scorer [] p).recall)) ∧
    ∃ r : Score, ((combiner scorer).run (.bundle [.ok ([], [0], [1]), .ok ([], [1], [1])])).toOption.map extract = some (some r) ∧
      r.fmeasure ≠ 2 * r.precision * r.recall / (r.precision + r.recall) := by
  refine ⟨?_, ⟨2 / 3, 2 / 3, 1 / 2⟩, ?_, ?_⟩
  · intro p
    by_cases hp : p = 0
    · simp only [hp, if_true]; norm_num
    · simp only [hp, if_false]; norm_num
  · decide +kernel
  · decide +kernel

private theorem id_text (cn name m o : String) :
    Computation.id (⟨.metric, cn, [{ name := name }], [], (m, o)⟩ : Computation (String × String)) =
      .ok (cn, [{ name := name }], []) := rfl

private theorem skip (cn name m o : String) (l : List (Computation (String × String)))
    (h : ∀ c ∈ l, ∃ m' o', c = ⟨.metric, cn, [{ name := name }], [], (m', o')⟩) :
    separateLoop (⟨[⟨.metric, cn, [{ name := name }], [], (m, o)⟩], [], [], []⟩) l =
      .ok ⟨[⟨.metric, cn, [{ name := name }], [], (m, o)⟩], [], [], []⟩ := by
  induction l with
  | nil => rfl
  | cons c l ih =>
    obtain ⟨m', o', rfl⟩ := h c (by simp)
    simp only [separateLoop, separateOne, addNew, id_text, List.any_cons, List.any_nil, Computation.hasId, decide_true,
      Bool.or_false, if_true, Except.map]
    exact ih fun c hc => h c (List.mem_cons_of_mem _ hc)

/-- The key of ROUGE and of BLEU is their name alone, so that only the first of several models and only the first of several outputs is
evaluated. -/
theorem C112_models_fails (cn name m o : String) (models outputs : List String) (sk : Option SubKey) (subKeys : List (Option SubKey)) :
    separate (computations cn name (m :: models) (o :: outputs) (sk :: subKeys)) =
      .ok { nonDerived := [⟨.metric, cn, [{ name := name }], [], (m, o)⟩] } := by
  have hall : ∀ c ∈ computations cn name (m :: models) (o :: outputs) (sk :: subKeys),
      ∃ m' o', c = ⟨.metric, cn, [{ name := name }], [], (m', o')⟩ := by
    intro c hc
    simp only [computations, textMetric, List.mem_flatMap, List.mem_singleton] at hc
    obtain ⟨m', _, o', _, _, _, rfl⟩ := hc
    exact ⟨m', o', rfl⟩
  have hhead : ∃ l, computations cn name (m :: models) (o :: outputs) (sk :: subKeys) =
      ⟨.metric, cn, [{ name := name }], [], (m, o)⟩ :: l := ⟨_, rfl⟩
  obtain ⟨l, hl⟩ := hhead
  rw [hl] at hall ⊢
  simp only [separate, separateLoop, separateOne, addNew, id_text, List.any_nil, Bool.false_eq_true, if_false, Except.map,
    List.nil_append]
  exact skip cn name m o l fun c hc => hall c (List.mem_cons_of_mem _ hc)

example : separate (computations "_BleuCombiner" "BLEU" ["candidate", "baseline"] [""] [none]) =
    .ok { nonDerived := [⟨.metric, "_BleuCombiner", [{ name := "BLEU" }], [], ("candidate", "")⟩] } :=
  C112_models_fails ..

end Rouge
end TFMA
