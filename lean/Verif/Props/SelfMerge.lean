import Verif.Model.SelfMerge
import Verif.Props.Combiners
import Mathlib.Tactic.NormNum

/-!
# C16: comparison, regression error and cross entropy metrics under bundling

False for re-iterable accumulator collections: the first accumulator of every merge is counted twice
(the `..._doubled` theorems say exactly what is computed; the `..._depends_on_bundling` theorems are concrete
witnesses for each metric).  The metrics are schedule independent when accumulators arrive as a single pass iterator
(`..._partial`).
-/

namespace TFMA
namespace Combiners

open Beam

/-! ### Specification -/

/-- Sum of floats. -/
def flSum (l : List Fl) : Fl := l.foldr Fl.add (.fin 0)

/-- Total weight of the examples with the given classification by the two models. -/
def flipWeight (threshold : ℚ) (b m : Bool) (xs : List PredPair) : ℚ :=
  ((xs.filter fun x => decide (threshold < x.base) == b && decide (threshold < x.model) == m).map
    fun x => x.weight).sum

mutual
/-- The elements of an execution, where the elements of the first accumulator of each merge are taken twice. -/
def Sched.doubled {ε : Type} : Sched ε → List ε
  | .bundle xs => xs
  | .extend s xs => Sched.doubled s ++ xs
  | .merge ss => firstDoubled ss ++ Scheds.doubled ss
/-- The elements of the first execution. -/
def firstDoubled {ε : Type} : Scheds ε → List ε
  | .one s => Sched.doubled s
  | .cons s _ => Sched.doubled s
/-- The elements of all executions. -/
def Scheds.doubled {ε : Type} : Scheds ε → List ε
  | .one s => Sched.doubled s
  | .cons s ss => Sched.doubled s ++ Scheds.doubled ss
end

/-! ### General lemmas -/

section
variable {ε α M : Type} {c : CombineFn ε α} {plus : α → α → α} {op : M → M → M} {e : M} {f : ε → Option M} {v : α → M}

/-- What is needed of `create_accumulator` and `add_input`. -/
structure Base (c : CombineFn ε α) (plus : α → α → α) (op : M → M → M) (e : M) (f : ε → Option M) (v : α → M) :
    Prop where
  assoc : ∀ a b d, op (op a b) d = op a (op b d)
  comm : ∀ a b, op a b = op b a
  left : ∀ a, op e a = a
  create : v c.create = e
  add : ∀ a x, (c.addInput a x).toOption.map v = (f x).map (op (v a))
  plus : ∀ a b, v (plus a b) = op (v a) (v b)

theorem Base.ohom (h : Base c plus op e f v) (hm : ∀ l, c.merge l = selfMerge false plus l) :
    OHom c op e f v (fun _ => True) where
  assoc := h.assoc
  comm := h.comm
  left := h.left
  inv_create := trivial
  inv_add _ _ _ _ _ := trivial
  create := h.create
  add a x _ := h.add a x
  merge a as _ := by
    rw [hm]
    exact ⟨_, rfl, trivial, foldl_hom h.plus a as⟩

private theorem addAll_base (h : Base c plus op e f v) (a : α) (xs : List ε) :
    (c.addAll a xs).toOption.map v = (total op e f xs).map (op (v a)) := by
  induction xs generalizing a with
  | nil => simp [CombineFn.addAll, total, prod, Except.toOption, h.comm _ e, h.left]
  | cons x xs ih =>
    have hx := h.add a x
    simp only [CombineFn.addAll]
    rw [total_cons]
    cases hq : c.addInput a x with
    | error er =>
      rw [hq] at hx
      cases hf : f x with
      | none => simp [bind, Except.bind, Except.toOption, liftOp]
      | some b => rw [hf] at hx; simp [Except.toOption] at hx
    | ok a' =>
      rw [hq] at hx
      cases hf : f x with
      | none => rw [hf] at hx; simp [Except.toOption] at hx
      | some b =>
        rw [hf] at hx
        simp only [Except.toOption, Option.map_some, Option.some.injEq] at hx
        simp only [bind, Except.bind]
        rw [ih a', hx]
        cases total op e f xs <;> simp [h.assoc, liftOp]

mutual
private theorem doubled_run (h : Base c plus op e f v) (hm : ∀ l, c.merge l = selfMerge true plus l) :
    ∀ s : Sched ε, (c.run s).toOption.map v = total op e f (Sched.doubled s)
  | .bundle xs => by
    simp only [CombineFn.run, Sched.doubled]
    rw [addAll_base h, h.create]
    cases total op e f xs <;> simp [h.left]
  | .extend s xs => by
    have ih := doubled_run h hm s
    simp only [CombineFn.run, Sched.doubled]
    rw [total_append h.assoc h.left, ← ih]
    cases hr : c.run s with
    | error er => simp [bind, Except.bind, Except.toOption, liftOp]
    | ok a =>
      simp only [bind, Except.bind]
      rw [addAll_base h]
      simp only [Except.toOption, Option.map_some]
      cases total op e f xs <;> simp [liftOp]
  | .merge ss => by
    have ih := doubled_runs h hm ss
    simp only [CombineFn.run, Sched.doubled]
    rw [total_append h.assoc h.left]
    cases hr : c.runs ss with
    | error er =>
      rw [(ih.2 er hr)]
      simp only [bind, Except.bind, Except.toOption, Option.map_none]
      cases total op e f (firstDoubled ss) <;> rfl
    | ok l =>
      simp only [bind, Except.bind]
      cases l with
      | nil => exact absurd rfl (ih.1 _ hr).1
      | cons a as =>
        obtain ⟨_, h1, h2⟩ := ih.1 _ hr
        rw [h2 a as rfl, h1, hm]
        simp only [selfMerge, if_true, Except.toOption, Option.map_some, liftOp]
        rw [foldl_hom h.plus a (a :: as)]
        simp only [List.map_cons, List.foldl_cons, List.foldr_cons]
        congr 1
        rw [← h.assoc]
        generalize op (v a) (v a) = b
        generalize as.map v = l
        induction l generalizing b with
        | nil => simp [h.comm _ e, h.left]
        | cons x l ih => rw [List.foldl_cons, ih, List.foldr_cons, h.assoc]
private theorem doubled_runs (h : Base c plus op e f v) (hm : ∀ l, c.merge l = selfMerge true plus l) :
    ∀ ss : Scheds ε,
      (∀ l, c.runs ss = .ok l → l ≠ [] ∧ total op e f (Scheds.doubled ss) = some ((l.map v).foldr op e) ∧
        ∀ a as, l = a :: as → total op e f (firstDoubled ss) = some (v a)) ∧
      (∀ er, c.runs ss = .error er → total op e f (Scheds.doubled ss) = none)
  | .one s => by
    have ih := doubled_run h hm s
    simp only [CombineFn.runs, Scheds.doubled, firstDoubled]
    cases hr : c.run s with
    | error er =>
      rw [hr] at ih
      simp only [bind, Except.bind]
      exact ⟨fun l hl => (by cases hl), fun er' _ => ih.symm⟩
    | ok a =>
      rw [hr] at ih
      simp only [bind, Except.bind, pure, Except.pure, Except.ok.injEq]
      refine ⟨fun l hl => ?_, fun er' her => (by cases her)⟩
      subst hl
      refine ⟨by simp, ?_, ?_⟩
      · rw [← ih]; simp [Except.toOption, h.comm _ e, h.left]
      · intro a' as' hh
        simp only [List.cons.injEq] at hh
        rw [← ih, ← hh.1]
        rfl
  | .cons s ss => by
    have ih1 := doubled_run h hm s
    have ih2 := doubled_runs h hm ss
    simp only [CombineFn.runs, Scheds.doubled, firstDoubled]
    rw [total_append h.assoc h.left]
    cases hr : c.run s with
    | error er =>
      rw [hr] at ih1
      simp only [bind, Except.bind]
      refine ⟨fun l hl => (by cases hl), fun er' _ => ?_⟩
      rw [← ih1]; rfl
    | ok a =>
      rw [hr] at ih1
      cases hrs : c.runs ss with
      | error er =>
        simp only [bind, Except.bind]
        refine ⟨fun l hl => (by cases hl), fun er' _ => ?_⟩
        rw [ih2.2 er hrs, ← ih1]; rfl
      | ok l' =>
        simp only [bind, Except.bind, pure, Except.pure, Except.ok.injEq]
        refine ⟨fun l hl => ?_, fun er' her => (by cases her)⟩
        subst hl
        refine ⟨by simp, ?_, ?_⟩
        · rw [(ih2.1 l' hrs).2.1, ← ih1]; rfl
        · intro a' as' hh
          simp only [List.cons.injEq] at hh
          rw [← ih1, ← hh.1]
          rfl
end

private theorem doubled_eq_bundle (h : Base c plus op e f v) (hm : ∀ l, c.merge l = selfMerge true plus l)
    (hv : ∀ a b, v a = v b → a = b) (s : Sched ε) :
    (c.run s).toOption = (c.run (.bundle (Sched.doubled s))).toOption :=
  option_map_inj hv ((doubled_run h hm s).trans (doubled_run h hm (.bundle (Sched.doubled s))).symm)

end

/-! ### flip rates -/

private def flipV (a : FlipAcc) : (ℚ × ℚ × ℚ) × (ℚ × ℚ) :=
  ((a.examples, a.negToNeg, a.negToPos), (a.posToNeg, a.posToPos))

private theorem flipV_inj : ∀ a b, flipV a = flipV b → a = b := by
  rintro ⟨⟩ ⟨⟩ h; simp [flipV] at h; simp [h]

private def flipF (threshold : ℚ) (x : PredPair) : (ℚ × ℚ × ℚ) × (ℚ × ℚ) :=
  let b := decide (threshold < x.base)
  let m := decide (threshold < x.model)
  ((x.weight, x.weight * boolInt (!b && !m), x.weight * boolInt (!b && m)),
    (x.weight * boolInt (b && !m), x.weight * boolInt (b && m)))

private theorem flip_base (r : Bool) (t : ℚ) : Base (flipCombiner r t) FlipAcc.merge (· + ·) 0
    (fun x => x.toOption.map (flipF t)) flipV where
  assoc := add_assoc
  comm := add_comm
  left := zero_add
  create := rfl
  add a x := by cases x <;> rfl
  plus _ _ := rfl

/-- C16 for flip counts with single pass iterators: schedule independent. Missing: the re-iterable case, which is
false (`C16_flip_rate_depends_on_bundling`). -/
theorem C16_flip_counts_partial (t : ℚ) (data : List (Except Err PredPair)) (s : Sched _) (p : s.inputs.Perm data) :
    ((flipCombiner false t).run s).toOption = ((flipCombiner false t).run (.bundle data)).toOption :=
  option_map_inj flipV_inj ((orun_eq ((flip_base false t).ohom fun _ => rfl) p).trans
    (orun_bundle ((flip_base false t).ohom fun _ => rfl) data).symm)

private theorem flipWeight_cons (t : ℚ) (b m : Bool) (x : PredPair) (xs : List PredPair) :
    flipWeight t b m (x :: xs) =
      (if decide (t < x.base) == b && decide (t < x.model) == m then x.weight else 0) + flipWeight t b m xs := by
  unfold flipWeight
  rw [List.filter_cons]
  split <;> simp

/-- C16, value of the flip counts of one bundle (hence, by `C16_flip_counts_partial`, of every single pass
execution): the weight of the examples in each of the four classes. -/
theorem C16_flip_counts_value (r : Bool) (t : ℚ) (xs : List PredPair) :
    ((flipCombiner r t).run (.bundle (xs.map .ok))).toOption =
      some { examples := (xs.map fun x => x.weight).sum
             negToNeg := flipWeight t false false xs
             negToPos := flipWeight t false true xs
             posToNeg := flipWeight t true false xs
             posToPos := flipWeight t true true xs } := by
  apply option_map_inj flipV_inj
  have h : ((flipCombiner r t).run (.bundle (xs.map .ok))).toOption.map flipV =
      (total (· + ·) 0 (fun x => x.toOption.map (flipF t)) (xs.map (Except.ok (ε := Err)))) := by
    cases r
    · exact orun_bundle ((flip_base false t).ohom fun _ => rfl) _
    · exact doubled_run (flip_base true t) (fun _ => rfl) (.bundle _)
  rw [h]
  clear h
  induction xs with
  | nil => rfl
  | cons x xs ih =>
    rw [List.map_cons, total_cons, ih]
    simp only [Except.toOption, Option.map_some, liftOp, flipV, flipWeight_cons, List.map_cons, List.sum_cons, flipF]
    cases decide (t < x.base) <;> cases decide (t < x.model) <;> simp [boolInt]

/-- C16, the flip rate of one bundle: the share of the weight of the examples on different sides of the threshold; it raises exactly
if the total weight is zero. -/
theorem C16_flip_rate_value (r : Bool) (t : ℚ) (xs : List PredPair) :
    ((flipCombiner r t).run (.bundle (xs.map .ok))).bind symmetricFlipRate =
      if (xs.map fun x => x.weight).sum = 0 then .error .zeroDivisionError
      else .ok ((flipWeight t false true xs + flipWeight t true false xs) / (xs.map fun x => x.weight).sum) := by
  have h := C16_flip_counts_value r t xs
  cases hr : (flipCombiner r t).run (.bundle (xs.map .ok)) with
  | error e => rw [hr] at h; cases h
  | ok a =>
    rw [hr] at h
    simp only [Except.toOption, Option.some.injEq] at h
    subst h
    rfl

/-- C16, symmetric prediction difference / flip counts with re-iterable collections: every execution computes the
result of a single bundle in which the elements of the first accumulator of each merge occur twice. -/
theorem C16_flip_counts_doubled (t : ℚ) (s : Sched (Except Err PredPair)) :
    ((flipCombiner true t).run s).toOption = ((flipCombiner true t).run (.bundle (Sched.doubled s))).toOption :=
  doubled_eq_bundle (flip_base true t) (fun _ => rfl) flipV_inj s

/-- C16 is false: two examples, one flipped and one not.  In one bundle the symmetric flip rate is 1/2, after
merging two bundles it is 2/3. -/
theorem C16_flip_rate_depends_on_bundling :
    let flipped : Except Err PredPair := .ok ⟨0, 1, 1⟩
    let stable : Except Err PredPair := .ok ⟨1, 1, 1⟩
    let rate := fun s => ((flipCombiner true (1/2)).run s).bind symmetricFlipRate
    rate (.bundle [flipped, stable]) = .ok (1/2) ∧
      rate (.merge (.cons (.bundle [flipped]) (.one (.bundle [stable])))) = .ok (2/3) := by
  decide +kernel

/-! ### symmetric prediction difference -/

private def diffOp (a b : ℚ × Fl) : ℚ × Fl := (a.1 + b.1, Fl.add a.2 b.2)

private theorem diffOp_assoc (a b c : ℚ × Fl) : diffOp (diffOp a b) c = diffOp a (diffOp b c) := by
  simp [diffOp, add_assoc, Fl.add_assoc]
private theorem diffOp_comm (a b : ℚ × Fl) : diffOp a b = diffOp b a := by
  simp [diffOp, add_comm, Fl.add_comm]
private theorem diffOp_left (a : ℚ × Fl) : diffOp (0, .fin 0) a = a := by
  simp [diffOp, Fl.zero_add]

private theorem diffOp_sum {β : Type} (f : β → ℚ) (g : β → Fl) (l : List β) :
    (l.map fun b => (f b, g b)).foldr diffOp (0, .fin 0) = ((l.map f).sum, flSum (l.map g)) := by
  induction l with
  | nil => rfl
  | cons b l ih => simp only [List.map_cons, List.foldr_cons, ih, List.sum_cons]; rfl

private def diffV (a : DiffAcc) : ℚ × Fl := (a.examples, a.total)

private theorem diffV_inj : ∀ a b, diffV a = diffV b → a = b := by
  rintro ⟨⟩ ⟨⟩ h; simp [diffV] at h; simp [h]

private theorem diff_base (r : Bool) : Base (diffCombiner r) DiffAcc.merge diffOp (0, .fin 0)
    (fun x => x.toOption.map fun x => (x.weight, Fl.mul (symDiff x.base x.model) (.fin x.weight))) diffV where
  assoc := diffOp_assoc
  comm := diffOp_comm
  left := diffOp_left
  create := rfl
  add a x := by cases x <;> rfl
  plus _ _ := rfl

/-- C16 for the symmetric prediction difference with single pass iterators: the result is the weighted mean of the
pointwise differences. Missing: the re-iterable case, which is false
(`C16_prediction_difference_depends_on_bundling`). -/
theorem C16_prediction_difference_partial (data : List (Except Err PredPair)) (s : Sched _)
    (p : s.inputs.Perm data) :
    ((diffCombiner false).run s).toOption.map diffExtract =
      (collect Except.toOption data).map fun xs =>
        if (xs.map fun x => x.weight).sum = 0 then .error .zeroDivisionError
        else .ok (Fl.div (flSum (xs.map fun x => Fl.mul (symDiff x.base x.model) (.fin x.weight)))
          (.fin (xs.map fun x => x.weight).sum)) := by
  rw [map_extract (v := diffV) (ex := diffExtract)
    (fun m => if m.1 = 0 then .error .zeroDivisionError else .ok (Fl.div m.2 (.fin m.1))) (fun a => rfl)
    (orun_eq ((diff_base false).ohom fun _ => rfl) p), total_collect, Option.map_map]
  congr 1
  funext xs
  simp only [Function.comp_apply, diffOp_sum]

/-- C16, symmetric prediction difference with re-iterable collections: what is computed. -/
theorem C16_prediction_difference_doubled (s : Sched (Except Err PredPair)) :
    ((diffCombiner true).run s).toOption = ((diffCombiner true).run (.bundle (Sched.doubled s))).toOption :=
  doubled_eq_bundle (diff_base true) (fun _ => rfl) diffV_inj s

/-- C16 is false for the symmetric prediction difference. -/
theorem C16_prediction_difference_depends_on_bundling :
    let x : Except Err PredPair := .ok ⟨1, 3, 1⟩
    let y : Except Err PredPair := .ok ⟨1, 1, 1⟩
    let value := fun s => ((diffCombiner true).run s).toOption.map diffExtract
    value (.bundle [x, y]) = some (.ok (.fin (1/2))) ∧
      value (.merge (.cons (.bundle [x]) (.one (.bundle [y])))) = some (.ok (.fin (2/3))) := by
  decide +kernel

/-! ### cosine similarity -/

private def cosV (a : CosAcc) : ℚ × Fl := ((a.examples : ℚ), a.total)

private theorem cosV_inj : ∀ a b, cosV a = cosV b → a = b := by
  rintro ⟨⟩ ⟨⟩ h
  simp only [cosV, Prod.mk.injEq, Nat.cast_inj] at h
  simp [h]

private theorem cos_base (r : Bool) : Base (cosCombiner r) CosAcc.merge diffOp (0, .fin 0)
    (fun x => x.toOption.map fun x => ((1 : ℚ), x)) cosV where
  assoc := diffOp_assoc
  comm := diffOp_comm
  left := diffOp_left
  create := by simp [cosV, cosCombiner]
  add a x := by
    cases x with
    | error e => rfl
    | ok x => simp [cosCombiner, Except.bind, Except.toOption, cosV, diffOp, CosAcc.merge]
  plus _ _ := by simp [cosV, CosAcc.merge, diffOp]

/-- C16 for the cosine similarity with single pass iterators: the result is the mean over the examples. Missing: the
re-iterable case, which is false (`C16_cosine_depends_on_bundling`). -/
theorem C16_cosine_partial (data : List (Except Err Fl)) (s : Sched _) (p : s.inputs.Perm data) :
    ((cosCombiner false).run s).toOption.map cosExtract =
      (collect Except.toOption data).map fun xs =>
        if xs = [] then .nan else Fl.div (flSum xs) (.fin xs.length) := by
  rw [map_extract (v := cosV) (ex := cosExtract) (fun m => if m.1 = 0 then Fl.nan else Fl.div m.2 (.fin m.1))
    (fun a => by simp [cosExtract, cosV])
    (orun_eq ((cos_base false).ohom fun _ => rfl) p), total_collect, Option.map_map]
  congr 1
  funext xs
  simp only [Function.comp_apply]
  rw [diffOp_sum (fun _ : Fl => (1 : ℚ)) (fun x => x)]
  have h1 : (xs.map fun _ => (1 : ℚ)).sum = (xs.length : ℚ) := by
    induction xs with
    | nil => rfl
    | cons x xs ih => simp [ih, add_comm]
  rw [h1]
  simp only [Nat.cast_eq_zero, List.length_eq_zero_iff, List.map_id']

/-- C16, cosine similarity with re-iterable collections: what is computed. -/
theorem C16_cosine_doubled (s : Sched (Except Err Fl)) :
    ((cosCombiner true).run s).toOption = ((cosCombiner true).run (.bundle (Sched.doubled s))).toOption :=
  doubled_eq_bundle (cos_base true) (fun _ => rfl) cosV_inj s

/-- C16 is false for the cosine similarity. -/
theorem C16_cosine_depends_on_bundling :
    let value := fun s => ((cosCombiner true).run s).toOption.map cosExtract
    value (.bundle [.ok (.fin 1), .ok (.fin 0)]) = some (.fin (1/2)) ∧
      value (.merge (.cons (.bundle [.ok (.fin 1)]) (.one (.bundle [.ok (.fin 0)])))) = some (.fin (2/3)) := by
  decide +kernel

/-! ### mean regression errors -/

private def regV (a : RegAcc) : ℚ × ℚ := (a.weights, a.error)

private theorem regV_inj : ∀ a b, regV a = regV b → a = b := by
  rintro ⟨⟩ ⟨⟩ h; simp [regV] at h; simp [h]

private def regF (err : ℚ → ℚ → Option ℚ) (t : Triple) : ℚ × ℚ :=
  match err t.label t.pred with
  | none => 0
  | some e => (t.weight, e * t.weight)

private theorem reg_base (r : Bool) (err : ℚ → ℚ → Option ℚ) : Base (regCombiner r err) RegAcc.merge (· + ·) 0
    (elemTotal (· + ·) 0 (fun t => some (regF err t))) regV where
  assoc := add_assoc
  comm := add_comm
  left := zero_add
  create := rfl
  add a x := by
    cases x with
    | error e => rfl
    | ok ts =>
      refine (loop_eq add_assoc add_comm zero_add (f := fun t => some (regF err t)) (v := regV) ?_ a ts)
      intro a t
      unfold regF
      cases err t.label t.pred <;> simp [Except.toOption, regV]
  plus _ _ := rfl

/-- The examples with a defined error, with their error and weight. -/
def regExamples (err : ℚ → ℚ → Option ℚ) (ts : List Triple) : List (ℚ × ℚ) :=
  ts.filterMap fun t => (err t.label t.pred).map fun e => (e, t.weight)

/-- C16 for mean regression errors with single pass iterators: the result is the weighted mean of the errors of the
examples whose error is not NaN. Missing: the re-iterable case, which is false
(`C16_regression_error_depends_on_bundling`). -/
theorem C16_regression_error_partial (err : ℚ → ℚ → Option ℚ) (data : List Flat) (s : Sched _)
    (p : s.inputs.Perm data) :
    ((regCombiner false err).run s).toOption.map regExtract =
      (allFlat data).map fun ts =>
        ratio ((regExamples err ts).map fun x => x.1 * x.2).sum ((regExamples err ts).map fun x => x.2).sum := by
  rw [map_extract (v := regV) (ex := regExtract) (fun m => ratio m.2 m.1)
    (fun a => by by_cases h : a.weights = 0 <;> simp [regExtract, regV, ratio, h])
    (orun_eq ((reg_base false err).ohom fun _ => rfl) p), total_elemTotal add_assoc zero_add]
  cases allFlat data with
  | none => rfl
  | some ts =>
    simp only [Option.bind_some, total_some, Option.map_some, Option.some.injEq]
    have : (ts.map (regF err)).foldr (· + ·) 0 =
        (((regExamples err ts).map fun x => x.2).sum, ((regExamples err ts).map fun x => x.1 * x.2).sum) := by
      induction ts with
      | nil => rfl
      | cons t ts ih =>
        rw [List.map_cons, List.foldr_cons, ih]
        unfold regF regExamples
        rw [List.filterMap_cons]
        cases err t.label t.pred <;> simp
    rw [this]

/-- C16, mean regression errors with re-iterable collections: what is computed. -/
theorem C16_regression_error_doubled (err : ℚ → ℚ → Option ℚ) (s : Sched Flat) :
    ((regCombiner true err).run s).toOption = ((regCombiner true err).run (.bundle (Sched.doubled s))).toOption :=
  doubled_eq_bundle (reg_base true err) (fun _ => rfl) regV_inj s

/-- C16 is false for the mean absolute, squared and percentage error. -/
theorem C16_regression_error_depends_on_bundling :
    let x : Flat := .ok [⟨1, 2, 1⟩]
    let y : Flat := .ok [⟨1, 1, 1⟩]
    let value := fun err s => ((regCombiner true err).run s).toOption.map regExtract
    let split : Sched Flat := .merge (.cons (.bundle [x]) (.one (.bundle [y])))
    (value absError (.bundle [x, y]) = some (.fin (1/2)) ∧ value absError split = some (.fin (2/3))) ∧
    (value sqError (.bundle [x, y]) = some (.fin (1/2)) ∧ value sqError split = some (.fin (2/3))) ∧
    (value pctError (.bundle [x, y]) = some (.fin 50) ∧ value pctError split = some (.fin (200/3))) := by
  decide +kernel

/-! ### cross entropy -/

private def xentV (a : XentAcc) : ℚ × Fl := (a.weights, a.total)

private theorem xentV_inj : ∀ a b, xentV a = xentV b → a = b := by
  rintro ⟨⟩ ⟨⟩ h; simp [xentV] at h; simp [h]

private theorem xent_base (r : Bool) : Base (xentCombiner r) XentAcc.merge diffOp (0, .fin 0)
    (elemTotal diffOp (0, .fin 0) (fun t : Fl × ℚ => some (t.2, Fl.mul t.1 (.fin t.2)))) xentV where
  assoc := diffOp_assoc
  comm := diffOp_comm
  left := diffOp_left
  create := rfl
  add a x := by
    cases x with
    | error e => rfl
    | ok ts =>
      exact loop_eq diffOp_assoc diffOp_comm diffOp_left (fun a t => rfl) a ts
  plus _ _ := rfl

/-- C16 for cross entropies with single pass iterators: the result is the weighted mean over the examples. Missing: the
re-iterable case, which is false (`C16_cross_entropy_depends_on_bundling`). -/
theorem C16_cross_entropy_partial (data : List (Except Err (List (Fl × ℚ)))) (s : Sched _) (p : s.inputs.Perm data) :
    ((xentCombiner false).run s).toOption.map xentExtract =
      (allFlat data).map fun ts =>
        Fl.div (flSum (ts.map fun t => Fl.mul t.1 (.fin t.2))) (.fin (ts.map fun t => t.2).sum) := by
  rw [map_extract (v := xentV) (ex := xentExtract) (fun m => Fl.div m.2 (.fin m.1)) (fun a => rfl)
    (orun_eq ((xent_base false).ohom fun _ => rfl) p), total_elemTotal diffOp_assoc diffOp_left]
  cases allFlat data with
  | none => rfl
  | some ts =>
    simp only [Option.bind_some, total_some, Option.map_some, diffOp_sum]

/-- C16, cross entropies with re-iterable collections: what is computed. -/
theorem C16_cross_entropy_doubled (s : Sched (Except Err (List (Fl × ℚ)))) :
    ((xentCombiner true).run s).toOption = ((xentCombiner true).run (.bundle (Sched.doubled s))).toOption :=
  doubled_eq_bundle (xent_base true) (fun _ => rfl) xentV_inj s

/-- C16 is false for cross entropies. -/
theorem C16_cross_entropy_depends_on_bundling :
    let value := fun s => ((xentCombiner true).run s).toOption.map xentExtract
    value (.bundle [.ok [(.fin 1, 1)], .ok [(.fin 0, 1)]]) = some (.fin (1/2)) ∧
      value (.merge (.cons (.bundle [.ok [(.fin 1, 1)]]) (.one (.bundle [.ok [(.fin 0, 1)]])))) =
        some (.fin (2/3)) := by
  decide +kernel

/-- Non-vacuous: single pass iterators, two bundles. -/
example :
    ((flipCombiner false (1/2)).run (.merge (.cons (.bundle [.ok ⟨0, 1, 1⟩]) (.one (.bundle [.ok ⟨1, 1, 3⟩]))))).bind
      symmetricFlipRate = .ok (1/4) := by
  decide +kernel

end Combiners
end TFMA
