import Verif.Beam.Combine

/-!
# Schedule independence

`Hom` reduces the independence of a combiner from the schedule to facts about its methods.  The result of a
(possibly failed) execution is summarised by a value `V r` of a commutative monoid `(M, op, e)`; a failure is
absorbing, the fresh accumulator has summary `e`, adding an element multiplies by the contribution `g x` of
the element and merging multiplies the summaries.  `Inv` is an invariant of reachable accumulators.
-/

namespace TFMA.Beam

variable {ε α M : Type}

/-- A combiner that is a homomorphism into a commutative monoid. -/
structure Hom (c : CombineFn ε α) (op : M → M → M) (e : M) (g : ε → M) (V : Option α → M)
    (Inv : α → Prop) : Prop where
  assoc : ∀ a b d, op (op a b) d = op a (op b d)
  comm : ∀ a b, op a b = op b a
  left : ∀ a, op e a = a
  absorb : ∀ m, op (V none) m = V none
  inv_create : Inv c.create
  inv_add : ∀ a x b, Inv a → c.addInput a x = .ok b → Inv b
  inv_merge : ∀ a as b, (∀ y ∈ a :: as, Inv y) → c.merge (a :: as) = .ok b → Inv b
  create : V (some c.create) = e
  add : ∀ a x, Inv a → V (c.addInput a x).toOption = op (V (some a)) (g x)
  merge : ∀ a as, (∀ y ∈ a :: as, Inv y) →
    V (c.merge (a :: as)).toOption = (as.map fun x => V (some x)).foldl op (V (some a))

/-- The product of the contributions. -/
def prod (op : M → M → M) (e : M) (g : ε → M) (xs : List ε) : M := (xs.map g).foldr op e

section
variable {c : CombineFn ε α} {op : M → M → M} {e : M} {g : ε → M} {V : Option α → M} {Inv : α → Prop}

theorem prod_append (h : Hom c op e g V Inv) (xs ys : List ε) :
    prod op e g (xs ++ ys) = op (prod op e g xs) (prod op e g ys) := by
  induction xs with
  | nil => simp [prod, h.left]
  | cons x xs ih =>
    have h1 : ∀ x l, prod op e g (x :: l) = op (g x) (prod op e g l) := fun _ _ => rfl
    rw [List.cons_append, h1, h1, ih, h.assoc]

theorem prod_perm (h : Hom c op e g V Inv) {xs ys : List ε} (p : xs.Perm ys) :
    prod op e g xs = prod op e g ys := by
  have h1 : ∀ x l, prod op e g (x :: l) = op (g x) (prod op e g l) := fun _ _ => rfl
  induction p with
  | nil => rfl
  | cons x _ ih => rw [h1, h1, ih]
  | swap x y l => rw [h1, h1, h1, h1, ← h.assoc, ← h.assoc, h.comm (g x)]
  | trans _ _ ih1 ih2 => rw [ih1, ih2]

theorem right (h : Hom c op e g V Inv) (a : M) : op a e = a := by rw [h.comm, h.left]

theorem addAll_eq (h : Hom c op e g V Inv) (a : α) (xs : List ε) (ha : Inv a) :
    V (c.addAll a xs).toOption = op (V (some a)) (prod op e g xs) ∧
      ∀ b, c.addAll a xs = .ok b → Inv b := by
  induction xs generalizing a with
  | nil =>
    refine ⟨?_, ?_⟩
    · simp [CombineFn.addAll, prod, Except.toOption, right h]
    · intro b hb; simp only [CombineFn.addAll, Except.ok.injEq] at hb; rw [← hb]; exact ha
  | cons x xs ih =>
    have hx := h.add a x ha
    have hi := h.inv_add a x
    have h1 : ∀ x l, prod op e g (x :: l) = op (g x) (prod op e g l) := fun _ _ => rfl
    simp only [CombineFn.addAll]
    rw [h1, ← h.assoc, ← hx]
    cases hq : c.addInput a x with
    | error er =>
      simp only [bind, Except.bind, Except.toOption]
      refine ⟨(h.absorb _).symm, ?_⟩
      intro b hb; cases hb
    | ok a' => exact ih a' (hi a' ha hq)

mutual
/-- Every execution of the combiner yields the product of the contributions of its inputs. -/
theorem run_eq_prod (h : Hom c op e g V Inv) : ∀ s : Sched ε,
    V (c.run s).toOption = prod op e g s.inputs ∧ ∀ b, c.run s = .ok b → Inv b
  | .bundle xs => by
    have := addAll_eq h c.create xs h.inv_create
    simp only [CombineFn.run, Sched.inputs]
    rw [h.create, h.left] at this
    exact this
  | .extend s xs => by
    have ih := run_eq_prod h s
    simp only [CombineFn.run, Sched.inputs]
    rw [prod_append h, ← ih.1]
    cases hr : c.run s with
    | error er =>
      simp only [bind, Except.bind, Except.toOption]
      refine ⟨(h.absorb _).symm, ?_⟩
      intro b hb; cases hb
    | ok a => exact addAll_eq h a xs (ih.2 a hr)
  | .merge ss => by
    have ih := runs_eq_prod h ss
    simp only [CombineFn.run, Sched.inputs]
    cases hr : c.runs ss with
    | error er =>
      simp only [bind, Except.bind, Except.toOption]
      refine ⟨(ih.2 er hr).symm, ?_⟩
      intro b hb; cases hb
    | ok l =>
      simp only [bind, Except.bind]
      obtain ⟨h1, h2, h3⟩ := ih.1 l hr
      cases l with
      | nil => exact absurd rfl h2
      | cons a as =>
        refine ⟨?_, fun b hb => h.inv_merge a as b h3 hb⟩
        rw [h.merge a as h3, ← h1]
        simp only [List.map_cons, List.foldr_cons]
        clear h1 h2 h3 hr ih
        generalize V (some a) = b
        generalize as.map (fun x => V (some x)) = l
        induction l generalizing b with
        | nil => simp [right h]
        | cons x l ih => rw [List.foldl_cons, ih, List.foldr_cons, h.assoc]
theorem runs_eq_prod (h : Hom c op e g V Inv) : ∀ ss : Scheds ε,
    (∀ l, c.runs ss = .ok l → (l.map fun x => V (some x)).foldr op e = prod op e g ss.inputs ∧ l ≠ [] ∧
      ∀ y ∈ l, Inv y) ∧
    (∀ er, c.runs ss = .error er → prod op e g ss.inputs = V none)
  | .one s => by
    have ih := run_eq_prod h s
    simp only [CombineFn.runs, Scheds.inputs]
    cases hr : c.run s with
    | error er =>
      simp only [bind, Except.bind]
      refine ⟨fun l hl => (by cases hl), fun er' _ => ?_⟩
      rw [← ih.1, hr]; rfl
    | ok a =>
      simp only [bind, Except.bind, pure, Except.pure, Except.ok.injEq]
      refine ⟨fun l hl => ?_, fun er' her => (by cases her)⟩
      subst hl
      refine ⟨?_, by simp, ?_⟩
      · rw [← ih.1, hr]; simp [Except.toOption, right h]
      · intro y hy; rw [List.mem_singleton] at hy; rw [hy]; exact ih.2 a hr
  | .cons s ss => by
    have ih1 := run_eq_prod h s
    have ih2 := runs_eq_prod h ss
    simp only [CombineFn.runs, Scheds.inputs]
    rw [prod_append h]
    cases hr : c.run s with
    | error er =>
      simp only [bind, Except.bind]
      refine ⟨fun l hl => (by cases hl), fun er' _ => ?_⟩
      rw [← ih1.1, hr]; exact h.absorb _
    | ok a =>
      cases hrs : c.runs ss with
      | error er =>
        simp only [bind, Except.bind]
        refine ⟨fun l hl => (by cases hl), fun er' _ => ?_⟩
        rw [ih2.2 er hrs, h.comm]; exact h.absorb _
      | ok l' =>
        simp only [bind, Except.bind, pure, Except.pure, Except.ok.injEq]
        refine ⟨fun l hl => ?_, fun er' her => (by cases her)⟩
        subst hl
        obtain ⟨h1, h2, h3⟩ := ih2.1 l' hrs
        refine ⟨?_, by simp, ?_⟩
        · rw [← ih1.1, hr, ← h1]; rfl
        · intro y hy
          rcases List.mem_cons.1 hy with hy | hy
          · rw [hy]; exact ih1.2 a hr
          · exact h3 y hy
end

/-- Schedule independence: an execution over the data `xs`, in any bundling, any merge tree and any
order, has the product of the contributions of `xs` as its summary. -/
theorem run_eq (h : Hom c op e g V Inv) {s : Sched ε} {xs : List ε} (p : s.inputs.Perm xs) :
    V (c.run s).toOption = prod op e g xs := by
  rw [(run_eq_prod h s).1, prod_perm h p]

theorem run_inv (h : Hom c op e g V Inv) {s : Sched ε} {b : α} (hb : c.run s = .ok b) : Inv b :=
  (run_eq_prod h s).2 b hb

end

/-! ### Summaries that only fail when an element is bad -/

/-- Failure as an absorbing element. -/
def liftOp (op : M → M → M) : Option M → Option M → Option M
  | some a, some b => some (op a b)
  | _, _ => none

/-- Contribution of a list of elements: `none` when one of them has no contribution. -/
def total (op : M → M → M) (e : M) (f : ε → Option M) (xs : List ε) : Option M :=
  prod (liftOp op) (some e) f xs

theorem total_cons (op : M → M → M) (e : M) (f : ε → Option M) (x : ε) (xs : List ε) :
    total op e f (x :: xs) = liftOp op (f x) (total op e f xs) := rfl

/-- Homomorphism into a commutative monoid where an element either has a contribution or is rejected. -/
structure OHom (c : CombineFn ε α) (op : M → M → M) (e : M) (f : ε → Option M) (v : α → M)
    (Inv : α → Prop) : Prop where
  assoc : ∀ a b d, op (op a b) d = op a (op b d)
  comm : ∀ a b, op a b = op b a
  left : ∀ a, op e a = a
  inv_create : Inv c.create
  inv_add : ∀ a x b, Inv a → c.addInput a x = .ok b → Inv b
  create : v c.create = e
  add : ∀ a x, Inv a → (c.addInput a x).toOption.map v = (f x).map (op (v a))
  merge : ∀ a as, (∀ y ∈ a :: as, Inv y) →
    ∃ b, c.merge (a :: as) = .ok b ∧ Inv b ∧ v b = (as.map v).foldl op (v a)

theorem OHom.hom {c : CombineFn ε α} {op : M → M → M} {e : M} {f : ε → Option M} {v : α → M}
    {Inv : α → Prop} (h : OHom c op e f v Inv) :
    Hom c (liftOp op) (some e) f (Option.map v) Inv where
  assoc a b d := by cases a <;> cases b <;> cases d <;> simp [liftOp, h.assoc]
  comm a b := by
    cases a <;> cases b <;> simp only [liftOp]
    rw [h.comm]
  left a := by cases a <;> simp [liftOp, h.left]
  absorb m := by cases m <;> rfl
  inv_create := h.inv_create
  inv_add := h.inv_add
  inv_merge a as b hy hb := by
    obtain ⟨b', h1, h2, _⟩ := h.merge a as hy
    rw [h1] at hb; cases hb; exact h2
  create := by simp [h.create]
  add a x ha := by
    rw [h.add a x ha]
    cases f x <;> rfl
  merge a as hy := by
    obtain ⟨b', h1, _, h3⟩ := h.merge a as hy
    rw [h1]
    simp only [Except.toOption, Option.map_some, h3]
    clear h1 h3 hy
    generalize v a = b
    induction as generalizing b with
    | nil => rfl
    | cons x l ih => simp only [List.map_cons, List.foldl_cons, ih]; rfl

theorem orun_eq {c : CombineFn ε α} {op : M → M → M} {e : M} {f : ε → Option M} {v : α → M}
    {Inv : α → Prop} (h : OHom c op e f v Inv) {s : Sched ε} {xs : List ε} (p : s.inputs.Perm xs) :
    (c.run s).toOption.map v = total op e f xs := run_eq h.hom p

theorem orun_bundle {c : CombineFn ε α} {op : M → M → M} {e : M} {f : ε → Option M} {v : α → M}
    {Inv : α → Prop} (h : OHom c op e f v Inv) (xs : List ε) :
    (c.run (.bundle xs)).toOption.map v = total op e f xs := orun_eq h (List.Perm.refl _)

/-- Folding commutes with a homomorphism. -/
theorem foldl_hom {plus : α → α → α} {op : M → M → M} {v : α → M}
    (h : ∀ a b, v (plus a b) = op (v a) (v b)) (a : α) (as : List α) :
    v (as.foldl plus a) = (as.map v).foldl op (v a) := by
  induction as generalizing a with
  | nil => rfl
  | cons b as ih => simp only [List.foldl_cons, List.map_cons, ih, h]

/-! ### Combiners that loop over the examples of an element -/

/-- All the examples of the data, or none if one of the elements is rejected. -/
def allFlat {T : Type} : List (Except Err (List T)) → Option (List T)
  | [] => some []
  | x :: xs => match x, allFlat xs with
    | .ok ts, some r => some (ts ++ r)
    | _, _ => none

section
variable {T : Type} {op : M → M → M} {e : M} {f : T → Option M} {v : α → M} {step : α → T → Except Err α}

theorem liftOp_some_left (hleft : ∀ a, op e a = a) (o : Option M) : liftOp op (some e) o = o := by
  cases o <;> simp [liftOp, hleft]

theorem liftOp_assoc (hassoc : ∀ a b d, op (op a b) d = op a (op b d)) (a b d : Option M) :
    liftOp op (liftOp op a b) d = liftOp op a (liftOp op b d) := by
  cases a <;> cases b <;> cases d <;> simp [liftOp, hassoc]

theorem total_append (hassoc : ∀ a b d, op (op a b) d = op a (op b d)) (hleft : ∀ a, op e a = a)
    (xs ys : List T) : total op e f (xs ++ ys) = liftOp op (total op e f xs) (total op e f ys) := by
  induction xs with
  | nil => rw [List.nil_append]; exact (liftOp_some_left hleft _).symm
  | cons x xs ih => rw [List.cons_append, total_cons, total_cons, ih, liftOp_assoc hassoc]

theorem loop_eq (hassoc : ∀ a b d, op (op a b) d = op a (op b d)) (hcomm : ∀ a b, op a b = op b a)
    (hleft : ∀ a, op e a = a)
    (hstep : ∀ a t, (step a t).toOption.map v = (f t).map (op (v a))) (a : α) (ts : List T) :
    (loop step a ts).toOption.map v = (total op e f ts).map (op (v a)) := by
  induction ts generalizing a with
  | nil => simp [loop, total, prod, Except.toOption, hcomm _ e, hleft]
  | cons t ts ih =>
    have hx := hstep a t
    simp only [loop]
    rw [total_cons]
    cases hq : step a t with
    | error er =>
      rw [hq] at hx
      cases hf : f t with
      | none => simp [bind, Except.bind, Except.toOption, liftOp]
      | some b => rw [hf] at hx; simp [Except.toOption] at hx
    | ok a' =>
      rw [hq] at hx
      cases hf : f t with
      | none => rw [hf] at hx; simp [Except.toOption] at hx
      | some b =>
        rw [hf] at hx
        simp only [Except.toOption, Option.map_some, Option.some.injEq] at hx
        simp only [bind, Except.bind]
        rw [ih a', hx]
        cases total op e f ts <;> simp [hassoc, liftOp]

/-- Contribution of an element that is a list of examples. -/
def elemTotal (op : M → M → M) (e : M) (f : T → Option M) (x : Except Err (List T)) : Option M :=
  x.toOption.bind (total op e f)

theorem total_elemTotal (hassoc : ∀ a b d, op (op a b) d = op a (op b d)) (hleft : ∀ a, op e a = a)
    (data : List (Except Err (List T))) :
    total op e (elemTotal op e f) data = (allFlat data).bind (total op e f) := by
  induction data with
  | nil => rfl
  | cons x xs ih =>
    rw [total_cons, ih]
    cases x with
    | error er => simp [elemTotal, allFlat, Except.toOption, liftOp]
    | ok ts =>
      cases h : allFlat xs with
      | none => 
        simp only [elemTotal, allFlat, Except.toOption, h, Option.bind_none, Option.bind_some]
        cases total op e f ts <;> rfl
      | some r => 
        simp only [elemTotal, allFlat, Except.toOption, h, Option.bind_some]
        rw [total_append hassoc hleft]

/-- Schedule independence of a combiner that loops over the examples of each element and merges by
folding. -/
theorem flat_run {c : CombineFn (Except Err (List T)) α} {plus : α → α → α}
    (hassoc : ∀ a b d, op (op a b) d = op a (op b d)) (hcomm : ∀ a b, op a b = op b a)
    (hleft : ∀ a, op e a = a)
    (hadd : ∀ a x, c.addInput a x = x.bind (loop step a))
    (hmerge : ∀ l, c.merge l = mergeWith plus l) (hcreate : v c.create = e)
    (hstep : ∀ a t, (step a t).toOption.map v = (f t).map (op (v a)))
    (hplus : ∀ a b, v (plus a b) = op (v a) (v b))
    {s : Sched (Except Err (List T))} {data} (p : s.inputs.Perm data) :
    (c.run s).toOption.map v = (allFlat data).bind (total op e f) := by
  rw [← total_elemTotal hassoc hleft]
  refine orun_eq (Inv := fun _ => True) ⟨hassoc, hcomm, hleft, trivial, fun _ _ _ _ _ => trivial, hcreate, ?_, ?_⟩ p
  · intro a x _
    rw [hadd]
    cases x with
    | error er => rfl
    | ok ts =>
      show (loop step a ts).toOption.map v = _
      rw [loop_eq hassoc hcomm hleft hstep]
      rfl
  · rintro a as -
    rw [hmerge]
    refine ⟨_, rfl, trivial, ?_⟩
    induction as generalizing a with
    | nil => rfl
    | cons b as ih => simp only [List.foldl_cons, List.map_cons, ih, hplus]

theorem total_some (f' : T → M) (ts : List T) :
    total op e (fun t => some (f' t)) ts = some ((ts.map f').foldr op e) := by
  induction ts with
  | nil => rfl
  | cons t ts ih => rw [total_cons, ih]; rfl

/-- As `flat_run`, for loops that cannot fail. -/
theorem flat_run' {c : CombineFn (Except Err (List T)) α} {plus : α → α → α} {step' : α → T → α} {f' : T → M}
    (hassoc : ∀ a b d, op (op a b) d = op a (op b d)) (hcomm : ∀ a b, op a b = op b a)
    (hleft : ∀ a, op e a = a)
    (hadd : ∀ a x, c.addInput a x = x.bind (loop (fun a t => .ok (step' a t)) a))
    (hmerge : ∀ l, c.merge l = mergeWith plus l) (hcreate : v c.create = e)
    (hstep : ∀ a t, v (step' a t) = op (v a) (f' t))
    (hplus : ∀ a b, v (plus a b) = op (v a) (v b))
    {s : Sched (Except Err (List T))} {data} (p : s.inputs.Perm data) :
    (c.run s).toOption.map v = (allFlat data).map fun ts => (ts.map f').foldr op e := by
  rw [flat_run hassoc hcomm hleft hadd hmerge hcreate (f := fun t => some (f' t)) ?_ hplus p]
  · cases allFlat data with
    | none => rfl
    | some ts => simp only [Option.bind_some, Option.map_some, total_some]
  · intro a t; simp [Except.toOption, hstep]

theorem loop_eq_inv {Inv : α → Prop} (hassoc : ∀ a b d, op (op a b) d = op a (op b d))
    (hcomm : ∀ a b, op a b = op b a) (hleft : ∀ a, op e a = a)
    (hstep : ∀ a t, Inv a → (step a t).toOption.map v = (f t).map (op (v a)))
    (hinv : ∀ a t b, Inv a → step a t = .ok b → Inv b) (a : α) (ha : Inv a) (ts : List T) :
    (loop step a ts).toOption.map v = (total op e f ts).map (op (v a)) ∧
      ∀ b, loop step a ts = .ok b → Inv b := by
  induction ts generalizing a with
  | nil =>
    refine ⟨by simp [loop, total, prod, Except.toOption, hcomm _ e, hleft], ?_⟩
    intro b hb; simp only [loop, Except.ok.injEq] at hb; rw [← hb]; exact ha
  | cons t ts ih =>
    have hx := hstep a t ha
    simp only [loop]
    rw [total_cons]
    cases hq : step a t with
    | error er =>
      rw [hq] at hx
      refine ⟨?_, fun b hb => by cases hb⟩
      cases hf : f t with
      | none => simp [bind, Except.bind, Except.toOption, liftOp]
      | some b => rw [hf] at hx; simp [Except.toOption] at hx
    | ok a' =>
      rw [hq] at hx
      cases hf : f t with
      | none => rw [hf] at hx; simp [Except.toOption] at hx
      | some b =>
        rw [hf] at hx
        simp only [Except.toOption, Option.map_some, Option.some.injEq] at hx
        simp only [bind, Except.bind]
        obtain ⟨h1, h2⟩ := ih a' (hinv a t a' ha hq)
        refine ⟨?_, h2⟩
        rw [h1, hx]
        cases total op e f ts <;> simp [hassoc, liftOp]

/-- As `flat_run`, with an invariant of the accumulators and a merge that may raise on unreachable states. -/
theorem flat_run_inv {c : CombineFn (Except Err (List T)) α} {plus : α → α → Except Err α} {Inv : α → Prop}
    (hassoc : ∀ a b d, op (op a b) d = op a (op b d)) (hcomm : ∀ a b, op a b = op b a)
    (hleft : ∀ a, op e a = a)
    (hadd : ∀ a x, c.addInput a x = x.bind (loop step a))
    (hmerge : ∀ l, c.merge l = mergeLoop plus l) (hcreate : v c.create = e) (hinvc : Inv c.create)
    (hstep : ∀ a t, Inv a → (step a t).toOption.map v = (f t).map (op (v a)))
    (hinv : ∀ a t b, Inv a → step a t = .ok b → Inv b)
    (hplus : ∀ a b, Inv a → Inv b → ∃ d, plus a b = .ok d ∧ Inv d ∧ v d = op (v a) (v b))
    {s : Sched (Except Err (List T))} {data} (p : s.inputs.Perm data) :
    (c.run s).toOption.map v = (allFlat data).bind (total op e f) ∧ ∀ b, c.run s = .ok b → Inv b := by
  have h : OHom c op e (elemTotal op e f) v Inv := by
    refine ⟨hassoc, hcomm, hleft, hinvc, ?_, hcreate, ?_, ?_⟩
    · intro a x b ha hb
      rw [hadd] at hb
      cases x with
      | error er => cases hb
      | ok ts => exact (loop_eq_inv hassoc hcomm hleft hstep hinv a ha ts).2 b hb
    · intro a x ha
      rw [hadd]
      cases x with
      | error er => rfl
      | ok ts => exact (loop_eq_inv hassoc hcomm hleft hstep hinv a ha ts).1
    · intro a as hy
      rw [hmerge]
      simp only [mergeLoop]
      induction as generalizing a with
      | nil => exact ⟨a, rfl, hy a (List.mem_singleton.2 rfl), rfl⟩
      | cons b as ih =>
        obtain ⟨d, h1, h2, h3⟩ := hplus a b (hy a (by simp)) (hy b (by simp))
        obtain ⟨r, hr1, hr2, hr3⟩ := ih d (by
          intro y hyy
          rcases List.mem_cons.1 hyy with hyy | hyy
          · rw [hyy]; exact h2
          · exact hy y (by simp [hyy]))
        refine ⟨r, ?_, hr2, ?_⟩
        · simp only [loop, h1]; exact hr1
        · rw [hr3, List.map_cons, List.foldl_cons, h3]
  refine ⟨?_, fun b hb => run_inv h.hom hb⟩
  rw [← total_elemTotal hassoc hleft]
  exact orun_eq h p

end

/-! ### Relating accumulators to their inputs -/

section
variable {c : CombineFn ε α} {P : List ε → α → Prop}

theorem addAll_rel (hadd : ∀ xs a x b, P xs a → c.addInput a x = .ok b → P (xs ++ [x]) b) :
    ∀ (ys xs : List ε) (a b : α), P xs a → c.addAll a ys = .ok b → P (xs ++ ys) b
  | [], xs, a, b, h, hb => by
    simp only [CombineFn.addAll, Except.ok.injEq] at hb
    subst hb; simpa using h
  | y :: ys, xs, a, b, h, hb => by
    simp only [CombineFn.addAll] at hb
    cases hq : c.addInput a y with
    | error e => rw [hq] at hb; cases hb
    | ok a' =>
      rw [hq] at hb
      have := addAll_rel hadd ys (xs ++ [y]) a' b (hadd xs a y a' h hq) hb
      simpa using this

mutual
/-- Induction over executions: a relation between inputs and accumulator that holds initially and is kept by every
method holds for every execution. -/
theorem run_rel (h0 : P [] c.create) (hadd : ∀ xs a x b, P xs a → c.addInput a x = .ok b → P (xs ++ [x]) b)
    (hmerge : ∀ l : List (List ε × α), l ≠ [] → (∀ p ∈ l, P p.1 p.2) → ∀ b, c.merge (l.map Prod.snd) = .ok b →
      P (l.map Prod.fst).flatten b) :
    ∀ (s : Sched ε) (b : α), c.run s = .ok b → P s.inputs b
  | .bundle xs, b, hb => by
    simp only [CombineFn.run] at hb
    simpa [Sched.inputs] using addAll_rel hadd xs [] c.create b h0 hb
  | .extend s xs, b, hb => by
    simp only [CombineFn.run] at hb
    cases hr : c.run s with
    | error e => rw [hr] at hb; cases hb
    | ok a =>
      rw [hr] at hb
      exact addAll_rel hadd xs s.inputs a b (run_rel h0 hadd hmerge s a hr) hb
  | .merge ss, b, hb => by
    simp only [CombineFn.run] at hb
    cases hr : c.runs ss with
    | error e => rw [hr] at hb; cases hb
    | ok as =>
      rw [hr] at hb
      obtain ⟨l, h1, h2, h3, h4⟩ := runs_rel h0 hadd hmerge ss as hr
      have := hmerge l h1 h2 b (by rw [h3]; exact hb)
      rw [h4] at this
      exact this
theorem runs_rel (h0 : P [] c.create) (hadd : ∀ xs a x b, P xs a → c.addInput a x = .ok b → P (xs ++ [x]) b)
    (hmerge : ∀ l : List (List ε × α), l ≠ [] → (∀ p ∈ l, P p.1 p.2) → ∀ b, c.merge (l.map Prod.snd) = .ok b →
      P (l.map Prod.fst).flatten b) :
    ∀ (ss : Scheds ε) (as : List α), c.runs ss = .ok as →
      ∃ l : List (List ε × α), l ≠ [] ∧ (∀ p ∈ l, P p.1 p.2) ∧ l.map Prod.snd = as ∧
        (l.map Prod.fst).flatten = ss.inputs
  | .one s, as, h => by
    simp only [CombineFn.runs] at h
    cases hr : c.run s with
    | error e => rw [hr] at h; cases h
    | ok a =>
      rw [hr] at h
      simp only [bind, Except.bind, pure, Except.pure, Except.ok.injEq] at h
      refine ⟨[(s.inputs, a)], by simp, ?_, by simpa using h, by simp [Scheds.inputs]⟩
      intro p hp
      rw [List.mem_singleton] at hp
      subst hp
      exact run_rel h0 hadd hmerge s a hr
  | .cons s ss, as, h => by
    simp only [CombineFn.runs] at h
    cases hr : c.run s with
    | error e => rw [hr] at h; cases h
    | ok a =>
      rw [hr] at h
      cases hrs : c.runs ss with
      | error e => rw [hrs] at h; cases h
      | ok as' =>
        rw [hrs] at h
        simp only [bind, Except.bind, pure, Except.pure, Except.ok.injEq] at h
        obtain ⟨l, _, h2, h3, h4⟩ := runs_rel h0 hadd hmerge ss as' hrs
        refine ⟨(s.inputs, a) :: l, by simp, ?_, by simp [h3, h], by simp [h4, Scheds.inputs]⟩
        intro p hp
        rcases List.mem_cons.1 hp with rfl | hp
        · exact run_rel h0 hadd hmerge s a hr
        · exact h2 p hp
end

/-- As `run_rel` for combiners that merge pairwise from the first accumulator on. -/
theorem run_rel_pair {plus : α → α → Except Err α} (h0 : P [] c.create)
    (hadd : ∀ xs a x b, P xs a → c.addInput a x = .ok b → P (xs ++ [x]) b)
    (hm : ∀ l, c.merge l = mergeLoop plus l)
    (hplus : ∀ xs ys a b d, P xs a → P ys b → plus a b = .ok d → P (xs ++ ys) d) (s : Sched ε) (b : α)
    (h : c.run s = .ok b) : P s.inputs b := by
  refine run_rel h0 hadd ?_ s b h
  intro l hl hp b hb
  rw [hm] at hb
  cases l with
  | nil => exact absurd rfl hl
  | cons p l =>
    simp only [List.map_cons, mergeLoop] at hb
    have key : ∀ (l : List (List ε × α)) (xs : List ε) (a b : α), P xs a → (∀ p ∈ l, P p.1 p.2) →
        loop plus a (l.map Prod.snd) = .ok b → P (xs ++ (l.map Prod.fst).flatten) b := by
      intro l
      induction l with
      | nil =>
        intro xs a b ha _ hb
        simp only [List.map_nil, loop, Except.ok.injEq] at hb
        subst hb; simpa using ha
      | cons q l ih =>
        intro xs a b ha hq hb
        simp only [List.map_cons, loop] at hb
        cases hd : plus a q.2 with
        | error e => rw [hd] at hb; cases hb
        | ok d =>
          rw [hd] at hb
          have := ih (xs ++ q.1) d b (hplus xs q.1 a q.2 d ha (hq q (by simp)) hd) (fun p hp => hq p (by simp [hp])) hb
          simpa using this
    have := key l p.1 p.2 b (hp p (by simp)) (fun q hq => hp q (by simp [hq])) hb
    simpa using this

theorem mergeWith_eq_loop (plus : α → α → α) (l : List α) :
    mergeWith plus l = mergeLoop (fun a b => .ok (plus a b)) l := by
  cases l with
  | nil => rfl
  | cons a as =>
    simp only [mergeWith, mergeLoop]
    induction as generalizing a with
    | nil => rfl
    | cons b as ih => simp only [List.foldl_cons, loop]; exact ih (plus a b)

end

end TFMA.Beam
