import Verif.Model.Together
import Verif.Lemmas.Combine

/-!
# Lemmas about the tuple combiner
-/

namespace TFMA.Beam

variable {ε δ α β γ : Type}

mutual
/-- The same execution with every element replaced by a list of elements. -/
def Sched.expand (f : ε → List δ) : Sched ε → Sched δ
  | .bundle xs => .bundle (xs.flatMap f)
  | .extend s xs => .extend (s.expand f) (xs.flatMap f)
  | .merge ss => .merge (ss.expand f)
/-- The same executions with every element replaced by a list of elements. -/
def Scheds.expand (f : ε → List δ) : Scheds ε → Scheds δ
  | .one s => .one (s.expand f)
  | .cons s ss => .cons (s.expand f) (ss.expand f)
end

mutual
theorem Sched.inputs_expand (f : ε → List δ) : ∀ s : Sched ε, (s.expand f).inputs = s.inputs.flatMap f
  | .bundle xs => rfl
  | .extend s xs => by
    simp only [Sched.expand, Sched.inputs, List.flatMap_append, Sched.inputs_expand f s]
  | .merge ss => by
    simp only [Sched.expand, Sched.inputs, Scheds.inputs_expand f ss]
theorem Scheds.inputs_expand (f : ε → List δ) : ∀ ss : Scheds ε, (ss.expand f).inputs = ss.inputs.flatMap f
  | .one s => by simp only [Scheds.expand, Scheds.inputs, Sched.inputs_expand f s]
  | .cons s ss => by
    simp only [Scheds.expand, Scheds.inputs, List.flatMap_append, Sched.inputs_expand f s, Scheds.inputs_expand f ss]
end

/-- The number of accumulators of a collection of executions. -/
def Scheds.size : Scheds ε → ℕ
  | .one _ => 1
  | .cons _ ss => ss.size + 1

theorem Scheds.size_expand (f : ε → List δ) : ∀ ss : Scheds ε, (ss.expand f).size = ss.size
  | .one _ => by simp only [Scheds.expand, Scheds.size]
  | .cons _ ss => by simp only [Scheds.expand, Scheds.size, Scheds.size_expand f ss]

theorem runs_length (c : CombineFn ε α) : ∀ (ss : Scheds ε) (l : List α), c.runs ss = .ok l → l.length = ss.size
  | .one s, l, h => by
    simp only [CombineFn.runs] at h
    cases hr : c.run s with
    | error e => rw [hr] at h; cases h
    | ok a => rw [hr] at h; cases h; rfl
  | .cons s ss, l, h => by
    simp only [CombineFn.runs] at h
    cases hr : c.run s with
    | error e => rw [hr] at h; cases h
    | ok a =>
      rw [hr] at h
      cases hrs : c.runs ss with
      | error e => rw [hrs] at h; cases h
      | ok as =>
        rw [hrs] at h; cases h
        simp [Scheds.size, runs_length c ss as hrs]

theorem addAll_always (c : CombineFn ε α) (hadd : ∀ a x, ∃ b, c.addInput a x = .ok b) (a : α) (xs : List ε) :
    ∃ b, c.addAll a xs = .ok b := by
  induction xs generalizing a with
  | nil => exact ⟨a, rfl⟩
  | cons x xs ih =>
    obtain ⟨b, hb⟩ := hadd a x
    simp only [CombineFn.addAll, hb]
    exact ih b

mutual
theorem run_always (c : CombineFn ε α) (hadd : ∀ a x, ∃ b, c.addInput a x = .ok b)
    (hmerge : ∀ l, ∃ b, c.merge l = .ok b) : ∀ s : Sched ε, ∃ b, c.run s = .ok b
  | .bundle xs => by simpa only [CombineFn.run] using addAll_always c hadd _ xs
  | .extend s xs => by
    obtain ⟨a, ha⟩ := run_always c hadd hmerge s
    simp only [CombineFn.run, ha]
    exact addAll_always c hadd a xs
  | .merge ss => by
    obtain ⟨a, ha⟩ := runs_always c hadd hmerge ss
    simp only [CombineFn.run, ha]
    exact hmerge a
theorem runs_always (c : CombineFn ε α) (hadd : ∀ a x, ∃ b, c.addInput a x = .ok b)
    (hmerge : ∀ l, ∃ b, c.merge l = .ok b) : ∀ ss : Scheds ε, ∃ b, c.runs ss = .ok b
  | .one s => by
    obtain ⟨a, ha⟩ := run_always c hadd hmerge s
    exact ⟨[a], by simp only [CombineFn.runs, ha]; rfl⟩
  | .cons s ss => by
    obtain ⟨a, ha⟩ := run_always c hadd hmerge s
    obtain ⟨as, has⟩ := runs_always c hadd hmerge ss
    exact ⟨a :: as, by simp only [CombineFn.runs, ha, has]; rfl⟩
end

theorem addAll_append (c : CombineFn ε α) (a : α) (xs ys : List ε) (b : α) :
    c.addAll a (xs ++ ys) = .ok b ↔ ∃ m, c.addAll a xs = .ok m ∧ c.addAll m ys = .ok b := by
  induction xs generalizing a with
  | nil => simp [CombineFn.addAll]
  | cons x xs ih =>
    simp only [List.cons_append, CombineFn.addAll]
    cases c.addInput a x with
    | error e => simp [bind, Except.bind]
    | ok a' => exact ih a'

section
variable {p : CombineFn ε γ} {c : CombineFn δ α} {d : CombineFn ε β} {f : ε → List δ} {pair : γ → α × β}
  {S : ε → Prop}

/-- `p` runs `c` (on expanded elements) and `d` side by side. -/
structure SideBySide (p : CombineFn ε γ) (c : CombineFn δ α) (d : CombineFn ε β) (f : ε → List δ) (pair : γ → α × β)
    (S : ε → Prop) : Prop where
  inj : ∀ x y, pair x = pair y → x = y
  surj : ∀ x, ∃ y, pair y = x
  create : pair p.create = (c.create, d.create)
  add : ∀ x e y, S e → (p.addInput x e = .ok y ↔
    c.addAll (pair x).1 (f e) = .ok (pair y).1 ∧ d.addInput (pair x).2 e = .ok (pair y).2)
  merge : ∀ l y, p.merge l = .ok y ↔
    c.merge (l.map fun x => (pair x).1) = .ok (pair y).1 ∧ d.merge (l.map fun x => (pair x).2) = .ok (pair y).2

theorem SideBySide.addAll (h : SideBySide p c d f pair S) (x : γ) (es : List ε) (y : γ) (hS : ∀ e ∈ es, S e) :
    p.addAll x es = .ok y ↔
      c.addAll (pair x).1 (es.flatMap f) = .ok (pair y).1 ∧ d.addAll (pair x).2 es = .ok (pair y).2 := by
  induction es generalizing x with
  | nil =>
    simp only [CombineFn.addAll, List.flatMap_nil, Except.ok.injEq]
    constructor
    · rintro rfl; exact ⟨rfl, rfl⟩
    · rintro ⟨h1, h2⟩; exact h.inj _ _ (Prod.ext h1 h2)
  | cons e es ih =>
    have hS' : ∀ e ∈ es, S e := fun e he => hS e (by simp [he])
    rw [List.flatMap_cons, addAll_append]
    constructor
    · intro hy
      simp only [CombineFn.addAll] at hy ⊢
      cases hq : p.addInput x e with
      | error _ => rw [hq] at hy; cases hy
      | ok m =>
        rw [hq] at hy
        obtain ⟨h1, h2⟩ := (h.add x e m (hS e (by simp))).1 hq
        obtain ⟨h3, h4⟩ := (ih m hS').1 hy
        exact ⟨⟨_, h1, h3⟩, by rw [h2]; exact h4⟩
    · rintro ⟨⟨m1, h1, h3⟩, h4⟩
      simp only [CombineFn.addAll] at h4 ⊢
      cases hq : d.addInput (pair x).2 e with
      | error _ => rw [hq] at h4; cases h4
      | ok m2 =>
        rw [hq] at h4
        obtain ⟨m, hm⟩ := h.surj (m1, m2)
        have hm1 : (pair m).1 = m1 := by rw [hm]
        have hm2 : (pair m).2 = m2 := by rw [hm]
        rw [(h.add x e m (hS e (by simp))).2 ⟨by rw [hm1]; exact h1, by rw [hm2]; exact hq⟩]
        exact (ih m hS').2 ⟨by rw [hm1]; exact h3, by rw [hm2]; exact h4⟩

theorem SideBySide.lists (h : SideBySide p c d f pair S) (l1 : List α) (l2 : List β) (hl : l1.length = l2.length) :
    ∃ l : List γ, l.map (fun x => (pair x).1) = l1 ∧ l.map (fun x => (pair x).2) = l2 := by
  induction l1 generalizing l2 with
  | nil =>
    cases l2 with
    | nil => exact ⟨[], rfl, rfl⟩
    | cons _ _ => simp at hl
  | cons a l1 ih =>
    cases l2 with
    | nil => simp at hl
    | cons b l2 =>
      obtain ⟨l, h1, h2⟩ := ih l2 (by simpa using hl)
      obtain ⟨x, hx⟩ := h.surj (a, b)
      exact ⟨x :: l, by simp [h1, hx], by simp [h2, hx]⟩

theorem SideBySide.map_inj (h : SideBySide p c d f pair S) (l l' : List γ)
    (h1 : l.map (fun x => (pair x).1) = l'.map fun x => (pair x).1)
    (h2 : l.map (fun x => (pair x).2) = l'.map fun x => (pair x).2) : l = l' := by
  induction l generalizing l' with
  | nil => cases l' with
    | nil => rfl
    | cons _ _ => simp at h1
  | cons x l ih => cases l' with
    | nil => simp at h1
    | cons y l' =>
      simp only [List.map_cons, List.cons.injEq] at h1 h2
      rw [h.inj x y (Prod.ext h1.1 h2.1), ih l' h1.2 h2.2]

mutual
theorem SideBySide.run (h : SideBySide p c d f pair S) : ∀ (s : Sched ε) (y : γ), (∀ e ∈ s.inputs, S e) →
    (p.run s = .ok y ↔ c.run (s.expand f) = .ok (pair y).1 ∧ d.run s = .ok (pair y).2)
  | .bundle xs, y, hS => by
    simp only [Sched.inputs] at hS
    simp only [CombineFn.run, Sched.expand]
    rw [h.addAll _ _ _ hS, h.create]
  | .extend s xs, y, hS => by
    simp only [Sched.inputs, List.mem_append] at hS
    simp only [CombineFn.run, Sched.expand]
    constructor
    · intro hy
      cases hr : p.run s with
      | error _ => rw [hr] at hy; cases hy
      | ok m =>
        rw [hr] at hy
        obtain ⟨h1, h2⟩ := (h.run s m fun e he => hS e (.inl he)).1 hr
        rw [h1, h2]
        exact (h.addAll _ _ _ fun e he => hS e (.inr he)).1 hy
    · rintro ⟨hy1, hy2⟩
      cases hr1 : c.run (s.expand f) with
      | error _ => rw [hr1] at hy1; cases hy1
      | ok m1 =>
        cases hr2 : d.run s with
        | error _ => rw [hr2] at hy2; cases hy2
        | ok m2 =>
          rw [hr1] at hy1; rw [hr2] at hy2
          obtain ⟨m, hm⟩ := h.surj (m1, m2)
          rw [(h.run s m fun e he => hS e (.inl he)).2 ⟨by rw [hm]; exact hr1, by rw [hm]; exact hr2⟩]
          exact (h.addAll _ _ _ fun e he => hS e (.inr he)).2 ⟨by rw [hm]; exact hy1, by rw [hm]; exact hy2⟩
  | .merge ss, y, hS => by
    simp only [CombineFn.run, Sched.expand]
    constructor
    · intro hy
      cases hr : p.runs ss with
      | error _ => rw [hr] at hy; cases hy
      | ok l =>
        rw [hr] at hy
        obtain ⟨h1, h2⟩ := (h.runs ss l hS).1 hr
        rw [h1, h2]
        exact (h.merge l y).1 hy
    · rintro ⟨hy1, hy2⟩
      cases hr1 : c.runs (ss.expand f) with
      | error _ => rw [hr1] at hy1; cases hy1
      | ok l1 =>
        cases hr2 : d.runs ss with
        | error _ => rw [hr2] at hy2; cases hy2
        | ok l2 =>
          rw [hr1] at hy1; rw [hr2] at hy2
          obtain ⟨l, hl1, hl2⟩ := h.lists l1 l2 (by
            rw [runs_length c _ _ hr1, runs_length d _ _ hr2, Scheds.size_expand])
          rw [(h.runs ss l hS).2 ⟨by rw [hl1]; exact hr1, by rw [hl2]; exact hr2⟩]
          exact (h.merge l y).2 ⟨by rw [hl1]; exact hy1, by rw [hl2]; exact hy2⟩
theorem SideBySide.runs (h : SideBySide p c d f pair S) : ∀ (ss : Scheds ε) (l : List γ), (∀ e ∈ ss.inputs, S e) →
    (p.runs ss = .ok l ↔ c.runs (ss.expand f) = .ok (l.map fun x => (pair x).1) ∧
      d.runs ss = .ok (l.map fun x => (pair x).2))
  | .one s, l, hS => by
    simp only [CombineFn.runs, Scheds.expand]
    simp only [Scheds.inputs] at hS
    constructor
    · intro hy
      cases hr : p.run s with
      | error _ => rw [hr] at hy; cases hy
      | ok m =>
        rw [hr] at hy; cases hy
        obtain ⟨h1, h2⟩ := (h.run s m hS).1 hr
        rw [h1, h2]; exact ⟨rfl, rfl⟩
    · rintro ⟨hy1, hy2⟩
      cases hr1 : c.run (s.expand f) with
      | error _ => rw [hr1] at hy1; cases hy1
      | ok m1 =>
        cases hr2 : d.run s with
        | error _ => rw [hr2] at hy2; cases hy2
        | ok m2 =>
          rw [hr1] at hy1; rw [hr2] at hy2
          obtain ⟨m, hm⟩ := h.surj (m1, m2)
          rw [(h.run s m hS).2 ⟨by rw [hm]; exact hr1, by rw [hm]; exact hr2⟩]
          simp only [bind, Except.bind, pure, Except.pure, Except.ok.injEq] at hy1 hy2 ⊢
          exact h.map_inj _ _ (by simp [← hy1, hm]) (by simp [← hy2, hm])
  | .cons s ss, l, hS => by
    simp only [CombineFn.runs, Scheds.expand]
    simp only [Scheds.inputs, List.mem_append] at hS
    have hS1 : ∀ e ∈ s.inputs, S e := fun e he => hS e (.inl he)
    have hS2 : ∀ e ∈ ss.inputs, S e := fun e he => hS e (.inr he)
    constructor
    · intro hy
      cases hr : p.run s with
      | error _ => rw [hr] at hy; cases hy
      | ok m =>
        cases hrs : p.runs ss with
        | error _ => rw [hr, hrs] at hy; cases hy
        | ok ms =>
          rw [hr, hrs] at hy; cases hy
          obtain ⟨h1, h2⟩ := (h.run s m hS1).1 hr
          obtain ⟨h3, h4⟩ := (h.runs ss ms hS2).1 hrs
          rw [h1, h2, h3, h4]; exact ⟨rfl, rfl⟩
    · rintro ⟨hy1, hy2⟩
      cases hr1 : c.run (s.expand f) with
      | error _ => rw [hr1] at hy1; cases hy1
      | ok m1 =>
        cases hr2 : d.run s with
        | error _ => rw [hr2] at hy2; cases hy2
        | ok m2 =>
          cases hr3 : c.runs (ss.expand f) with
          | error _ => rw [hr1, hr3] at hy1; cases hy1
          | ok l1 =>
            cases hr4 : d.runs ss with
            | error _ => rw [hr2, hr4] at hy2; cases hy2
            | ok l2 =>
              rw [hr1, hr3] at hy1; rw [hr2, hr4] at hy2
              obtain ⟨m, hm⟩ := h.surj (m1, m2)
              obtain ⟨ms, hl1, hl2⟩ := h.lists l1 l2 (by
                rw [runs_length c _ _ hr3, runs_length d _ _ hr4, Scheds.size_expand])
              rw [(h.run s m hS1).2 ⟨by rw [hm]; exact hr1, by rw [hm]; exact hr2⟩,
                (h.runs ss ms hS2).2 ⟨by rw [hl1]; exact hr3, by rw [hl2]; exact hr4⟩]
              simp only [bind, Except.bind, pure, Except.pure, Except.ok.injEq] at hy1 hy2 ⊢
              exact h.map_inj _ _ (by simp [← hy1, hm, hl1]) (by simp [← hy2, hm, hl2])
end
end

end TFMA.Beam

namespace TFMA.Together

open Beam

variable {E K V : Type}

/-- the first computation runs beside the others. -/
theorem tuple_side (f : Prepared E → List E) (i : ℕ) (c : Computation E K V) (cs : List (Computation E K V)) :
    SideBySide (tuple i (c :: cs)) c.combiner (tuple (i + 1) cs) f (id : c.Acc × Accs cs → _)
      (fun p => getInput p i = some (f p)) where
  inj _ _ h := h
  surj x := ⟨x, rfl⟩
  create := rfl
  add := by
    rintro ⟨a, as⟩ p ⟨b, bs⟩ hp
    simp only [tuple, addAccs, hp, id]
    cases h1 : c.combiner.addAll a (f p) with
    | error e => simp
    | ok a' =>
      simp only
      cases h2 : addAccs p (i + 1) cs as with
      | error e => simp
      | ok as' =>
        simp only [Except.ok.injEq]
        exact ⟨fun h => by cases h; exact ⟨rfl, rfl⟩, fun ⟨h1, h2⟩ => by rw [h1, h2]⟩
  merge := by
    rintro l ⟨b, bs⟩
    change (match c.combiner.merge (List.map (fun x : c.Acc × Accs cs => x.1) l) with
      | .error x => .error x
      | .ok a => match mergeAccs cs (List.map (fun x : c.Acc × Accs cs => x.2) l) with
        | .error x => .error x
        | .ok as => .ok (a, as) : Except Err (c.Acc × Accs cs)) = .ok (b, bs) ↔
      c.combiner.merge (List.map (fun x : c.Acc × Accs cs => x.1) l) = .ok b ∧
        mergeAccs cs (List.map (fun x : c.Acc × Accs cs => x.2) l) = .ok bs
    cases h1 : c.combiner.merge (List.map (fun x : c.Acc × Accs cs => x.1) l) with
    | error e => simp
    | ok a' =>
      cases h2 : mergeAccs cs (List.map (fun x : c.Acc × Accs cs => x.2) l) with
      | error e => simp
      | ok as' => simp

theorem run_unit (i : ℕ) (s : Sched (Prepared E)) :
    ∃ as, (tuple i ([] : List (Computation E K V))).run s = .ok as :=
  run_always _ (fun _ _ => ⟨(), rfl⟩) (fun _ => ⟨(), rfl⟩) s

end TFMA.Together
