import Verif.Lemmas.Combine

/-!
# Executions that succeed
-/

namespace TFMA.Beam

variable {ε α : Type} {c : CombineFn ε α} {P : List ε → α → Prop} {Q : List ε → Prop}

theorem addAll_total (hQ : ∀ xs ys, Q (xs ++ ys) → Q xs ∧ Q ys)
    (hadd : ∀ xs a x, P xs a → Q (xs ++ [x]) → ∃ b, c.addInput a x = .ok b ∧ P (xs ++ [x]) b) :
    ∀ (ys xs : List ε) (a : α), P xs a → Q (xs ++ ys) → ∃ b, c.addAll a ys = .ok b ∧ P (xs ++ ys) b
  | [], xs, a, h, _ => ⟨a, rfl, by simpa using h⟩
  | y :: ys, xs, a, h, hq => by
    have hq' : Q ((xs ++ [y]) ++ ys) := by simpa using hq
    obtain ⟨b, h1, h2⟩ := hadd xs a y h (hQ _ _ hq').1
    obtain ⟨d, h3, h4⟩ := addAll_total hQ hadd ys (xs ++ [y]) b h2 hq'
    refine ⟨d, ?_, by simpa using h4⟩
    simp only [CombineFn.addAll, h1, bind, Except.bind]
    exact h3

mutual
/-- If the inputs are such that every method succeeds on the way, the execution does. -/
theorem run_total {plus : α → α → Except Err α} (hQ : ∀ xs ys, Q (xs ++ ys) → Q xs ∧ Q ys) (h0 : P [] c.create)
    (hadd : ∀ xs a x, P xs a → Q (xs ++ [x]) → ∃ b, c.addInput a x = .ok b ∧ P (xs ++ [x]) b)
    (hm : ∀ l, c.merge l = mergeLoop plus l)
    (hplus : ∀ xs ys a b, P xs a → P ys b → Q (xs ++ ys) → ∃ d, plus a b = .ok d ∧ P (xs ++ ys) d) :
    ∀ s : Sched ε, Q s.inputs → ∃ a, c.run s = .ok a ∧ P s.inputs a
  | .bundle xs, hq => by
    obtain ⟨a, h1, h2⟩ := addAll_total hQ hadd xs [] c.create h0 (by simpa [Sched.inputs] using hq)
    exact ⟨a, h1, by simpa [Sched.inputs] using h2⟩
  | .extend s xs, hq => by
    simp only [Sched.inputs] at hq
    obtain ⟨a, h1, h2⟩ := run_total hQ h0 hadd hm hplus s (hQ _ _ hq).1
    obtain ⟨b, h3, h4⟩ := addAll_total hQ hadd xs s.inputs a h2 hq
    refine ⟨b, ?_, h4⟩
    simp only [CombineFn.run, h1, bind, Except.bind]
    exact h3
  | .merge ss, hq => by
    simp only [Sched.inputs] at hq
    obtain ⟨a, as, h1, l, h2, h3⟩ := runs_total hQ h0 hadd hm hplus ss hq
    refine ⟨l, ?_, h3⟩
    simp only [CombineFn.run, h1, bind, Except.bind, hm, mergeLoop]
    exact h2
theorem runs_total {plus : α → α → Except Err α} (hQ : ∀ xs ys, Q (xs ++ ys) → Q xs ∧ Q ys) (h0 : P [] c.create)
    (hadd : ∀ xs a x, P xs a → Q (xs ++ [x]) → ∃ b, c.addInput a x = .ok b ∧ P (xs ++ [x]) b)
    (hm : ∀ l, c.merge l = mergeLoop plus l)
    (hplus : ∀ xs ys a b, P xs a → P ys b → Q (xs ++ ys) → ∃ d, plus a b = .ok d ∧ P (xs ++ ys) d) :
    ∀ ss : Scheds ε, Q ss.inputs → ∃ a as, c.runs ss = .ok (a :: as) ∧ ∃ b, loop plus a as = .ok b ∧ P ss.inputs b
  | .one s, hq => by
    obtain ⟨a, h1, h2⟩ := run_total hQ h0 hadd hm hplus s hq
    refine ⟨a, [], ?_, a, rfl, h2⟩
    simp only [CombineFn.runs, h1, bind, Except.bind, pure, Except.pure]
  | .cons s ss, hq => by
    simp only [Scheds.inputs] at hq
    obtain ⟨a, h1, h2⟩ := run_total hQ h0 hadd hm hplus s (hQ _ _ hq).1
    obtain ⟨l, hl, hne, hin⟩ := runs_split hQ h0 hadd hm hplus ss (hQ _ _ hq).2
    have key : ∀ (l : List (List ε × α)) (xs : List ε) (a : α), P xs a → (∀ p ∈ l, P p.1 p.2) →
        Q (xs ++ (l.map Prod.fst).flatten) →
        ∃ b, loop plus a (l.map Prod.snd) = .ok b ∧ P (xs ++ (l.map Prod.fst).flatten) b := by
      intro l
      induction l with
      | nil => intro xs a ha _ _; exact ⟨a, rfl, by simpa using ha⟩
      | cons p l ih =>
        intro xs a ha hp hq
        simp only [List.map_cons, List.flatten_cons, ← List.append_assoc] at hq
        obtain ⟨d, hd, hpd⟩ := hplus xs p.1 a p.2 ha (hp p (by simp)) (hQ _ _ hq).1
        obtain ⟨b, hb, hpb⟩ := ih (xs ++ p.1) d hpd (fun q hq => hp q (by simp [hq])) hq
        refine ⟨b, ?_, by simpa using hpb⟩
        simp only [List.map_cons, loop, hd, bind, Except.bind]
        exact hb
    obtain ⟨b, hb, hpb⟩ := key l s.inputs a h2 hne (by rw [hin]; exact hq)
    refine ⟨a, l.map Prod.snd, ?_, b, hb, ?_⟩
    · simp only [CombineFn.runs, h1, hl, bind, Except.bind, pure, Except.pure]
    · simpa [Scheds.inputs, hin] using hpb
theorem runs_split {plus : α → α → Except Err α} (hQ : ∀ xs ys, Q (xs ++ ys) → Q xs ∧ Q ys) (h0 : P [] c.create)
    (hadd : ∀ xs a x, P xs a → Q (xs ++ [x]) → ∃ b, c.addInput a x = .ok b ∧ P (xs ++ [x]) b)
    (hm : ∀ l, c.merge l = mergeLoop plus l)
    (hplus : ∀ xs ys a b, P xs a → P ys b → Q (xs ++ ys) → ∃ d, plus a b = .ok d ∧ P (xs ++ ys) d) :
    ∀ ss : Scheds ε, Q ss.inputs → ∃ l : List (List ε × α), c.runs ss = .ok (l.map Prod.snd) ∧
      (∀ p ∈ l, P p.1 p.2) ∧ (l.map Prod.fst).flatten = ss.inputs
  | .one s, hq => by
    obtain ⟨a, h1, h2⟩ := run_total hQ h0 hadd hm hplus s hq
    refine ⟨[(s.inputs, a)], ?_, by simpa using h2, by simp [Scheds.inputs]⟩
    simp only [CombineFn.runs, h1, bind, Except.bind, pure, Except.pure, List.map_cons, List.map_nil]
  | .cons s ss, hq => by
    simp only [Scheds.inputs] at hq
    obtain ⟨a, h1, h2⟩ := run_total hQ h0 hadd hm hplus s (hQ _ _ hq).1
    obtain ⟨l, hl, hp, hin⟩ := runs_split hQ h0 hadd hm hplus ss (hQ _ _ hq).2
    refine ⟨(s.inputs, a) :: l, ?_, ?_, by simp [Scheds.inputs, hin]⟩
    · simp only [CombineFn.runs, h1, hl, bind, Except.bind, pure, Except.pure, List.map_cons]
    · intro p hp'
      rcases List.mem_cons.1 hp' with rfl | hp'
      · exact h2
      · exact hp p hp'
end

mutual
/-- As `run_total`, for any way of merging. -/
theorem run_total_merge (hQ : ∀ xs ys, Q (xs ++ ys) → Q xs ∧ Q ys) (h0 : P [] c.create)
    (hadd : ∀ xs a x, P xs a → Q (xs ++ [x]) → ∃ b, c.addInput a x = .ok b ∧ P (xs ++ [x]) b)
    (hm : ∀ l : List (List ε × α), l ≠ [] → (∀ p ∈ l, P p.1 p.2) → Q (l.map Prod.fst).flatten →
      ∃ d, c.merge (l.map Prod.snd) = .ok d ∧ P (l.map Prod.fst).flatten d) :
    ∀ s : Sched ε, Q s.inputs → ∃ a, c.run s = .ok a ∧ P s.inputs a
  | .bundle xs, hq => by
    obtain ⟨a, h1, h2⟩ := addAll_total hQ hadd xs [] c.create h0 (by simpa [Sched.inputs] using hq)
    exact ⟨a, h1, by simpa [Sched.inputs] using h2⟩
  | .extend s xs, hq => by
    simp only [Sched.inputs] at hq
    obtain ⟨a, h1, h2⟩ := run_total_merge hQ h0 hadd hm s (hQ _ _ hq).1
    obtain ⟨b, h3, h4⟩ := addAll_total hQ hadd xs s.inputs a h2 hq
    refine ⟨b, ?_, h4⟩
    simp only [CombineFn.run, h1, bind, Except.bind]
    exact h3
  | .merge ss, hq => by
    simp only [Sched.inputs] at hq
    obtain ⟨l, hl, hne, hp, hin⟩ := runs_total_merge hQ h0 hadd hm ss hq
    obtain ⟨d, h1, h2⟩ := hm l hne hp (by rw [hin]; exact hq)
    refine ⟨d, ?_, by simpa [Sched.inputs, hin] using h2⟩
    simp only [CombineFn.run, hl, bind, Except.bind]
    exact h1
theorem runs_total_merge (hQ : ∀ xs ys, Q (xs ++ ys) → Q xs ∧ Q ys) (h0 : P [] c.create)
    (hadd : ∀ xs a x, P xs a → Q (xs ++ [x]) → ∃ b, c.addInput a x = .ok b ∧ P (xs ++ [x]) b)
    (hm : ∀ l : List (List ε × α), l ≠ [] → (∀ p ∈ l, P p.1 p.2) → Q (l.map Prod.fst).flatten →
      ∃ d, c.merge (l.map Prod.snd) = .ok d ∧ P (l.map Prod.fst).flatten d) :
    ∀ ss : Scheds ε, Q ss.inputs → ∃ l : List (List ε × α), c.runs ss = .ok (l.map Prod.snd) ∧ l ≠ [] ∧
      (∀ p ∈ l, P p.1 p.2) ∧ (l.map Prod.fst).flatten = ss.inputs
  | .one s, hq => by
    obtain ⟨a, h1, h2⟩ := run_total_merge hQ h0 hadd hm s hq
    refine ⟨[(s.inputs, a)], ?_, by simp, by simpa using h2, by simp [Scheds.inputs]⟩
    simp only [CombineFn.runs, h1, bind, Except.bind, pure, Except.pure, List.map_cons, List.map_nil]
  | .cons s ss, hq => by
    simp only [Scheds.inputs] at hq
    obtain ⟨a, h1, h2⟩ := run_total_merge hQ h0 hadd hm s (hQ _ _ hq).1
    obtain ⟨l, hl, -, hp, hin⟩ := runs_total_merge hQ h0 hadd hm ss (hQ _ _ hq).2
    refine ⟨(s.inputs, a) :: l, ?_, by simp, ?_, by simp [Scheds.inputs, hin]⟩
    · simp only [CombineFn.runs, h1, hl, bind, Except.bind, pure, Except.pure, List.map_cons]
    · intro p hp'
      rcases List.mem_cons.1 hp' with rfl | hp'
      · exact h2
      · exact hp p hp'
end

private theorem addAll_error {E : Err → Prop} (hadd : ∀ a x e, c.addInput a x = .error e → E e) :
    ∀ (xs : List ε) (a : α) (e : Err), c.addAll a xs = .error e → E e
  | [], a, e, h => by cases h
  | x :: xs, a, e, h => by
    simp only [CombineFn.addAll] at h
    cases hq : c.addInput a x with
    | error e' => rw [hq] at h; cases h; exact hadd a x e hq
    | ok b => rw [hq] at h; exact addAll_error hadd xs b e h

private theorem loop_error {T : Type} {E : Err → Prop} {plus : α → T → Except Err α} (hplus : ∀ a b e, plus a b = .error e → E e) :
    ∀ (xs : List T) (a : α) (e : Err), loop plus a xs = .error e → E e
  | [], a, e, h => by cases h
  | x :: xs, a, e, h => by
    simp only [loop] at h
    cases hq : plus a x with
    | error e' => rw [hq] at h; cases h; exact hplus a x e hq
    | ok b => rw [hq] at h; exact loop_error hplus xs b e h

private theorem runs_ne (c : CombineFn ε α) : ∀ (ss : Scheds ε) (as : List α), c.runs ss = .ok as → as ≠ []
  | .one s, as, h => by
    simp only [CombineFn.runs] at h
    cases hr : c.run s with
    | error e => rw [hr] at h; cases h
    | ok a => rw [hr] at h; cases h; simp
  | .cons s ss, as, h => by
    simp only [CombineFn.runs] at h
    cases hr : c.run s with
    | error e => rw [hr] at h; cases h
    | ok a =>
      rw [hr] at h
      cases hs : c.runs ss with
      | error e => rw [hs] at h; cases h
      | ok as' => rw [hs] at h; cases h; simp

mutual
/-- The errors of an execution are errors of its methods. -/
theorem run_error {E : Err → Prop} {plus : α → α → Except Err α} (hadd : ∀ a x e, c.addInput a x = .error e → E e)
    (hm : ∀ l, c.merge l = mergeLoop plus l) (hplus : ∀ a b e, plus a b = .error e → E e) :
    ∀ (s : Sched ε) (e : Err), c.run s = .error e → E e
  | .bundle xs, e, h => addAll_error hadd xs _ e h
  | .extend s xs, e, h => by
    simp only [CombineFn.run] at h
    cases hr : c.run s with
    | error e' => rw [hr] at h; cases h; exact run_error hadd hm hplus s e hr
    | ok a => rw [hr] at h; exact addAll_error hadd xs a e h
  | .merge ss, e, h => by
    simp only [CombineFn.run] at h
    cases hr : c.runs ss with
    | error e' => rw [hr] at h; cases h; exact runs_error hadd hm hplus ss e hr
    | ok as =>
      rw [hr] at h
      simp only [bind, Except.bind, hm] at h
      cases as with
      | nil => exact absurd rfl (runs_ne c ss [] hr)
      | cons a as => exact loop_error hplus as a e h
theorem runs_error {E : Err → Prop} {plus : α → α → Except Err α} (hadd : ∀ a x e, c.addInput a x = .error e → E e)
    (hm : ∀ l, c.merge l = mergeLoop plus l) (hplus : ∀ a b e, plus a b = .error e → E e) :
    ∀ (ss : Scheds ε) (e : Err), c.runs ss = .error e → E e
  | .one s, e, h => by
    simp only [CombineFn.runs] at h
    cases hr : c.run s with
    | error e' => rw [hr] at h; cases h; exact run_error hadd hm hplus s e hr
    | ok a => rw [hr] at h; cases h
  | .cons s ss, e, h => by
    simp only [CombineFn.runs] at h
    cases hr : c.run s with
    | error e' => rw [hr] at h; cases h; exact run_error hadd hm hplus s e hr
    | ok a =>
      rw [hr] at h
      cases hs : c.runs ss with
      | error e' => rw [hs] at h; cases h; exact runs_error hadd hm hplus ss e hs
      | ok as => rw [hs] at h; cases h
end

end TFMA.Beam
