import Verif.Model.Evaluate
import Verif.Props.MetricKeys

/-!
# C29, C30, C31: which computations run, and which results are emitted
-/

namespace TFMA
namespace Evaluate

open Slicer MetricKeys

variable {B V : Type}

/-! ### C29: duplicates

Specification: of each kind the first computations of each identity, in the order requested. -/

/-- The two computations have the same identity. -/
def sameId (c d : Computation B) : Bool :=
  match c.id, d.id with
  | .ok i, .ok j => decide (i = j)
  | _, _ => false

/-- The first element of each identity, in order. -/
def firsts : List (Computation B) → List (Computation B)
  | [] => []
  | c :: cs => c :: (firsts cs).filter fun d => !sameId c d

theorem sameId_iff (c d : Computation B) : sameId c d = true ↔ ∃ i, c.id = .ok i ∧ d.id = .ok i := by
  unfold sameId
  cases hc : c.id <;> cases hd : d.id <;> simp [eq_comm]

theorem sameId_comm (c d : Computation B) : sameId c d = sameId d c := by
  rw [Bool.eq_iff_iff, sameId_iff, sameId_iff]
  exact ⟨fun ⟨i, h1, h2⟩ => ⟨i, h2, h1⟩, fun ⟨i, h1, h2⟩ => ⟨i, h2, h1⟩⟩

theorem sameId_trans {c d e : Computation B} (h1 : sameId c d = true) (h2 : sameId d e = true) : sameId c e = true := by
  rw [sameId_iff] at *
  obtain ⟨i, a, b⟩ := h1
  obtain ⟨j, c', d'⟩ := h2
  rw [b] at c'; cases c'
  exact ⟨i, a, d'⟩

/-- What is still to come after the computations `l`. -/
def later (l cs : List (Computation B)) : List (Computation B) := (firsts cs).filter fun c => !l.any fun d => sameId d c

theorem later_nil (cs : List (Computation B)) : later [] cs = firsts cs := by simp [later]

theorem later_cons_old {l : List (Computation B)} {c : Computation B} {cs : List (Computation B)}
    (h : l.any (fun d => sameId d c) = true) : later l (c :: cs) = later l cs := by
  unfold later
  rw [firsts, List.filter_cons, h]
  simp only [Bool.not_true, Bool.false_eq_true, if_false, List.filter_filter]
  apply List.filter_congr
  intro d _
  by_cases hd : l.any (fun e => sameId e d) = true
  · simp [hd]
  · have : sameId c d = false := by
      by_contra hcd
      rw [Bool.not_eq_false] at hcd
      apply hd
      rw [List.any_eq_true] at h ⊢
      obtain ⟨e, he, hec⟩ := h
      exact ⟨e, he, sameId_trans hec hcd⟩
    simp [this]

theorem later_cons_new {l : List (Computation B)} {c : Computation B} {cs : List (Computation B)}
    (h : l.any (fun d => sameId d c) = false) : later l (c :: cs) = c :: later (l ++ [c]) cs := by
  unfold later
  rw [firsts, List.filter_cons, h]
  simp only [Bool.not_false, if_true, List.filter_filter, List.any_append, List.any_cons, List.any_nil, Bool.or_false,
    Bool.not_or]

private theorem any_hasId {l : List (Computation B)} {c : Computation B} {i : CompId} (h : c.id = .ok i) :
    l.any (Computation.hasId i) = l.any fun d => sameId d c := by
  congr 1
  funext d
  unfold Computation.hasId sameId
  rw [h]
  cases d.id <;> rfl

private theorem addNew_eq {l l' : List (Computation B)} {c : Computation B} (h : addNew c l = .ok l') (cs : List (Computation B)) :
    l' ++ later l' cs = l ++ later l (c :: cs) := by
  unfold addNew at h
  split at h
  · cases h
  · rename_i i hi
    rw [any_hasId hi] at h
    cases hany : l.any (fun d => sameId d c) with
    | true =>
      rw [hany] at h
      cases h
      rw [later_cons_old hany]
    | false =>
      rw [hany] at h
      cases h
      rw [later_cons_new hany, List.append_assoc]
      rfl

/-- The computations of a kind. -/
def ofKind (kd : CompKind) (cs : List (Computation B)) : List (Computation B) := cs.filter fun c => decide (c.kind = kd)

private theorem ofKind_cons_self {kd : CompKind} {c : Computation B} (h : c.kind = kd) (cs : List (Computation B)) :
    ofKind kd (c :: cs) = c :: ofKind kd cs := by simp [ofKind, h]

private theorem ofKind_cons_ne {kd : CompKind} {c : Computation B} (h : c.kind ≠ kd) (cs : List (Computation B)) :
    ofKind kd (c :: cs) = ofKind kd cs := by simp [ofKind, h]

private theorem loop_eq (cs : List (Computation B)) (s r : Separated B) (h : separateLoop s cs = .ok r) :
    r.nonDerived = s.nonDerived ++ later s.nonDerived (ofKind .metric cs) ∧
    r.derived = s.derived ++ later s.derived (ofKind .derived cs) ∧
    r.crossSlice = s.crossSlice ++ later s.crossSlice (ofKind .crossSlice cs) ∧
    r.ciDerived = s.ciDerived ++ later s.ciDerived (ofKind .ciDerived cs) := by
  induction cs generalizing s with
  | nil =>
    cases h
    simp [ofKind, later, firsts]
  | cons c cs ih =>
    unfold separateLoop at h
    split at h
    · cases h
    · rename_i s' hs'
      obtain ⟨h1, h2, h3, h4⟩ := ih s' h
      unfold separateOne at hs'
      rw [h1, h2, h3, h4]
      cases hk : c.kind <;> rw [hk] at hs' <;> simp only [Except.map] at hs'
      case other => cases hs'
      all_goals
        split at hs'
        · cases hs'
        · rename_i l' hl'
          cases hs'
          have := fun cs => addNew_eq hl' cs
          simp [this, ofKind_cons_self hk, ofKind_cons_ne, hk]

/-- C29: each of the four lists consists of the first occurrences of the computations of its kind, in the order
requested. -/
theorem C29_first_occurrences (cs : List (Computation B)) (s : Separated B) (h : separate cs = .ok s) :
    s.nonDerived = firsts (ofKind .metric cs) ∧ s.derived = firsts (ofKind .derived cs) ∧
    s.crossSlice = firsts (ofKind .crossSlice cs) ∧ s.ciDerived = firsts (ofKind .ciDerived cs) := by
  have := loop_eq cs {} s h
  simpa [later_nil] using this

theorem firsts_sublist (cs : List (Computation B)) : (firsts cs).Sublist cs := by
  induction cs with
  | nil => exact List.Sublist.slnil
  | cons c cs ih => exact (List.filter_sublist.trans ih).cons_cons c

theorem firsts_pairwise (cs : List (Computation B)) : (firsts cs).Pairwise fun c d => sameId c d = false := by
  induction cs with
  | nil => exact List.Pairwise.nil
  | cons c cs ih =>
    refine List.Pairwise.cons ?_ (ih.filter _)
    intro d hd
    simpa using (List.mem_filter.1 hd).2

theorem firsts_represent (cs : List (Computation B)) (c : Computation B) (hc : c ∈ cs) :
    c ∈ firsts cs ∨ ∃ d ∈ firsts cs, sameId d c = true := by
  induction cs with
  | nil => cases hc
  | cons e cs ih =>
    rcases List.mem_cons.1 hc with rfl | hc
    · exact .inl (by simp [firsts])
    · by_cases h : sameId e c = true
      · exact .inr ⟨e, by simp [firsts], h⟩
      · rcases ih hc with h' | ⟨d, hd, hdc⟩
        · exact .inl (List.mem_cons_of_mem _ (List.mem_filter.2 ⟨h', by simpa using h⟩))
        · right
          by_cases hed : sameId e d = true
          · exact absurd (sameId_trans hed hdc) h
          · exact ⟨d, List.mem_cons_of_mem _ (List.mem_filter.2 ⟨hd, by simpa using hed⟩), hdc⟩

private theorem loop_ids (cs : List (Computation B)) (s r : Separated B) (h : separateLoop s cs = .ok r) :
    ∀ c ∈ cs, c.kind ≠ .other ∧ ∃ i, c.id = .ok i := by
  induction cs generalizing s with
  | nil => intro c hc; cases hc
  | cons c cs ih =>
    unfold separateLoop at h
    split at h
    · cases h
    · rename_i s' hs'
      intro d hd
      rcases List.mem_cons.1 hd with rfl | hd
      · unfold separateOne addNew at hs'
        cases hk : d.kind <;> rw [hk] at hs' <;> cases hi : d.id <;> simp [hi, Except.map] at hs' ⊢
      · exact ih s' h d hd

/-- C29: no requested computation is lost: its kind's list has a computation with the same identity. -/
theorem C29_represented (cs : List (Computation B)) (s : Separated B) (h : separate cs = .ok s) (c : Computation B)
    (hc : c ∈ cs) :
    ∃ d, sameId d c = true ∧ d.kind = c.kind ∧
      (d ∈ s.nonDerived ∨ d ∈ s.derived ∨ d ∈ s.crossSlice ∨ d ∈ s.ciDerived) := by
  obtain ⟨hk, i, hi⟩ := loop_ids cs {} s h c hc
  have hself : sameId c c = true := (sameId_iff c c).2 ⟨i, hi, hi⟩
  obtain ⟨h1, h2, h3, h4⟩ := C29_first_occurrences cs s h
  have key : ∀ kd, c.kind = kd → ∃ d, sameId d c = true ∧ d.kind = c.kind ∧ d ∈ firsts (ofKind kd cs) := by
    intro kd hkd
    have hmem : c ∈ ofKind kd cs := List.mem_filter.2 ⟨hc, by simpa using hkd⟩
    have hkind : ∀ d ∈ firsts (ofKind kd cs), d.kind = kd := fun d hd => by
      have := (List.mem_filter.1 ((firsts_sublist _).subset hd)).2
      simpa using this
    rcases firsts_represent _ _ hmem with h | ⟨d, hd, hdc⟩
    · exact ⟨c, hself, rfl, h⟩
    · exact ⟨d, hdc, (hkind d hd).trans hkd.symm, hd⟩
  rw [h1, h2, h3, h4]
  cases hkd : c.kind
  case other => exact absurd hkd hk
  all_goals
    obtain ⟨d, hd1, hd2, hd3⟩ := key _ hkd
    exact ⟨d, hd1, hd2.trans hkd, by tauto⟩

/-- C29: no identity occurs twice in a list, and the order is the one requested. -/
theorem C29_once_in_order (cs : List (Computation B)) (s : Separated B) (h : separate cs = .ok s) :
    ∀ l ∈ [s.nonDerived, s.derived, s.crossSlice, s.ciDerived],
      l.Sublist cs ∧ l.Pairwise fun c d => sameId c d = false := by
  obtain ⟨h1, h2, h3, h4⟩ := C29_first_occurrences cs s h
  rw [h1, h2, h3, h4]
  intro l hl
  simp only [List.mem_cons, List.not_mem_nil, or_false] at hl
  rcases hl with rfl | rfl | rfl | rfl <;>
    exact ⟨(firsts_sublist _).trans List.filter_sublist, firsts_pairwise _⟩

private theorem id_error {c : Computation B} {e : Err} (h : c.id = .error e) : e = .typeError := by
  unfold Computation.id at h
  rcases C44_sort_partial c.keys with h' | h' <;> rw [h'] at h <;> cases h
  rfl

/-- C29: two computations have the same identity exactly if they have the same class, the same keys in the same order (C44) and
the same preprocessors, and their keys can be sorted at all. -/
theorem C29_identity (c d : Computation B) :
    sameId c d = true ↔
      c.className = d.className ∧ c.keys = d.keys ∧ c.preprocessors = d.preprocessors ∧ ∃ l, sortKeys c.keys = .ok l := by
  rw [sameId_iff]
  unfold Computation.id
  constructor
  · rintro ⟨i, h1, h2⟩
    rcases C44_sort_partial c.keys with h | h <;> rw [h] at h1 <;> simp only [Except.ok.injEq, reduceCtorEq] at h1
    rcases C44_sort_partial d.keys with h' | h' <;> rw [h'] at h2 <;> simp only [Except.ok.injEq, reduceCtorEq] at h2
    rw [← h1] at h2
    simp only [Prod.mk.injEq] at h2
    exact ⟨h2.1.symm, h2.2.1.symm, h2.2.2.symm, _, h⟩
  · rintro ⟨h1, h2, h3, l, h4⟩
    rw [← h1, ← h2, ← h3, h4]
    exact ⟨_, rfl, rfl⟩

/-- C29: the separation raises exactly if an object is not a computation or its keys cannot be sorted; the error is a
TypeError. -/
theorem C29_error (cs : List (Computation B)) :
    (separate cs = .error .typeError ↔ ∃ c ∈ cs, c.kind = .other ∨ ∃ e, c.id = .error e) ∧
    ∀ e, separate cs = .error e → e = .typeError := by
  have key : ∀ (cs : List (Computation B)) (s : Separated B), (∃ r, separateLoop s cs = .ok r) ∨ separateLoop s cs = .error .typeError := by
    intro cs
    induction cs with
    | nil => exact fun s => .inl ⟨s, rfl⟩
    | cons c cs ih =>
      intro s
      unfold separateLoop
      cases hs : separateOne s c with
      | ok s' => exact ih s'
      | error e =>
        right
        have : e = .typeError := by
          unfold separateOne addNew at hs
          cases hk : c.kind <;> rw [hk] at hs <;> cases hi : c.id <;> simp only [hi, Except.map] at hs
          all_goals first
            | (cases hs; first | rfl | exact id_error hi)
            | (split_ifs at hs)
        rw [this]
  have bad : ∀ (cs : List (Computation B)) (s : Separated B), (∃ c ∈ cs, c.kind = .other ∨ ∃ e, c.id = .error e) →
      ∀ r, separateLoop s cs ≠ .ok r := by
    intro cs s ⟨c, hc, hbad⟩ r h
    obtain ⟨h1, i, h2⟩ := loop_ids cs s r h c hc
    rcases hbad with hb | ⟨e, he⟩
    · exact h1 hb
    · rw [h2] at he; cases he
  have good : ∀ (cs : List (Computation B)) (s : Separated B), (¬ ∃ c ∈ cs, c.kind = .other ∨ ∃ e, c.id = .error e) →
      ∃ r, separateLoop s cs = .ok r := by
    intro cs
    induction cs with
    | nil => exact fun s _ => ⟨s, rfl⟩
    | cons c cs ih =>
      intro s h
      have hk : c.kind ≠ .other := fun hk => h ⟨c, by simp, .inl hk⟩
      obtain ⟨i, hi⟩ : ∃ i, c.id = .ok i := by
        cases hi : c.id with
        | ok i => exact ⟨i, rfl⟩
        | error e => exact absurd ⟨c, by simp, .inr ⟨e, hi⟩⟩ h
      have : ∃ s', separateOne s c = .ok s' := by
        unfold separateOne addNew
        rw [hi]
        cases hkd : c.kind
        case other => exact absurd hkd hk
        all_goals (simp only; split_ifs <;> exact ⟨_, rfl⟩)
      obtain ⟨s', hs'⟩ := this
      unfold separateLoop
      rw [hs']
      exact ih s' fun ⟨d, hd, hb⟩ => h ⟨d, by simp [hd], hb⟩
  refine ⟨⟨fun h => ?_, fun h => ?_⟩, fun e h => ?_⟩
  · by_contra hno
    obtain ⟨r, hr⟩ := good cs {} hno
    unfold separate at h
    rw [hr] at h; cases h
  · rcases key cs {} with ⟨r, hr⟩ | hr
    · exact absurd hr (bad cs {} h r)
    · exact hr
  · rcases key cs {} with ⟨r, hr⟩ | hr <;> unfold separate at h <;> rw [hr] at h <;> cases h
    rfl

/-- C29 (a consequence of C44): the same keys listed in another order are not recognised as the same computation. -/
theorem C29_key_order :
    ∃ c d : Computation Unit, c.kind = d.kind ∧ c.className = d.className ∧ c.keys.Perm d.keys ∧
      ∃ s, separate [c, d] = .ok s ∧ s.nonDerived = [c, d] := by
  refine ⟨⟨.metric, "C", [{ name := "a" }, { name := "b" }], [], ()⟩, ⟨.metric, "C", [{ name := "b" }, { name := "a" }], [], ()⟩,
    rfl, rfl, by decide, ⟨[_, _], [], [], []⟩, ?_, rfl⟩
  rfl

/-- Computations with duplicates of several kinds. -/
example : ∃ s, separate
    [(⟨.metric, "C", [{ name := "a" }], [], 0⟩ : Computation ℕ), ⟨.derived, "function", [{ name := "b" }], [], 1⟩,
      ⟨.metric, "C", [{ name := "a" }], [], 2⟩, ⟨.metric, "C", [{ name := "a" }], ["p"], 3⟩,
      ⟨.ciDerived, "function", [{ name := "b" }], [], 4⟩] = .ok s ∧
    s.nonDerived.map (·.body) = [0, 3] ∧ s.derived.map (·.body) = [1] ∧ s.ciDerived.map (·.body) = [4] :=
  ⟨⟨[⟨.metric, "C", [{ name := "a" }], [], 0⟩, ⟨.metric, "C", [{ name := "a" }], ["p"], 3⟩],
    [⟨.derived, "function", [{ name := "b" }], [], 1⟩], [], [⟨.ciDerived, "function", [{ name := "b" }], [], 4⟩]⟩,
    by rfl, rfl, rfl, rfl⟩

/-! ### Dictionaries of results -/

theorem get?_put (d : Results V) (k : MetricKey) (kd : Kind) (v : V) (k' : MetricKey) :
    Dict.get? (put d k kd v) k' =
      if k = k' then some (((Dict.get? d k).map Prod.fst).getD kd, v) else Dict.get? d k' := by
  unfold put
  split
  · rename_i kd' w h
    rw [Dict.get?_set, h]; rfl
  · rename_i h
    rw [Dict.get?_set, h]; rfl

theorem WF_put {d : Results V} (h : Dict.WF d) (k : MetricKey) (kd : Kind) (v : V) : Dict.WF (put d k kd v) := by
  unfold put; split <;> exact Dict.WF_set h _ _

theorem WF_updateWith {d : Results V} (h : Dict.WF d) (e : Results V) : Dict.WF (updateWith d e) := by
  unfold updateWith
  induction e generalizing d with
  | nil => exact h
  | cons p e ih => exact ih (WF_put h _ _ _)

theorem updateWith_cons (d : Results V) (p : MetricKey × Kind × V) (e : Results V) :
    updateWith d (p :: e) = updateWith (put d p.1 p.2.1 p.2.2) e := rfl

theorem get?_updateWith (d e : Results V) (he : Dict.WF e) (k : MetricKey) :
    Dict.get? (updateWith d e) k = match Dict.get? e k with
      | none => Dict.get? d k
      | some (kd, v) => some (((Dict.get? d k).map Prod.fst).getD kd, v) := by
  induction e generalizing d with
  | nil => rfl
  | cons p e ih =>
    obtain ⟨k1, kd1, v1⟩ := p
    have he' : Dict.WF e := (List.nodup_cons.1 he).2
    have hne : k1 ∉ Dict.keys e := (List.nodup_cons.1 he).1
    rw [updateWith_cons, ih _ he', Dict.get?_cons]
    by_cases hk : k1 = k
    · subst hk
      rw [(Dict.get?_eq_none_iff e k1).2 hne]
      simp [get?_put]
    · simp only [hk, if_false, get?_put]

/-- Storing values that are there already changes nothing. -/
theorem updateWith_same (d e : Results V) (h : ∀ k kd v, (k, kd, v) ∈ e → ∃ kd', Dict.get? d k = some (kd', v)) :
    updateWith d e = d := by
  have set_same : ∀ (d : Results V) k x, Dict.get? d k = some x → Dict.set d k x = d := by
    intro d k x
    induction d with
    | nil => intro h; cases h
    | cons p d ih =>
      obtain ⟨k', y⟩ := p
      intro h
      rw [Dict.get?_cons] at h
      by_cases hk : k' = k
      · simp only [hk, if_true, Option.some.injEq] at h
        subst h
        simp [Dict.set, hk]
      · simp only [hk, if_false] at h
        simp [Dict.set, hk, ih h]
  induction e with
  | nil => rfl
  | cons p e ih =>
    obtain ⟨k, kd, v⟩ := p
    rw [updateWith_cons]
    obtain ⟨kd', hk⟩ := h k kd v (by simp)
    have : put d k kd v = d := by
      unfold put
      rw [hk]
      exact set_same d k _ hk
    simp only [this]
    exact ih fun k kd v hm => h k kd v (by simp [hm])

/-! ### C30: derived computations -/

/-- C30 (negation): two derived computations with the same keys and the class name that all functions have are taken for
the same although they compute different things: only the first one runs. -/
theorem C30_merged :
    ∃ c d : Computation (Results ℕ → Except Err (Results ℕ)), c.kind = .derived ∧ d.kind = .derived ∧
      ∃ s, separate [c, d] = .ok s ∧ s.derived = [c] ∧
        addDerived [c, d] [] = .ok [({ name := "a" }, .metric, 1), ({ name := "b" }, .metric, 2)] ∧
        addDerived s.derived [] = .ok [({ name := "a" }, .metric, 1)] := by
  refine ⟨⟨.derived, "function", [], [], fun _ => .ok [({ name := "a" }, .metric, 1)]⟩,
    ⟨.derived, "function", [], [], fun _ => .ok [({ name := "b" }, .metric, 2)]⟩, rfl, rfl, ⟨[], [_], [], []⟩, ?_, rfl, ?_, ?_⟩ <;> rfl

/-- A derived computation as the documentation describes it: it reads some keys and writes others, and its outcome
depends on what it reads only. -/
structure Local (c : Computation (Results V → Except Err (Results V))) (reads writes : Set MetricKey) : Prop where
  det : ∀ d e : Results V, (∀ k ∈ reads, Dict.get? d k = Dict.get? e k) → c.body d = c.body e
  out : ∀ d r, c.body d = .ok r → Dict.WF r ∧ ∀ k ∈ Dict.keys r, k ∈ writes
  sep : Disjoint reads writes

/-- The requested computations: equal identities mean equal functions; different ones write different keys, and a
computation comes after those that write what it reads. -/
structure Ordered (reads writes : Computation (Results V → Except Err (Results V)) → Set MetricKey)
    (cs : List (Computation (Results V → Except Err (Results V)))) : Prop where
  loc : ∀ c ∈ cs, Local c (reads c) (writes c)
  ids : ∀ c ∈ cs, ∃ i, c.id = .ok i
  same : ∀ c ∈ cs, ∀ d ∈ cs, sameId c d = true → c.body = d.body
  unique : ∀ c ∈ cs, ∀ d ∈ cs, sameId c d = false → Disjoint (writes c) (writes d)
  order : ∀ pre c post, cs = pre ++ c :: post → ∀ d ∈ post, ((pre ++ [c]).all fun e => !sameId e d) = true →
    Disjoint (reads c) (writes d)

/-- `c` has run: running it again gives what is there. -/
private def Done (d : Results V) (c : Computation (Results V → Except Err (Results V))) : Prop :=
  ∃ r, c.body d = .ok r ∧ ∀ k kd v, (k, kd, v) ∈ r → ∃ kd', Dict.get? d k = some (kd', v)

private theorem done_step {reads writes : Computation (Results V → Except Err (Results V)) → Set MetricKey}
    {c e : Computation (Results V → Except Err (Results V))} (hc : Local c (reads c) (writes c)) (he : Local e (reads e) (writes e))
    (h1 : Disjoint (reads c) (writes e)) (h2 : Disjoint (writes c) (writes e)) {d r : Results V} (hr : e.body d = .ok r)
    (hd : Done d c) : Done (updateWith d r) c := by
  obtain ⟨rc, hrc, hin⟩ := hd
  have hget : ∀ k, k ∉ writes e → Dict.get? (updateWith d r) k = Dict.get? d k := by
    intro k hk
    obtain ⟨hwf, hw⟩ := he.out d r hr
    rw [get?_updateWith d r hwf, (Dict.get?_eq_none_iff r k).2 fun h => hk (hw k h)]
  refine ⟨rc, ?_, ?_⟩
  · rw [← hrc]
    apply hc.det
    intro k hk
    exact hget k fun h => Set.disjoint_left.1 h1 hk h
  · intro k kd v hm
    have hkw : k ∈ writes c := (hc.out d rc hrc).2 k (List.mem_map.2 ⟨_, hm, rfl⟩)
    rw [hget k fun h => Set.disjoint_left.1 h2 hkw h]
    exact hin k kd v hm

private theorem done_self {reads writes : Computation (Results V → Except Err (Results V)) → Set MetricKey}
    {c : Computation (Results V → Except Err (Results V))} (hc : Local c (reads c) (writes c)) {d r : Results V}
    (hr : c.body d = .ok r) : Done (updateWith d r) c := by
  obtain ⟨hwf, hw⟩ := hc.out d r hr
  refine ⟨r, ?_, ?_⟩
  · rw [← hr]
    apply hc.det
    intro k hk
    rw [get?_updateWith d r hwf, (Dict.get?_eq_none_iff r k).2 fun h => Set.disjoint_left.1 hc.sep hk (hw k h)]
  · intro k kd v hm
    rw [get?_updateWith d r hwf, Dict.get?_of_mem hwf hm]
    exact ⟨_, rfl⟩

private theorem dedup {reads writes : Computation (Results V → Except Err (Results V)) → Set MetricKey}
    (rest : List (Computation (Results V → Except Err (Results V)))) :
    ∀ (pre new : List (Computation (Results V → Except Err (Results V)))) (d : Results V),
      Ordered reads writes (pre ++ rest) → (∀ c ∈ new, c ∈ pre) → (∀ c ∈ pre, new.any (fun x => sameId x c) = true) →
      (∀ c ∈ pre, Done d c) → addDerived (later new rest) d = addDerived rest d := by
  induction rest with
  | nil => intro pre new d _ _ _ _; rfl
  | cons c rest ih =>
    intro pre new d ho hsub hcov hdone
    have hassoc : pre ++ c :: rest = (pre ++ [c]) ++ rest := by simp
    have hcmem : c ∈ pre ++ c :: rest := by simp
    by_cases hany : new.any (fun x => sameId x c) = true
    · rw [later_cons_old hany]
      obtain ⟨x, hx, hxc⟩ := List.any_eq_true.1 hany
      have hb : x.body = c.body := ho.same x (by simp [hsub x hx]) c hcmem hxc
      obtain ⟨r, hr, hin⟩ := hdone x (hsub x hx)
      rw [hb] at hr
      have hstep : addDerived (c :: rest) d = addDerived rest d := by
        simp only [addDerived, hr, updateWith_same d r hin]
      rw [hstep]
      refine ih (pre ++ [c]) new d (hassoc ▸ ho) (fun y hy => by simp [hsub y hy]) ?_ ?_
      · intro y hy
        rcases List.mem_append.1 hy with hy | hy
        · exact hcov y hy
        · rw [List.mem_singleton.1 hy]; exact hany
      · intro y hy
        rcases List.mem_append.1 hy with hy | hy
        · exact hdone y hy
        · rw [List.mem_singleton.1 hy]
          exact ⟨r, hr, hin⟩
    · rw [Bool.not_eq_true] at hany
      rw [later_cons_new hany]
      simp only [addDerived]
      cases hr : c.body d with
      | error e => rfl
      | ok r =>
        simp only
        have hcid : sameId c c = true := by
          obtain ⟨i, hi⟩ := ho.ids c hcmem
          exact (sameId_iff c c).2 ⟨i, hi, hi⟩
        refine ih (pre ++ [c]) (new ++ [c]) (updateWith d r) (hassoc ▸ ho) ?_ ?_ ?_
        · intro y hy
          rcases List.mem_append.1 hy with hy | hy
          · simp [hsub y hy]
          · simp [List.mem_singleton.1 hy]
        · intro y hy
          rw [List.any_append, Bool.or_eq_true]
          rcases List.mem_append.1 hy with hy | hy
          · exact .inl (hcov y hy)
          · right; rw [List.mem_singleton.1 hy]; simpa using hcid
        · have hnotc : ∀ y ∈ pre, sameId y c = false := by
            intro y hy
            by_contra hyc
            rw [Bool.not_eq_false] at hyc
            obtain ⟨x, hx, hxy⟩ := List.any_eq_true.1 (hcov y hy)
            have : new.any (fun x => sameId x c) = true := List.any_eq_true.2 ⟨x, hx, sameId_trans hxy hyc⟩
            rw [hany] at this; cases this
          intro y hy
          rcases List.mem_append.1 hy with hy | hy
          · obtain ⟨p1, p2, hp⟩ := List.append_of_mem hy
            have hord : Disjoint (reads y) (writes c) := by
              refine ho.order p1 y (p2 ++ c :: rest) (by simp [hp]) c (by simp) ?_
              rw [List.all_eq_true]
              intro z hz
              have : z ∈ pre := by
                rw [hp]
                rcases List.mem_append.1 hz with hz | hz
                · simp [hz]
                · simp [List.mem_singleton.1 hz]
              simp [hnotc z this]
            exact done_step (ho.loc y (by simp [hy])) (ho.loc c hcmem) hord
              (ho.unique y (by simp [hy]) c hcmem (hnotc y hy)) hr (hdone y hy)
          · rw [List.mem_singleton.1 hy]
            exact done_self (ho.loc c hcmem) hr

/-- C30 (partial: for computations whose identity determines the function, and in dependency order): dropping the
duplicates does not change any result: the dictionary, or the error, is the one of running all requested computations. -/
theorem C30_dedup_partial {reads writes : Computation (Results V → Except Err (Results V)) → Set MetricKey}
    (cs : List (Computation (Results V → Except Err (Results V)))) (ho : Ordered reads writes cs) (d : Results V) :
    addDerived (firsts cs) d = addDerived cs d := by
  rw [← later_nil]
  exact dedup cs [] [] d (by simpa using ho) (by simp) (by simp) (by simp)

/-- Two computations, the second reads what the first one writes; the first one is requested twice. -/
example : ∃ (reads writes : Computation (Results ℕ → Except Err (Results ℕ)) → Set MetricKey) (cs : List _),
    Ordered reads writes cs ∧ cs.length = 3 ∧ (firsts cs).length = 2 := by
  let a : Computation (Results ℕ → Except Err (Results ℕ)) :=
    ⟨.derived, "function", [{ name := "a" }], [], fun _ => .ok [({ name := "a" }, .metric, 1)]⟩
  let b : Computation (Results ℕ → Except Err (Results ℕ)) :=
    ⟨.derived, "function", [{ name := "b" }], [], fun d => match Dict.get? d { name := "a" } with
      | some x => .ok [({ name := "b" }, .metric, x.2 + 1)]
      | none => .error .keyError⟩
  have haa : sameId a a = true := rfl
  have hab : sameId a b = false := rfl
  have hba : sameId b a = false := rfl
  have hbb : sameId b b = true := rfl
  refine ⟨fun c => if c.keys = [{ name := "b" }] then {{ name := "a" }} else ∅, fun c => {k | k ∈ c.keys}, [a, b, a], ?_, rfl, rfl⟩
  have ra : (if a.keys = [({ name := "b" } : MetricKey)] then ({({ name := "a" } : MetricKey)} : Set MetricKey) else ∅) = ∅ := rfl
  have rb : (if b.keys = [({ name := "b" } : MetricKey)] then ({({ name := "a" } : MetricKey)} : Set MetricKey) else ∅) = {{ name := "a" }} := rfl
  have la : Local a ∅ {k | k ∈ a.keys} :=
    ⟨fun _ _ _ => rfl, fun d r h => by cases h; simp [Dict.WF, Dict.keys, a], by simp⟩
  have lb : Local b {{ name := "a" }} {k | k ∈ b.keys} := by
    refine ⟨fun d e h => ?_, fun d r h => ?_, ?_⟩
    · have := h { name := "a" } rfl
      simp only [b, this]
    · simp only [b] at h
      split at h
      · cases h; simp [Dict.WF, Dict.keys, b]
      · cases h
    · simp [b]
  constructor
  · intro c hc
    simp only [List.mem_cons, List.not_mem_nil, or_false] at hc
    rcases hc with rfl | rfl | rfl
    · simpa only [ra] using la
    · simpa only [rb] using lb
    · simpa only [ra] using la
  · intro c hc
    simp only [List.mem_cons, List.not_mem_nil, or_false] at hc
    rcases hc with rfl | rfl | rfl <;> exact ⟨_, rfl⟩
  · intro c hc d hd h
    simp only [List.mem_cons, List.not_mem_nil, or_false] at hc hd
    rcases hc with rfl | rfl | rfl <;> rcases hd with rfl | rfl | rfl <;> first | rfl | (rw [hab] at h; cases h) | (rw [hba] at h; cases h)
  · intro c hc d hd h
    simp only [List.mem_cons, List.not_mem_nil, or_false] at hc hd
    rcases hc with rfl | rfl | rfl <;> rcases hd with rfl | rfl | rfl <;>
      first | (rw [haa] at h; cases h) | (rw [hbb] at h; cases h) | (simp [a, b])
  · intro pre c post hcs d hd hall
    rcases pre with _ | ⟨p, _ | ⟨q, _ | ⟨w, pre⟩⟩⟩
    · simp only [List.nil_append, List.cons.injEq] at hcs
      obtain ⟨rfl, rfl⟩ := hcs
      simp only [ra]; simp
    · simp only [List.cons_append, List.nil_append, List.cons.injEq] at hcs
      obtain ⟨rfl, rfl, rfl⟩ := hcs
      simp only [List.mem_singleton] at hd
      subst hd
      simp [haa] at hall
    · simp only [List.cons_append, List.nil_append, List.cons.injEq] at hcs
      obtain ⟨rfl, rfl, rfl, rfl⟩ := hcs
      cases hd
    · simp at hcs

/-! ### C31: private metrics, kinds of keys -/

/-- The name starts with exactly one underscore. -/
def PrivateName (name : String) : Prop := ∃ r, name.toList = '_' :: r ∧ r.head? ≠ some '_'

theorem isPrivate_iff (k : MetricKey) : isPrivate k = true ↔ PrivateName k.name := by
  unfold isPrivate PrivateName
  split
  · rename_i r h
    simp [h]
  · rename_i r h1 h2
    simp only [h2, true_iff]
    refine ⟨r, rfl, ?_⟩
    cases r with
    | nil => simp
    | cons c r =>
      simp only [List.head?_cons, ne_eq, Option.some.injEq]
      rintro rfl
      exact h1 _ rfl
  · rename_i h1 h2
    simp only [Bool.false_eq_true, false_iff]
    rintro ⟨r, hr, _⟩
    exact h2 _ hr

/-- C31: exactly the entries with a private name are removed; the others stay, unchanged and in order. -/
theorem C31_private (d : Results V) :
    (removePrivate d).Sublist d ∧ (∀ p, p ∈ removePrivate d ↔ p ∈ d ∧ ¬ PrivateName p.1.name) ∧
    ((d.filter fun p => isPrivate p.1) ++ removePrivate d).Perm d := by
  refine ⟨List.filter_sublist, fun p => ?_, ?_⟩
  · rw [← isPrivate_iff]
    simp [removePrivate, List.mem_filter]
  · exact List.filter_append_perm _ d

/-- C31: looking up a key. -/
theorem C31_private_get (d : Results V) (k : MetricKey) :
    (PrivateName k.name → Dict.get? (removePrivate d) k = none) ∧
    (¬ PrivateName k.name → Dict.get? (removePrivate d) k = Dict.get? d k) := by
  rw [← isPrivate_iff]
  unfold removePrivate
  constructor
  · intro h
    rw [Dict.get?_eq_none_iff]
    intro hk
    obtain ⟨p, hp, rfl⟩ := List.mem_map.1 hk
    simp [List.mem_filter, h] at hp
  · intro h
    induction d with
    | nil => rfl
    | cons p d ih =>
      obtain ⟨k', x⟩ := p
      rw [List.filter_cons]
      by_cases hk : k' = k
      · subst hk
        simp [h, Dict.get?_cons]
      · by_cases hp : isPrivate k' = true
        · simp [hp, Dict.get?_cons, hk, ih]
        · simp [hp, Dict.get?_cons, hk, ih]

/-- C31: every entry goes to exactly one of the three outputs, the one of its kind, and nothing is added. -/
theorem C31_separated (d : Results V) :
    (∀ want, ∀ p, p ∈ filterKind want d ↔ p ∈ d ∧ p.2.1 = want) ∧
    (filterKind .metric d ++ filterKind .plot d ++ filterKind .attributions d).Perm d := by
  refine ⟨fun want p => ?_, ?_⟩
  · cases want <;> cases h : p.2.1 <;> simp [filterKind, keepKind, List.mem_filter, h]
  · induction d with
    | nil => exact List.Perm.nil
    | cons p d ih =>
      unfold filterKind at ih ⊢
      cases h : p.2.1
      · simp only [List.filter_cons, keepKind, h]
        simpa [keepKind] using ih
      · simp only [List.filter_cons, keepKind, h]
        simp only [keepKind] at ih
        simp only [decide_true, Bool.not_true, Bool.false_and, Bool.false_eq_true, if_false, if_true, reduceCtorEq, decide_false]
        rw [List.append_assoc, List.cons_append]
        refine List.perm_middle.trans ?_
        rw [← List.append_assoc]
        exact ih.cons p
      · simp only [List.filter_cons, keepKind, h]
        simp only [keepKind] at ih
        simp only [decide_true, Bool.not_true, Bool.and_false, Bool.false_eq_true, if_false, if_true, reduceCtorEq, decide_false]
        exact List.perm_middle.trans (ih.cons p)

/-- C31: the class of the key object is not part of its equality: a metric stored after a plot with equal fields is
emitted as a plot. -/
theorem C31_kinds_conflated :
    filterKind .metric (put (put [] { name := "a" } .plot 0) { name := "a" } .metric 1) = [] ∧
    filterKind .plot (put (put [] { name := "a" } .plot 0) { name := "a" } .metric 1) = [({ name := "a" }, .plot, 1)] := by
  decide +kernel

/-- Private, internal and ordinary names. -/
example : (removePrivate [({ name := "_p" }, .metric, 0), ({ name := "__error__" }, .metric, 1), ({ name := "auc" }, .plot, 2)] : Results ℕ)
    = [({ name := "__error__" }, .metric, 1), ({ name := "auc" }, .plot, 2)] := by
  decide +kernel

end Evaluate
end TFMA
