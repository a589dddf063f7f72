import Verif.Model.Identity
import Verif.Props.MetricKeys
import Mathlib.Data.List.Basic

/-!
# C170: what counts as the same key, preprocessor or computation
-/

namespace TFMA
namespace Identity

open MetricKeys

/-! ### Keys -/

private theorem cell_eq_iff (x y : Cell) : x.eq y = true ↔ x.hashed = y.hashed := by
  cases x with
  | none => cases y <;> simp [Cell.eq, Cell.hashed]
  | bool a =>
    cases y with
    | none => simp [Cell.eq, Cell.hashed]
    | bool b => cases a <;> cases b <;> simp [Cell.eq, Cell.hashed]
    | int z => simp [Cell.eq, Cell.hashed]
  | int z =>
    cases y with
    | none => simp [Cell.eq, Cell.hashed]
    | bool b => simp [Cell.eq, Cell.hashed]
    | int w => simp [Cell.eq, Cell.hashed]

private theorem cellsEq_iff (l m : List Cell) : cellsEq l m = true ↔ l.map Cell.hashed = m.map Cell.hashed := by
  induction l generalizing m with
  | nil => cases m <;> simp [cellsEq]
  | cons x xs ih =>
    cases m with
    | nil => simp [cellsEq]
    | cons y ys =>
      simp only [cellsEq, Bool.and_eq_true, List.map_cons, List.cons.injEq]
      rw [cell_eq_iff, ih]

/-- **C170**: equality of sub keys and of aggregation types is an equivalence, equal ones have equal hashes, and within one class only keys
with the same members are equal. -/
theorem C170_keys :
    (∀ a : KeyPart, a.eq a = true) ∧ (∀ a b : KeyPart, a.eq b = b.eq a) ∧
      (∀ a b c : KeyPart, a.eq b = true → b.eq c = true → a.eq c = true) ∧
      (∀ (h : List (Option ℤ) → ℕ) (a b : KeyPart), a.eq b = true → a.hash h = b.hash h) ∧
      (∀ s t : SubKey, KeyPart.eq (.subKey s) (.subKey t) = true ↔ s = t) ∧
      ∀ s t : AggregationType, KeyPart.eq (.aggregation s) (.aggregation t) = true ↔ s = t := by
  refine ⟨fun a => (cellsEq_iff _ _).2 rfl, fun a b => ?_, fun a b c h1 h2 => ?_, fun h a b h1 => ?_, fun s t => ?_, fun s t => ?_⟩
  · rw [Bool.eq_iff_iff]
    exact (cellsEq_iff _ _).trans (eq_comm.trans (cellsEq_iff _ _).symm)
  · exact (cellsEq_iff _ _).2 (((cellsEq_iff _ _).1 h1).trans ((cellsEq_iff _ _).1 h2))
  · exact congrArg h ((cellsEq_iff _ _).1 h1)
  · refine (cellsEq_iff _ _).trans ⟨fun h => ?_, fun h => by rw [h]⟩
    obtain ⟨a, b, c⟩ := s
    obtain ⟨a', b', c'⟩ := t
    cases a <;> cases a' <;> cases b <;> cases b' <;> cases c <;> cases c' <;>
      simp_all [KeyPart.cells, Cell.hashed]
  · refine (cellsEq_iff _ _).trans ⟨fun h => ?_, fun h => by rw [h]⟩
    obtain ⟨a, b, c⟩ := s
    obtain ⟨a', b', c'⟩ := t
    revert h
    rcases a with _ | (_ | _) <;> rcases a' with _ | (_ | _) <;> rcases b with _ | (_ | _) <;> rcases b' with _ | (_ | _) <;>
      rcases c with _ | (_ | _) <;> rcases c' with _ | (_ | _) <;> simp [KeyPart.cells, Cell.hashed]

/-- **C170** fails between classes: the sub key of class 1 equals the aggregation type of micro averages, and the sub key of class 0 the
explicit lack of one. -/
theorem C170_mixed_fails :
    KeyPart.eq (.subKey ⟨some 1, none, none⟩) (.aggregation ⟨some true, none, none⟩) = true ∧
      KeyPart.eq (.subKey ⟨some 0, none, none⟩) (.aggregation ⟨some false, none, none⟩) = true := by decide

/-! ### Preprocessors -/

/-- **C170**: equality of preprocessors is an equivalence, is the negation of inequality, and holds exactly for the same name, that of the
class if none is given. -/
theorem C170_preprocessors_partial :
    (∀ p : Preprocessor, p.eq p = true) ∧ (∀ p q : Preprocessor, p.eq q = q.eq p) ∧
      (∀ p q r : Preprocessor, p.eq q = true → q.eq r = true → p.eq r = true) ∧
      (∀ p q : Preprocessor, p.ne q = true ↔ ¬ p.eq q = true) ∧
      (∀ n m c d, n ≠ "" → m ≠ "" → (Preprocessor.eq ⟨some n, c⟩ ⟨some m, d⟩ = true ↔ n = m)) ∧
      (∀ c d, Preprocessor.eq ⟨none, c⟩ ⟨none, d⟩ = true ↔ c = d) ∧
      ∀ n c d, n ≠ "" → (Preprocessor.eq ⟨some n, c⟩ ⟨none, d⟩ = true ↔ n = d) := by
  refine ⟨fun p => by simp [Preprocessor.eq], fun p q => ?_, fun p q r h1 h2 => ?_, fun p q => ?_, fun n m c d hn hm => ?_,
    fun c d => decide_eq_true_iff, fun n c d hn => ?_⟩
  · simp [Preprocessor.eq, eq_comm]
  · simp only [Preprocessor.eq, decide_eq_true_eq] at *
    exact h1.trans h2
  · simp [Preprocessor.ne]
  · simp [Preprocessor.eq, Preprocessor.id, hn, hm]
  · simp [Preprocessor.eq, Preprocessor.id, hn]

/-- **C170** fails for hashes of preprocessors: none of them can be put into a set or a dict. -/
theorem C170_preprocessor_hash_fails (p : Preprocessor) : p.hash = .error .attributeError := rfl

/-! ### Computations -/

/-- Two computations that are to count as one: of one kind (a derived metric may come after confidence intervals), by objects of classes
with the same name, with the same keys in the same order and preprocessors of the same names. -/
structure Same (a b : Comp) : Prop where
  kind : a.kind = b.kind ∨ (a.kind ≠ .metric ∧ a.kind ≠ .crossSlice ∧ b.kind ≠ .metric ∧ b.kind ≠ .crossSlice)
  fnClass : a.fnClass = b.fnClass
  keys : a.keys = b.keys
  preprocessors : a.kind = .metric → a.preprocessors.map Preprocessor.id = b.preprocessors.map Preprocessor.id

/-- Keys that can be sorted. -/
def Sortable (c : Comp) : Prop := sortKeys c.keys = .ok c.keys

private theorem id_cases (c : Comp) :
    (Sortable c ∧ c.id = .ok (c.fnClass, c.keys, if c.kind = .metric then c.preprocessors.map Preprocessor.id else [])) ∨
      (¬ Sortable c ∧ c.id = .error .typeError) := by
  unfold Sortable Comp.id
  rcases C44_sort_partial c.keys with h | h
  · exact Or.inl ⟨h, by rw [h]⟩
  · exact Or.inr ⟨by rw [h]; simp, by rw [h]⟩

private theorem family_iff (k l : Kind) :
    family k l = true ↔ k = l ∨ (k ≠ .metric ∧ k ≠ .crossSlice ∧ l ≠ .metric ∧ l ≠ .crossSlice) := by
  cases k <;> cases l <;> simp [family]

/-- **C170**: computations are equal exactly if they are to count as one, unless the keys cannot be sorted. -/
theorem C170_equal (a b : Comp) : a.eq b = .ok true ↔ Sortable a ∧ Same a b := by
  unfold Comp.eq
  by_cases hf : family a.kind b.kind = true
  · rw [if_pos hf]
    have hk := (family_iff _ _).1 hf
    rcases id_cases a with ⟨sa, ia⟩ | ⟨sa, ia⟩
    · rw [ia]
      rcases id_cases b with ⟨sb, ib⟩ | ⟨sb, ib⟩
      · rw [ib]
        simp only [Except.ok.injEq, decide_eq_true_eq, Prod.mk.injEq]
        constructor
        · rintro ⟨h1, h2, h3⟩
          refine ⟨sa, hk, h1, h2, fun hm => ?_⟩
          have hb : b.kind = .metric := by
            rcases hk with h | h
            · rw [← h, hm]
            · exact absurd hm h.1
          simpa [hm, hb] using h3
        · rintro ⟨_, h⟩
          refine ⟨h.fnClass, h.keys, ?_⟩
          by_cases hm : a.kind = .metric
          · have hb : b.kind = .metric := by
              rcases hk with h' | h'
              · rw [← h', hm]
              · exact absurd hm h'.1
            rw [if_pos hm, if_pos hb, h.preprocessors hm]
          · have hb : b.kind ≠ .metric := by
              rcases hk with h' | h'
              · rwa [← h']
              · exact h'.2.2.1
            rw [if_neg hm, if_neg hb]
      · rw [ib]
        constructor
        · intro h; cases h
        · rintro ⟨_, h⟩
          refine (sb ?_).elim
          unfold Sortable at *
          rw [← h.keys]
          exact sa
    · rw [ia]
      constructor
      · intro h; cases h
      · rintro ⟨h, _⟩; exact (sa h).elim
  · rw [if_neg hf]
    constructor
    · intro h; cases h
    · rintro ⟨_, h⟩
      exact (hf ((family_iff _ _).2 h.kind)).elim

private theorem same_symm {a b : Comp} (h : Same a b) : Same b a := by
  have hk : b.kind = .metric → a.kind = .metric := fun hb => by
    rcases h.kind with h' | h'
    · rw [h', hb]
    · exact absurd hb h'.2.2.1
  exact ⟨h.kind.elim (fun e => Or.inl e.symm) fun e => Or.inr ⟨e.2.2.1, e.2.2.2, e.1, e.2.1⟩, h.fnClass.symm, h.keys.symm,
    fun hb => (h.preprocessors (hk hb)).symm⟩

/-- **C170**: equality of computations is an equivalence and equal computations have equal hashes. -/
theorem C170_equivalence :
    (∀ a : Comp, Sortable a → a.eq a = .ok true) ∧
      (∀ a b : Comp, a.eq b = .ok true → b.eq a = .ok true) ∧
      (∀ a b c : Comp, a.eq b = .ok true → b.eq c = .ok true → a.eq c = .ok true) ∧
      ∀ (h : String × List MetricKey × List String → ℕ) (a b : Comp), a.eq b = .ok true → ∃ n, a.hash h = .ok n ∧ b.hash h = .ok n := by
  refine ⟨fun a ha => (C170_equal a a).2 ⟨ha, Or.inl rfl, rfl, rfl, fun _ => rfl⟩, fun a b h => ?_, fun a b c h1 h2 => ?_,
    fun h a b h1 => ?_⟩
  · obtain ⟨sa, s⟩ := (C170_equal a b).1 h
    refine (C170_equal b a).2 ⟨?_, same_symm s⟩
    unfold Sortable at *
    rw [← s.keys]
    exact sa
  · obtain ⟨sa, s⟩ := (C170_equal a b).1 h1
    obtain ⟨_, t⟩ := (C170_equal b c).1 h2
    refine (C170_equal a c).2 ⟨sa, ?_, s.fnClass.trans t.fnClass, s.keys.trans t.keys, fun hm => ?_⟩
    · have hs := s.kind
      have ht := t.kind
      revert hs ht
      cases a.kind <;> cases b.kind <;> cases c.kind <;> simp
    · have hb : b.kind = .metric := by
        rcases s.kind with h | h
        · rw [← h, hm]
        · exact absurd hm h.1
      exact (s.preprocessors hm).trans (t.preprocessors hb)
  · unfold Comp.eq at h1
    split at h1
    · cases ia : a.id with
      | error e => rw [ia] at h1; cases h1
      | ok i =>
        rw [ia] at h1
        cases ib : b.id with
        | error e => rw [ib] at h1; cases h1
        | ok j =>
          rw [ib] at h1
          have hij : i = j := by simpa using h1
          exact ⟨h i, by simp [Comp.hash, ia], by simp [Comp.hash, ib, hij]⟩
    · cases h1

private theorem preprocessorsEq_iff (l m : List Preprocessor) :
    preprocessorsEq l m = true ↔ l.map Preprocessor.id = m.map Preprocessor.id := by
  induction l generalizing m with
  | nil => cases m <;> simp [preprocessorsEq]
  | cons x xs ih =>
    cases m with
    | nil => simp [preprocessorsEq]
    | cons y ys => simp [preprocessorsEq, Preprocessor.eq, ih]

/-- **C170**: of computations of one kind, those that are not unequal are equal; the class of one object has one name. -/
theorem C170_not_unequal_partial (a b : Comp) (hs : Sortable a) (hk : a.kind = b.kind) (hc : a.fn = b.fn → a.fnClass = b.fnClass)
    (hn : a.ne b = false) : a.eq b = .ok true := by
  unfold Comp.ne at hn
  rw [if_pos (by rw [hk])] at hn
  simp only [Bool.not_eq_false', Bool.and_eq_true, Bool.or_eq_true, decide_eq_true_eq] at hn
  obtain ⟨⟨h1, h2⟩, h3⟩ := hn
  refine (C170_equal a b).2 ⟨hs, Or.inl hk, hc h3, h1, fun hm => ?_⟩
  rcases h2 with h2 | h2
  · exact absurd hm h2
  · exact (preprocessorsEq_iff _ _).1 h2

/-- **C170**: a computation with a combiner is unequal, and not equal, to one without. -/
theorem C170_kinds (a b : Comp) (ha : a.kind = .metric) (hb : b.kind ≠ .metric) :
    a.eq b = .ok false ∧ b.eq a = .ok false ∧ a.ne b = true ∧ b.ne a = true := by
  obtain ⟨k, _, _, _, _⟩ := b
  cases k
  · exact absurd rfl hb
  all_goals simp [Comp.eq, Comp.ne, ha, family]

/-- **C170** fails for `!=`, which is not the negation of `==`: every computation is both equal and unequal to one by another object of the
same class. -/
theorem C170_equal_and_unequal_fails (a : Comp) (hs : Sortable a) (f : ℕ) (hf : a.fn ≠ f) :
    a.eq { a with fn := f } = .ok true ∧ a.ne { a with fn := f } = true := by
  refine ⟨(C170_equal _ _).2 ⟨hs, Or.inl rfl, rfl, rfl, fun _ => rfl⟩, ?_⟩
  simp [Comp.ne, hf]

/-- **C170** fails for `!=` in the other direction as well: a derived computation and one across slices with the same keys and the same
object are neither equal nor unequal. -/
theorem C170_neither_fails (a : Comp) (hk : a.kind = .derived) :
    a.eq { a with kind := .crossSlice } = .ok false ∧ a.ne { a with kind := .crossSlice } = false := by
  constructor
  · simp [Comp.eq, hk, family]
  · simp [Comp.ne, hk]

/-- **C170** fails for computations of different classes: a computation that is to run after the confidence intervals equals one that is
to run before them. -/
theorem C170_stage_fails (a : Comp) (hs : Sortable a) (hk : a.kind = .derived) : a.eq { a with kind := .ciDerived } = .ok true :=
  (C170_equal _ _).2 ⟨hs, Or.inr ⟨by simp [hk], by simp [hk], by simp, by simp⟩, rfl, rfl, fun hm => by simp [hk] at hm⟩

/-- **C170** fails for the order of keys: the keys of the id are meant to be sorted, yet the same keys in another order make another
computation. -/
theorem C170_order_fails (a : Comp) (j k : MetricKey) (hjk : j ≠ k) (ha : a.keys = [j, k]) :
    a.eq { a with keys := [k, j] } ≠ .ok true := by
  intro h
  have := ((C170_equal _ _).1 h).2.keys
  rw [ha] at this
  simp only [List.cons.injEq, and_true] at this
  exact hjk this.1

/-- A computation whose keys can be sorted. -/
def sample : Comp := ⟨.metric, [{ name := "b" }, { name := "a" }], [⟨none, "P"⟩, ⟨some "q", "P"⟩], 3, "C"⟩

example : Sortable sample := C44_uniform _ false (by simp [sample])
example : sample.eq { sample with fn := 4, preprocessors := [⟨some "P", "R"⟩, ⟨some "q", "S"⟩] } = .ok true :=
  (C170_equal _ _).2 ⟨C44_uniform _ false (by simp [sample]), Or.inl rfl, rfl, rfl, fun _ => by decide⟩
example : sample.ne { sample with preprocessors := [⟨some "P", "R"⟩, ⟨some "q", "S"⟩] } = false := by decide

end Identity
end TFMA
