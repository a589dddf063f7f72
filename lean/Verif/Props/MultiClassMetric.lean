import Verif.Model.MultiClassMetric
import Verif.Props.MultiClass
import Verif.Props.Evaluate
import Verif.Lemmas.MetricSpecs
import Mathlib.Tactic.FieldSimp
import Mathlib.Tactic.NormNum
import Mathlib.Tactic.Positivity

/-!
# C133: multi-class confusion matrices as metrics, plots and values
-/

namespace TFMA
namespace MultiClass

open Beam MetricKeys Evaluate

/-! ### Values -/

/-- The count of a pair of classes at a threshold; zero if there is none. -/
def count (a : Acc) (t : ℚ) (k : EntryKey) : ℚ := (entry a t k).getD 0

/-- One of the operands has a count of the pair of classes at the threshold. -/
def Present (a b : Acc) (t : ℚ) (k : EntryKey) : Prop := entry a t k ≠ none ∨ entry b t k ≠ none

section build
variable {K V : Type} [DecidableEq K]

private theorem build_get {f : K → Except Err V} {ks : List K} {d : Dict K V} (h : build f ks = .ok d) (k : K) :
    (k ∈ ks ∧ ∃ v, f k = .ok v ∧ Dict.get? d k = some v) ∨ (k ∉ ks ∧ Dict.get? d k = none) := by
  induction ks generalizing d with
  | nil => simp only [build, Except.ok.injEq] at h; subst h; exact .inr ⟨by simp, rfl⟩
  | cons x xs ih =>
    simp only [build, bind, Except.bind] at h
    cases hx : f x with
    | error e => rw [hx] at h; cases h
    | ok v =>
      cases hs : build f xs with
      | error e => rw [hx, hs] at h; cases h
      | ok d' =>
        rw [hx, hs] at h
        simp only [pure, Except.pure, Except.ok.injEq] at h
        subst h
        rw [Dict.get?_cons]
        by_cases hk : x = k
        · subst hk; exact .inl ⟨by simp, v, hx, by simp⟩
        · have hk' : ¬ k = x := fun h => hk h.symm
          simpa [hk, hk'] using ih hs

private theorem build_ok_iff {f : K → Except Err V} {ks : List K} :
    (∃ d, build f ks = .ok d) ↔ ∀ k ∈ ks, ∃ v, f k = .ok v := by
  induction ks with
  | nil => simp [build]
  | cons x xs ih =>
    rw [List.forall_mem_cons, ← ih]
    simp only [build, bind, Except.bind]
    cases f x <;> cases build f xs <;> simp [pure, Except.pure]

private theorem mem_union (a b : Dict K V) (k : K) : k ∈ unionKeys a b ↔ Dict.get? a k ≠ none ∨ Dict.get? b k ≠ none := by
  simp only [unionKeys, List.mem_append, List.mem_filter, decide_eq_true_eq, ne_eq, Dict.get?_eq_none_iff]
  tauto
end build

private theorem row_getD (a : Acc) (t : ℚ) (k : EntryKey) : Dict.get? ((Dict.get? a t).getD []) k = entry a t k := by
  unfold entry
  cases Dict.get? a t <;> rfl

private theorem entry_none (a : Acc) (t : ℚ) (h : Dict.get? a t = none) (k : EntryKey) : entry a t k = none := by
  simp [entry, h]

/-- **C133**: an operation on two results (the difference of two models, sums in confidence intervals) is applied to the counts of each pair of
classes at each threshold, where a count that is missing on one side counts as zero.  The result has the thresholds of both sides. -/
theorem C133_elementwise (op : ℚ → ℚ → Except Err ℚ) (a b r : Acc) (h : applyOp op a (.matrices b) = .ok r) :
    (∀ t, Dict.has r t = true ↔ Dict.has a t = true ∨ Dict.has b t = true) ∧
    (∀ t k, entry r t k ≠ none ↔ Present a b t k) ∧
    ∀ t k, Present a b t k → op (count a t k) (count b t k) = .ok (count r t k) := by
  simp only [applyOp, elementwise] at h
  have key : ∀ t k, (Present a b t k → ∃ v, op (count a t k) (count b t k) = .ok v ∧ entry r t k = some v) ∧
      (¬ Present a b t k → entry r t k = none) := by
    intro t k
    rcases build_get h t with ⟨hm, row, hrow, hget⟩ | ⟨hm, hget⟩
    · have hr : entry r t k = Dict.get? row k := by simp [entry, hget]
      rw [hr]
      rcases build_get hrow k with ⟨hk, v, hv, hgv⟩ | ⟨hk, hgv⟩
      · rw [row_getD, row_getD] at hv
        rw [mem_union, row_getD, row_getD] at hk
        exact ⟨fun _ => ⟨v, hv, hgv⟩, fun hn => absurd hk hn⟩
      · rw [mem_union, row_getD, row_getD] at hk
        exact ⟨fun hp => absurd hp hk, fun _ => hgv⟩
    · rw [mem_union] at hm
      push Not at hm
      refine ⟨fun hp => ?_, fun _ => entry_none r t hget k⟩
      rcases hp with hp | hp
      · exact absurd (entry_none a t hm.1 k) hp
      · exact absurd (entry_none b t hm.2 k) hp
  refine ⟨fun t => ?_, fun t k => ?_, fun t k hp => ?_⟩
  · have e : ∀ d : Acc, Dict.has d t = true ↔ Dict.get? d t ≠ none := fun d => by
      rw [Dict.has_iff, ne_eq, Dict.get?_eq_none_iff, not_not]
    rw [e, e, e, ← mem_union]
    rcases build_get h t with ⟨hm, row, _, hget⟩ | ⟨hm, hget⟩ <;> simp [hm, hget]
  · constructor
    · intro hne; by_contra hp; exact hne ((key t k).2 hp)
    · intro hp; obtain ⟨v, _, hv⟩ := (key t k).1 hp; simp [hv]
  · obtain ⟨v, h1, h2⟩ := (key t k).1 hp
    simp [count, h2] at h1 ⊢
    exact h1

/-- **C133**: the operation fails on the matrices only if it fails on a pair of counts. -/
theorem C133_elementwise_succeeds (op : ℚ → ℚ → Except Err ℚ) (a b : Acc) :
    (∃ r, applyOp op a (.matrices b) = .ok r) ↔ ∀ t k, Present a b t k → ∃ v, op (count a t k) (count b t k) = .ok v := by
  simp only [applyOp, elementwise]
  rw [build_ok_iff]
  simp only [opEntries, build_ok_iff, mem_union, row_getD]
  constructor
  · intro h t k hp
    refine h t ?_ k hp
    rcases hp with hp | hp
    · exact .inl fun h0 => hp (entry_none a t h0 k)
    · exact .inr fun h0 => hp (entry_none b t h0 k)
  · exact fun h t _ k hk => h t k hk

/-- Non-vacuous: the difference of two results with different thresholds and classes. -/
example : applyOp (fun x y => .ok (x - y)) [(0, [((0, 0), 3), ((0, 1), 1)])] (.matrices [(1 / 2, [((1, 1), 2)]), (0, [((0, 0), 1)])]) =
    .ok [(0, [((0, 0), 2), ((0, 1), 1)]), (1 / 2, [((1, 1), -2)])] := by decide +kernel

/-- Division by the missing counts of the other side fails. -/
example : (applyOp (fun x y => if y = 0 then .error .zeroDivisionError else .ok (x / y)) [(0, [((0, 0), 3)])] (.matrices [(0, [])])).toOption =
    none := by decide +kernel

private theorem opEach_get {op : ℚ → ℚ → Except Err ℚ} {x : ℚ} {row r : Dict EntryKey ℚ} (h : opEach op x row = .ok r) (k : EntryKey) :
    (Dict.get? row k = none ∧ Dict.get? r k = none) ∨
      ∃ v w, Dict.get? row k = some v ∧ op v x = .ok w ∧ Dict.get? r k = some w := by
  induction row generalizing r with
  | nil => simp only [opEach, Except.ok.injEq] at h; subst h; exact .inl ⟨rfl, rfl⟩
  | cons p rest ih =>
    obtain ⟨k', v⟩ := p
    simp only [opEach, bind, Except.bind] at h
    cases hv : op v x with
    | error e => rw [hv] at h; cases h
    | ok w =>
      cases hs : opEach op x rest with
      | error e => rw [hv, hs] at h; cases h
      | ok d =>
        rw [hv, hs] at h
        simp only [pure, Except.pure, Except.ok.injEq] at h
        subst h
        rw [Dict.get?_cons, Dict.get?_cons]
        by_cases hk : k' = k
        · simp [hk, hv]
        · simpa [hk] using ih hs

private theorem broadcast_get {op : ℚ → ℚ → Except Err ℚ} {x : ℚ} {a r : Acc} (h : broadcast op x a = .ok r) (t : ℚ) :
    (Dict.get? a t = none ∧ Dict.get? r t = none) ∨
      ∃ v w, Dict.get? a t = some v ∧ opEach op x v = .ok w ∧ Dict.get? r t = some w := by
  induction a generalizing r with
  | nil => simp only [broadcast, Except.ok.injEq] at h; subst h; exact .inl ⟨rfl, rfl⟩
  | cons p rest ih =>
    obtain ⟨t', row⟩ := p
    simp only [broadcast, bind, Except.bind] at h
    cases hv : opEach op x row with
    | error e => rw [hv] at h; cases h
    | ok w =>
      cases hs : broadcast op x rest with
      | error e => rw [hv, hs] at h; cases h
      | ok d =>
        rw [hv, hs] at h
        simp only [pure, Except.pure, Except.ok.injEq] at h
        subst h
        rw [Dict.get?_cons, Dict.get?_cons]
        by_cases hk : t' = t
        · simp [hk, hv]
        · simpa [hk] using ih hs

/-- **C133**: an operation with a number is applied to every count, and neither thresholds nor pairs of classes come or go. -/
theorem C133_broadcast (op : ℚ → ℚ → Except Err ℚ) (x : ℚ) (a r : Acc) (h : applyOp op a (.number x) = .ok r) :
    (∀ t, Dict.has r t = Dict.has a t) ∧
    ∀ t k, (entry a t k = none ∧ entry r t k = none) ∨ ∃ v w, entry a t k = some v ∧ op v x = .ok w ∧ entry r t k = some w := by
  simp only [applyOp] at h
  constructor
  · intro t
    have e : ∀ d : Acc, Dict.has d t = true ↔ Dict.get? d t ≠ none := fun d => by
      rw [Dict.has_iff, ne_eq, Dict.get?_eq_none_iff, not_not]
    rw [Bool.eq_iff_iff, e, e]
    rcases broadcast_get h t with ⟨h1, h2⟩ | ⟨v, w, h1, _, h2⟩ <;> simp [h1, h2]
  · intro t k
    rcases broadcast_get h t with ⟨h1, h2⟩ | ⟨v, w, h1, hop, h2⟩
    · exact .inl ⟨entry_none a t h1 k, entry_none r t h2 k⟩
    · simpa [entry, h1, h2] using opEach_get hop k

/-- **C133**: an operation with anything that is neither such a result nor a number is refused. -/
theorem C133_other_operand (op : ℚ → ℚ → Except Err ℚ) (a : Acc) : applyOp op a .other = .error .valueError := rfl

example : applyOp (fun x y => .ok (x / y)) [(0, [((0, 0), 3)]), (1, [])] (.number 2) = .ok [(0, [((0, 0), 3 / 2)]), (1, [])] := by
  decide +kernel

/-! ### Written results -/

/-- The threshold that is shown for a threshold: the borders that were moved outwards are moved back. -/
inductive ShownAs : ℚ → ℚ → Prop
  | low : ShownAs (-(1 / 10 ^ 7)) 0
  | high : ShownAs (1 + 1 / 10 ^ 7) 1
  | other (t : ℚ) : t ≠ -(1 / 10 ^ 7) → t ≠ 1 + 1 / 10 ^ 7 → ShownAs t t

/-- One pair of classes comes before another. -/
def Before (x y : ℤ × ℤ × ℚ) : Prop := x.1 < y.1 ∨ x.1 = y.1 ∧ x.2.1 < y.2.1

/-- The list of matrices shows the result: by ascending threshold, each with all its counts by ascending classes. -/
def Shows (a : Acc) (p : List ProtoMatrix) : Prop :=
  ∃ ts : List ℚ, ts.Pairwise (· < ·) ∧ (∀ t, t ∈ ts ↔ Dict.has a t = true) ∧
    List.Forall₂ (fun t m => ShownAs t m.threshold ∧ m.entries.Pairwise Before ∧
      ∀ i j v, (i, j, v) ∈ m.entries ↔ entry a t (i, j) = some v) ts p

private theorem protoThreshold_shown (t : ℚ) : ShownAs t (protoThreshold t) := by
  unfold protoThreshold eps
  by_cases h1 : t = -(1 / 10 ^ 7)
  · rw [if_pos h1, h1]; exact .low
  · rw [if_neg h1]
    by_cases h2 : t = 1 + 1 / 10 ^ 7
    · rw [if_pos h2, h2]; exact .high
    · rw [if_neg h2]; exact .other t h1 h2

instance : Std.Total keyLe := ⟨fun a b => by
  unfold keyLe
  rcases lt_trichotomy a.1 b.1 with h | h | h
  · exact .inl (.inl h)
  · rcases le_total a.2 b.2 with g | g
    · exact .inl (.inr ⟨h, g⟩)
    · exact .inr (.inr ⟨h.symm, g⟩)
  · exact .inr (.inl h)⟩

instance : IsTrans EntryKey keyLe := ⟨fun a b c h1 h2 => by
  unfold keyLe at *
  omega⟩

private theorem sorted_strict {α : Type} (le : α → α → Prop) [DecidableRel le] [Std.Total le] [IsTrans α le] (l : List α) (h : l.Nodup) :
    (l.insertionSort le).Pairwise fun x y => le x y ∧ x ≠ y := by
  have h1 := List.pairwise_insertionSort le l
  have h2 : (l.insertionSort le).Nodup := (List.perm_insertionSort le l).nodup_iff.2 h
  exact h1.and h2

/-- **C133**: a written result shows every threshold and every count. -/
theorem C133_written (a : Acc) (hw : Dict.WF a) (hr : ∀ t row, (t, row) ∈ a → Dict.WF row) : Shows a (toProto a) := by
  refine ⟨a.keys.insertionSort (· ≤ ·), ?_, ?_, ?_⟩
  · exact (sorted_strict (· ≤ ·) a.keys hw).imp fun h => lt_of_le_of_ne h.1 h.2
  · intro t
    rw [List.mem_insertionSort, Dict.has_iff]
  · unfold toProto
    rw [List.forall₂_map_right_iff, List.forall₂_same]
    intro t ht
    rw [List.mem_insertionSort] at ht
    obtain ⟨row, hget⟩ := (Dict.mem_keys_iff a t).1 ht
    have hwr := hr t row (Dict.mem_of_get? hget)
    refine ⟨protoThreshold_shown t, ?_, ?_⟩
    · simp only [hget, Option.getD_some, protoEntries]
      rw [List.pairwise_map]
      refine (sorted_strict keyLe row.keys hwr).imp ?_
      rintro ⟨x1, x2⟩ ⟨y1, y2⟩ ⟨h1, h2⟩
      unfold keyLe at h1
      simp only [ne_eq, Prod.mk.injEq] at h2
      simp only [Before]
      simp only at h1
      omega
    · intro i j v
      simp only [hget, Option.getD_some, protoEntries, List.mem_map, List.mem_insertionSort, entry, Option.bind_some]
      constructor
      · rintro ⟨k, hk, he⟩
        obtain ⟨w, hg⟩ := (Dict.mem_keys_iff row k).1 hk
        simp only [Prod.mk.injEq] at he
        obtain ⟨rfl, rfl, rfl⟩ := he
        rw [show (k.1, k.2) = k from rfl, hg]; rfl
      · intro hg
        exact ⟨(i, j), (Dict.mem_keys_iff row _).2 ⟨v, hg⟩, by simp [hg]⟩

/-- Non-vacuous: thresholds and classes in another order, with moved borders. -/
example : toProto [(1 + 1 / 10 ^ 7, [((1, -1), 2)]), (1 / 2, [((1, 0), 1), ((0, 1), 3)]), (-(1 / 10 ^ 7), [])] =
    [⟨0, []⟩, ⟨1 / 2, [(0, 1, 3), (1, 0, 1)]⟩, ⟨1, [(1, -1, 2)]⟩] := by decide +kernel

/-! ### Accumulators -/

/-- A result of the combiner: every threshold is there once, with at least one pair of classes, each there once. -/
private def Good (a : Acc) : Prop := Dict.WF a ∧ ∀ t row, Dict.get? a t = some row → Dict.WF row ∧ row ≠ []

private theorem set_ne_nil {K V : Type} [DecidableEq K] (d : Dict K V) (k : K) (v : V) : Dict.set d k v ≠ [] := by
  intro h
  have := Dict.get?_set_self d k v
  rw [h] at this
  cases this

private theorem good_set {a : Acc} (h : Good a) (t : ℚ) (row : Dict EntryKey ℚ) (hw : Dict.WF row) (hn : row ≠ []) :
    Good (Dict.set a t row) := by
  refine ⟨Dict.WF_set h.1 _ _, fun u r hu => ?_⟩
  rw [Dict.get?_set] at hu
  split at hu
  · cases hu; exact ⟨hw, hn⟩
  · exact h.2 u r hu

private theorem row_WF {a : Acc} (h : Good a) (t : ℚ) : Dict.WF ((Dict.get? a t).getD []) := by
  cases hg : Dict.get? a t with
  | none => exact List.nodup_nil
  | some row => exact (h.2 t row hg).1

private theorem good_bump {a : Acc} (h : Good a) (t : ℚ) (k : EntryKey) (w : ℚ) : Good (bump a t k w) :=
  good_set h _ _ (Dict.WF_set (row_WF h t) _ _) (set_ne_nil _ _ _)

private theorem good_loop (preds : List ℚ) (actual : ℤ) (w : ℚ) (ts : List ℚ) (pid : ℤ) (a b : Acc) (h : Good a)
    (hb : thresholdLoop preds actual w pid ts a = .ok b) : Good b := by
  induction ts generalizing pid a with
  | nil => simp only [thresholdLoop, Except.ok.injEq] at hb; subst hb; exact h
  | cons t ts ih =>
    simp only [thresholdLoop, bind, Except.bind] at hb
    cases hp : pyGet preds pid with
    | error e => rw [hp] at hb; cases hb
    | ok p => rw [hp] at hb; exact ih _ _ (good_bump h _ _ _) hb

private theorem mergeRow_WF (m row : Dict EntryKey ℚ) (h : Dict.WF row) : Dict.WF (mergeRow row m) := by
  unfold mergeRow
  induction m generalizing row with
  | nil => exact h
  | cons p m ih => exact ih _ (Dict.WF_set h _ _)

private theorem mergeRow_ne (m row : Dict EntryKey ℚ) (h : m ≠ [] ∨ row ≠ []) : mergeRow row m ≠ [] := by
  unfold mergeRow
  induction m generalizing row with
  | nil => simpa using h
  | cons p m ih => exact ih _ (.inr (set_ne_nil _ _ _))

private theorem good_merge (b a : Acc) (ha : Good a) (hb : ∀ p ∈ b, p.2 ≠ []) : Good (mergeTwo a b) := by
  unfold mergeTwo
  induction b generalizing a with
  | nil => exact ha
  | cons p b ih =>
    refine ih _ (good_set ha _ _ (mergeRow_WF _ _ (row_WF ha _)) (mergeRow_ne _ _ (.inl (hb p (by simp))))) ?_
    exact fun q hq => hb q (by simp [hq])

private theorem good_run (ts : List ℚ) (s : Sched (Except Err Example)) (a : Acc) (h : (combiner ts).run s = .ok a) : Good a := by
  refine run_rel_pair (P := fun _ a => Good a) (plus := fun a b => .ok (mergeTwo a b)) ?_ ?_ ?_ ?_ s a h
  · exact ⟨List.nodup_nil, fun t row h => by cases h⟩
  · intro xs a x b ha hb
    cases x with
    | error e => cases hb
    | ok e =>
      simp only [combiner, Except.bind, addExample, bind] at hb
      cases hc : classes e with
      | error e => rw [hc] at hb; cases hb
      | ok c => rw [hc] at hb; exact good_loop _ _ _ _ _ _ _ ha hb
  · exact fun l => mergeWith_eq_loop mergeTwo l
  · intro xs ys a b d ha hb hd
    cases hd
    refine good_merge b a ha fun p hp => ?_
    exact (hb.2 p.1 p.2 (Dict.get?_of_mem hb.1 hp)).2

private theorem good_has {a : Acc} (h : Good a) (t : ℚ) : Dict.has a t = true ↔ ∃ k, entry a t k ≠ none := by
  have e : Dict.has a t = true ↔ Dict.get? a t ≠ none := by
    rw [Dict.has_iff, ne_eq, Dict.get?_eq_none_iff, not_not]
  rw [e]
  constructor
  · intro hne
    obtain ⟨row, hrow⟩ := Option.ne_none_iff_exists'.1 hne
    obtain ⟨hw, hn⟩ := h.2 t row hrow
    obtain ⟨p, row', rfl⟩ := List.exists_cons_of_ne_nil hn
    exact ⟨p.1, by rw [entry, hrow, Option.bind_some, Dict.get?_cons]; simp⟩
  · rintro ⟨k, hk⟩ h0
    exact hk (entry_none a t h0 k)

/-- The threshold at which examples are counted for the `i`-th of `n` evenly spaced thresholds: the first and the last one are moved
outwards. -/
def counted (n i : ℕ) : ℚ := if i = 0 then -(1 / 10 ^ 7) else if i + 1 = n then 1 + 1 / 10 ^ 7 else (i : ℚ) / ((n : ℚ) - 1)

private theorem thresholds_even (n : ℕ) (hn : 2 ≤ n) : thresholdsOf none (some (n : ℤ)) = .ok ((List.range n).map (counted n)) := by
  obtain ⟨m, rfl⟩ : ∃ m, n = m + 2 := ⟨n - 2, by omega⟩
  unfold thresholdsOf
  simp only [Except.ok.injEq]
  have e : ((m + 2 : ℕ) : ℤ) - 2 = (m : ℤ) := by push_cast; ring
  rw [e, Int.toNat_natCast, List.range_succ_eq_map, List.range_succ, List.map_cons, List.map_map, List.map_append, List.cons_append]
  congr 1
  congr 1
  · apply List.map_congr_left
    intro i hi
    have : i < m := List.mem_range.1 hi
    have h1 : ¬ i + 1 + 1 = m + 2 := by omega
    simp only [Function.comp, counted, h1, if_false, Nat.succ_eq_add_one, Nat.add_eq_zero_iff, one_ne_zero, and_false]
    push_cast
    ring
  · simp [counted, eps]

private theorem counted_lt (n : ℕ) {i j : ℕ} (hij : i < j) (hj : j < n) : counted n i < counted n j := by
  have hn : (0 : ℚ) < (n : ℚ) - 1 := by
    have : (2 : ℚ) ≤ n := by exact_mod_cast (by omega : 2 ≤ n)
    linarith
  have hj0 : ¬ j = 0 := by omega
  have hi1 : ¬ i + 1 = n := by omega
  unfold counted
  rw [if_neg hj0, if_neg hi1]
  have hfrac : ∀ m : ℕ, m + 1 < n → (m : ℚ) / ((n : ℚ) - 1) < 1 := by
    intro m hm
    rw [div_lt_one hn]
    have : (m : ℚ) + 1 < n := by exact_mod_cast hm
    linarith
  have hpos : ∀ m : ℕ, 0 ≤ (m : ℚ) / ((n : ℚ) - 1) := fun m => div_nonneg (by positivity) hn.le
  split
  · split
    · norm_num
    · have := hpos j; linarith [show (0 : ℚ) < 1 / 10 ^ 7 by norm_num]
  · split
    · have := hfrac i (by omega); linarith [show (0 : ℚ) < 1 / 10 ^ 7 by norm_num]
    · have : (i : ℚ) < j := by exact_mod_cast hij
      exact div_lt_div_of_pos_right this hn

private theorem counted_shown (n i : ℕ) (hn : 2 ≤ n) (hi : i < n) (s : ℚ) (h : ShownAs (counted n i) s) : s = (i : ℚ) / ((n : ℚ) - 1) := by
  have hn' : (0 : ℚ) < (n : ℚ) - 1 := by
    have : (2 : ℚ) ≤ n := by exact_mod_cast hn
    linarith
  have hfrac : (i : ℚ) / ((n : ℚ) - 1) ≤ 1 := by
    rw [div_le_one hn']
    have : (i : ℚ) + 1 ≤ n := by exact_mod_cast hi
    linarith
  have hpos : 0 ≤ (i : ℚ) / ((n : ℚ) - 1) := div_nonneg (by positivity) hn'.le
  generalize hc : counted n i = c at h
  unfold counted at hc
  split at hc
  · rename_i h0
    subst h0
    cases h with
    | low => simp
    | high => norm_num at hc
    | other _ h1 _ => exact absurd hc.symm h1
  · split at hc
    · rename_i h1
      have e : (i : ℚ) / ((n : ℚ) - 1) = 1 := by
        rw [div_eq_one_iff_eq hn'.ne']
        have : (i : ℚ) + 1 = n := by exact_mod_cast h1
        linarith
      cases h with
      | low => norm_num at hc
      | high => exact e.symm
      | other _ _ h2 => exact absurd hc.symm h2
    · cases h with
      | low => rw [hc] at hpos; norm_num at hpos
      | high => rw [hc] at hfrac; norm_num at hfrac
      | other => exact hc.symm

private theorem forall₂_mem {α β : Type} {R S : α → β → Prop} {l : List α} {q : List β} (h : List.Forall₂ R l q)
    (hs : ∀ x ∈ l, ∀ y, R x y → S x y) : List.Forall₂ S l q := by
  induction h with
  | nil => exact .nil
  | cons hxy _ ih => exact .cons (hs _ (by simp) _ hxy) (ih fun x hx => hs x (by simp [hx]))

private theorem sorted_unique {l l' : List ℚ} (h : l.Pairwise (· < ·)) (h' : l'.Pairwise (· < ·)) (e : ∀ t, t ∈ l ↔ t ∈ l') : l = l' :=
  List.Perm.eq_of_pairwise (fun _ _ _ _ h1 h2 => absurd h1 (not_lt.2 h2.le)) h h'
    ((List.perm_ext_iff_of_nodup (h.imp fun h => ne_of_lt h) (h'.imp fun h => ne_of_lt h)).2 e)

open Classical in
/-- **C133**: a plot with `n` evenly spaced thresholds shows the thresholds 0, 1/(n-1), ..., 1 for any data, and at each of them
the total weight of the examples of each pair of actual and predicted class, where the predicted class is the top class if it exceeds the
threshold (the first and the last one moved outwards). -/
theorem C133_evenly_spaced (n : ℕ) (hn : 2 ≤ n) (data : List Example) (hne : data ≠ []) (hacc : ∀ e ∈ data, Accepted e)
    (s : Sched (Except Err Example)) (p : s.inputs.Perm (data.map .ok)) :
    ∃ ts acc, thresholdsOf none (some (n : ℤ)) = .ok ts ∧ (combiner ts).run s = .ok acc ∧
      List.Forall₂ (fun (i : ℕ) m => m.threshold = (i : ℚ) / ((n : ℚ) - 1) ∧ ∀ a q w, (a, q, w) ∈ m.entries ↔
        (∃ e ∈ data, Counts e (counted n i) (a, q)) ∧
          w = ((data.filter fun e => decide (Counts e (counted n i) (a, q))).map Example.weight).sum)
        (List.range n) (toProto acc) := by
  have hasc : ((List.range n).map (counted n)).Pairwise (· < ·) := by
    rw [List.pairwise_map]
    refine List.Pairwise.imp_of_mem ?_ (List.pairwise_lt_range (n := n))
    intro i j _ hj hij
    exact counted_lt n hij (List.mem_range.1 hj)
  obtain ⟨acc, hrun, hent⟩ := C22_entries_partial _ hasc data hacc s p
  refine ⟨_, acc, thresholds_even n hn, hrun, ?_⟩
  have hgood := good_run _ s acc hrun
  have heff : effective ((List.range n).map (counted n)) = (List.range n).map (counted n) := by
    unfold effective; rw [if_neg]; simp; omega
  rw [heff] at hent
  obtain ⟨us, h1, h2, h3⟩ := C133_written acc hgood.1 fun t row h => (hgood.2 t row (Dict.get?_of_mem hgood.1 h)).1
  have hus : us = (List.range n).map (counted n) := by
    refine sorted_unique h1 hasc fun t => ?_
    rw [h2, good_has hgood]
    simp only [hent]
    constructor
    · rintro ⟨k, hk⟩
      by_contra hc
      exact hk (if_neg fun h => hc h.1)
    · intro ht
      obtain ⟨e, he⟩ := List.exists_mem_of_ne_nil data hne
      obtain ⟨k, hk, _⟩ := C22_counted_once e (hacc e he) t
      exact ⟨k, by rw [if_pos ⟨ht, e, he, hk⟩]; simp⟩
  subst hus
  rw [List.forall₂_map_left_iff] at h3
  refine forall₂_mem h3 ?_
  rintro i hi m ⟨g1, _, g3⟩
  have hin := List.mem_range.1 hi
  refine ⟨counted_shown n i hn hin _ g1, fun a q w => ?_⟩
  rw [g3, hent]
  by_cases hex : ∃ e ∈ data, Counts e (counted n i) (a, q)
  · rw [if_pos ⟨List.mem_map.2 ⟨i, hi, rfl⟩, hex⟩, Option.some.injEq]
    exact ⟨fun h => ⟨hex, h.symm⟩, fun h => h.2.symm⟩
  · rw [if_neg fun h => hex h.2]
    simp only [reduceCtorEq, false_iff]
    exact fun h => hex h.1

/-- Non-vacuous: three thresholds; the example without a class above one half is counted as without prediction there. -/
example : thresholdsOf none (some 3) = .ok [-(1 / 10 ^ 7), 1 / 2, 1 + 1 / 10 ^ 7] ∧
    ((combiner [-(1 / 10 ^ 7), 1 / 2, 1 + 1 / 10 ^ 7]).run (.bundle [.ok ⟨some [1], [0, 1], 2⟩, .ok ⟨some [0], [3 / 10, 1 / 5], 1⟩])).toOption.map toProto =
      some [⟨0, [(0, 0, 1), (1, 1, 2)]⟩, ⟨1 / 2, [(0, -1, 1), (1, 1, 2)]⟩, ⟨1, [(0, -1, 1), (1, -1, 2)]⟩] := by
  refine ⟨?_, ?_⟩ <;> decide +kernel

/-! ### Which thresholds a metric and a plot use -/

/-- **C133**: a metric uses the given thresholds, and one half without any. -/
theorem C133_metric_thresholds (t : Task) (h : t.plot = false) :
    (∀ ts, t.thresholds = some ts → ts ≠ [] → t.resolve = .ok ts) ∧
    ((t.thresholds = none ∨ t.thresholds = some []) → t.resolve = .ok [1 / 2]) := by
  unfold Task.resolve
  simp only [h, Bool.false_eq_true, if_false]
  constructor
  · intro ts hts hne
    rw [if_neg (by simp [hts, hne]), hts]; rfl
  · intro h0; rw [if_pos h0]; rfl

/-- **C133**: a plot uses the given thresholds, or evenly spaced ones, or zero; it refuses both at once. -/
theorem C133_plot_thresholds (t : Task) (h : t.plot = true) :
    (∀ ts n, t.thresholds = some ts → t.num = some n → t.resolve = .error .valueError) ∧
    (∀ ts, t.thresholds = some ts → t.num = none → t.resolve = .ok ts) ∧
    (∀ n, t.thresholds = none → t.num = some n → 2 ≤ n → t.resolve = .ok ((List.range n.toNat).map (counted n.toNat))) ∧
    (t.thresholds = none → t.num = none → t.resolve = .ok [0]) := by
  unfold Task.resolve
  simp only [h, if_true]
  refine ⟨?_, ?_, ?_, ?_⟩
  · intro ts n h1 h2; simp [h1, h2, thresholdsOf]
  · intro ts h1 h2; simp [h1, h2, thresholdsOf]
  · intro n h1 h2 hn
    have := thresholds_even n.toNat (by omega)
    rw [Int.toNat_of_nonneg (by omega)] at this
    simpa [h1, h2] using this
  · intro h1 h2; simp [h1, h2, thresholdsOf]

/-- **C133**: matrices requested without thresholds are those of the single threshold 0, the same as those of a plot without any. -/
theorem C133_default_thresholds (t : Task) (h : t.plot = true) (ht : t.thresholds = none) (hn : t.num = none) :
    thresholdsOf none none = .ok [0] ∧ thresholdsOf t.thresholds t.num = t.resolve := by
  refine ⟨rfl, ?_⟩
  rw [(C133_plot_thresholds t h).2.2.2 ht hn, ht, hn]; rfl

example : ∃ t : Task, t.plot = true ∧ t.thresholds = none ∧ t.num = none := ⟨{ plot := true, name := "p" }, rfl, rfl, rfl⟩

/-! ### Several metrics and plots together -/

/-- Both are of the same output of the same model, with the same use of weights. -/
def SameOutput (t u : Task) : Prop := t.modelName = u.modelName ∧ t.outputName = u.outputName ∧ t.weighted = u.weighted

instance (t u : Task) : Decidable (SameOutput t u) := by unfold SameOutput; infer_instance

/-- **C133**: two metrics or plots have the same key only if they have the same name and are of the same output of the same model, with
the same use of weights. -/
theorem C133_keys (t u : Task) : t.key = u.key ↔ t.name = u.name ∧ SameOutput t u := by
  simp [Task.key, SameOutput]

example : ({ name := "m", outputName := "a" } : Task).key ≠ ({ name := "m", outputName := "b" } : Task).key := by decide

/-- What the task shows of matrices. -/
def Task.shown (t : Task) (a : Acc) : Value := if t.plot then .plot (toProto a) else .matrices a

private theorem key_iff (t u : Task) : t.matricesKey = u.matricesKey ↔ SameOutput t u := by
  simp [Task.matricesKey, SameOutput]

private def matComp (t : Task) (ts : List ℚ) : Computation Work :=
  ⟨.metric, "_MultiClassConfusionMatrixCombiner", [t.matricesKey], [], .combine ts⟩

private def derComp (t : Task) : Computation Work := ⟨.derived, "function", [t.key], [], .derive t.result⟩

private theorem flat_ok {tasks : List Task} {cs : List (Computation Work)} (h : MetricSpecs.flatMapE Task.computations tasks = .ok cs) :
    ∃ l : List (Task × List ℚ), l.map Prod.fst = tasks ∧ (∀ p ∈ l, p.1.resolve = .ok p.2) ∧
      cs = l.flatMap fun p => [matComp p.1 p.2, derComp p.1] := by
  induction tasks generalizing cs with
  | nil => simp only [MetricSpecs.flatMapE, Except.ok.injEq] at h; subst h; exact ⟨[], rfl, by simp, rfl⟩
  | cons t ts ih =>
    simp only [MetricSpecs.flatMapE] at h
    cases hr : t.resolve with
    | error e => simp [Task.computations, hr, bind, Except.bind] at h
    | ok th =>
      simp only [Task.computations, hr, bind, Except.bind, pure, Except.pure] at h
      cases hs : MetricSpecs.flatMapE Task.computations ts with
      | error e => rw [hs] at h; cases h
      | ok cs' =>
        rw [hs] at h
        simp only [Except.ok.injEq] at h
        obtain ⟨l, h1, h2, h3⟩ := ih hs
        refine ⟨(t, th) :: l, by simp [h1], ?_, ?_⟩
        · intro p hp
          rcases List.mem_cons.1 hp with rfl | hp
          · exact hr
          · exact h2 p hp
        · rw [← h, h3]; rfl

private theorem one_id (c : Computation Work) (k : MetricKey) (h : c.keys = [k]) : c.id = .ok (c.className, [k], c.preprocessors) := by
  simp [Computation.id, h, sortKeys, insertKey, bind, Except.bind]

private theorem mat_same (t u : Task) (a b : List ℚ) : sameId (matComp t a) (matComp u b) = true ↔ SameOutput t u := by
  rw [← key_iff, sameId_iff, one_id (matComp t a) t.matricesKey rfl, one_id (matComp u b) u.matricesKey rfl]
  simp [matComp, eq_comm]

private theorem der_same (t u : Task) : sameId (derComp t) (derComp u) = true ↔ t.key = u.key := by
  rw [sameId_iff, one_id (derComp t) t.key rfl, one_id (derComp u) u.key rfl]
  simp [derComp, eq_comm]

private theorem ofKind_metric (l : List (Task × List ℚ)) :
    ofKind .metric (l.flatMap fun p => [matComp p.1 p.2, derComp p.1]) = l.map fun p => matComp p.1 p.2 := by
  induction l with
  | nil => rfl
  | cons p l ih =>
    simp only [List.flatMap_cons, List.map_cons, ← ih]
    simp [ofKind, matComp, derComp]

private theorem ofKind_derived (l : List (Task × List ℚ)) :
    ofKind .derived (l.flatMap fun p => [matComp p.1 p.2, derComp p.1]) = l.map fun p => derComp p.1 := by
  induction l with
  | nil => rfl
  | cons p l ih =>
    simp only [List.flatMap_cons, List.map_cons, ← ih]
    simp [ofKind, matComp, derComp]

/-- The first task of each output. -/
private def leaders : List (Task × List ℚ) → List (Task × List ℚ)
  | [] => []
  | p :: l => p :: (leaders l).filter fun q => ¬ SameOutput p.1 q.1

private theorem firsts_mat (l : List (Task × List ℚ)) :
    firsts (l.map fun p => matComp p.1 p.2) = (leaders l).map fun p => matComp p.1 p.2 := by
  induction l with
  | nil => rfl
  | cons p l ih =>
    simp only [List.map_cons, firsts, leaders, ih, List.filter_map]
    congr 2
    apply List.filter_congr
    intro q _
    have := mat_same p.1 q.1 p.2 q.2
    by_cases h : SameOutput p.1 q.1
    · simp [h, this.2 h]
    · have : sameId (matComp p.1 p.2) (matComp q.1 q.2) = false := by
        rw [Bool.eq_false_iff]; exact fun h' => h (this.1 h')
      simp [h, this]

private theorem firsts_der (l : List (Task × List ℚ)) (h : ((l.map Prod.fst).map Task.key).Nodup) :
    firsts (l.map fun p => derComp p.1) = l.map fun p => derComp p.1 := by
  induction l with
  | nil => rfl
  | cons p l ih =>
    simp only [List.map_cons, List.nodup_cons] at h
    simp only [List.map_cons, firsts, ih h.2]
    congr 1
    rw [List.filter_eq_self]
    intro c hc
    obtain ⟨q, hq, rfl⟩ := List.mem_map.1 hc
    have : ¬ sameId (derComp p.1) (derComp q.1) = true := fun hs => h.1 (by
      rw [(der_same _ _).1 hs]
      exact List.mem_map.2 ⟨q.1, List.mem_map.2 ⟨q, hq, rfl⟩, rfl⟩)
    simpa using this

private theorem same_refl (t : Task) : SameOutput t t := ⟨rfl, rfl, rfl⟩
private theorem same_symm {t u : Task} (h : SameOutput t u) : SameOutput u t := ⟨h.1.symm, h.2.1.symm, h.2.2.symm⟩
private theorem same_trans {t u v : Task} (h : SameOutput t u) (h' : SameOutput u v) : SameOutput t v :=
  ⟨h.1.trans h'.1, h.2.1.trans h'.2.1, h.2.2.trans h'.2.2⟩

private theorem leaders_find (l : List (Task × List ℚ)) (t : Task) :
    (leaders l).find? (fun p => decide (SameOutput p.1 t)) = l.find? fun p => decide (SameOutput p.1 t) := by
  induction l with
  | nil => rfl
  | cons p l ih =>
    simp only [leaders, List.find?_cons]
    by_cases h : SameOutput p.1 t
    · simp [h]
    · simp only [h, decide_false]
      rw [← ih, List.find?_filter]
      congr 1
      funext q
      by_cases hq : SameOutput q.1 t
      · have : ¬ SameOutput p.1 q.1 := fun hpq => h (same_trans hpq hq)
        simp [hq, this]
      · simp [hq]

private theorem leaders_pairwise (l : List (Task × List ℚ)) : (leaders l).Pairwise fun p q => ¬ SameOutput p.1 q.1 := by
  induction l with
  | nil => exact .nil
  | cons p l ih =>
    refine List.Pairwise.cons ?_ (ih.filter _)
    intro q hq
    simpa using (List.mem_filter.1 hq).2

private theorem combine_get (s : Sched (Except Err Example)) (l : List (Task × List ℚ)) (hl : l.Pairwise fun p q => ¬ SameOutput p.1 q.1)
    (d r : Results Value) (hd : ∀ p ∈ l, Dict.get? d p.1.matricesKey = none)
    (h : combineAll s (l.map fun p => matComp p.1 p.2) d = .ok r) :
    (∀ p ∈ l, ∃ a, (combiner p.2).run s = .ok a ∧ Dict.get? r p.1.matricesKey = some (.metric, .matrices a)) ∧
    ∀ k, (∀ p ∈ l, p.1.matricesKey ≠ k) → Dict.get? r k = Dict.get? d k := by
  induction l generalizing d with
  | nil =>
    simp only [List.map_nil, combineAll, Except.ok.injEq] at h
    subst h
    exact ⟨by simp, fun _ _ => rfl⟩
  | cons p l ih =>
    rw [List.pairwise_cons] at hl
    simp only [List.map_cons, combineAll, matComp, bind, Except.bind] at h
    cases hr : (combiner p.2).run s with
    | error e => rw [hr] at h; cases h
    | ok a =>
      rw [hr] at h
      simp only [List.map_cons, List.map_nil] at h
      have hget : ∀ k, Dict.get? (updateWith d [(p.1.matricesKey, .metric, .matrices a)]) k =
          if p.1.matricesKey = k then some (.metric, .matrices a) else Dict.get? d k := by
        intro k
        rw [updateWith_cons]
        show Dict.get? (put d _ _ _) k = _
        rw [get?_put, hd p (by simp)]; rfl
      have hne : ∀ q ∈ l, p.1.matricesKey ≠ q.1.matricesKey := fun q hq h' => hl.1 q hq ((key_iff _ _).1 h')
      obtain ⟨h1, h2⟩ := ih hl.2 _ (fun q hq => by rw [hget, if_neg (hne q hq)]; exact hd q (by simp [hq])) h
      refine ⟨?_, ?_⟩
      · intro q hq
        rcases List.mem_cons.1 hq with rfl | hq
        · refine ⟨a, hr, ?_⟩
          rw [h2 _ fun q' hq' => (hne q' hq').symm, hget, if_pos rfl]
        · exact h1 q hq
      · intro k hk
        rw [h2 k fun q hq => hk q (by simp [hq]), hget, if_neg (hk p (by simp))]

private theorem derivedOnly_eq (l : List (Task × List ℚ)) : derivedOnly (l.map fun p => derComp p.1) =
    l.map fun p => ⟨.derived, "function", [p.1.key], [], p.1.result⟩ := by
  induction l with
  | nil => rfl
  | cons p l ih =>
    have : derivedOnly (derComp p.1 :: l.map fun p => derComp p.1) =
        ⟨.derived, "function", [p.1.key], [], p.1.result⟩ :: derivedOnly (l.map fun p => derComp p.1) := rfl
    rw [List.map_cons, this, ih]; rfl

/-- The name is not the one under which the matrices are kept. -/
def Task.Named (t : Task) : Prop := t.name ≠ "_multi_class_confusion_matrices"

private theorem named_ne {t u : Task} (h : t.Named) : t.key ≠ u.matricesKey := fun he => h (congrArg MetricKey.name he)

private theorem derive_get (l : List (Task × List ℚ)) (hk : ((l.map Prod.fst).map Task.key).Nodup) (hn : ∀ p ∈ l, p.1.Named)
    (d r : Results Value) (hd : ∀ p ∈ l, Dict.get? d p.1.key = none)
    (hm : ∀ p ∈ l, ∃ a, Dict.get? d p.1.matricesKey = some (.metric, .matrices a))
    (h : addDerived (l.map fun p => (⟨.derived, "function", [p.1.key], [], p.1.result⟩ : Computation (Results Value → Except Err (Results Value)))) d = .ok r) :
    (∀ p ∈ l, ∀ a, Dict.get? d p.1.matricesKey = some (.metric, .matrices a) →
      Dict.get? r p.1.key = some (if p.1.plot then .plot else .metric, p.1.shown a)) ∧
    ∀ k, (∀ p ∈ l, p.1.key ≠ k) → Dict.get? r k = Dict.get? d k := by
  induction l generalizing d with
  | nil =>
    simp only [List.map_nil, addDerived, Except.ok.injEq] at h
    subst h
    exact ⟨by simp, fun _ _ => rfl⟩
  | cons p l ih =>
    simp only [List.map_cons, List.nodup_cons] at hk
    obtain ⟨a, ha⟩ := hm p (by simp)
    have hres : p.1.result d = .ok [(p.1.key, if p.1.plot then .plot else .metric, p.1.shown a)] := by
      unfold Task.result Task.shown
      rw [ha]
      cases p.1.plot <;> rfl
    simp only [List.map_cons, addDerived, hres] at h
    have hget : ∀ k, Dict.get? (updateWith d [(p.1.key, if p.1.plot then .plot else .metric, p.1.shown a)]) k =
        if p.1.key = k then some (if p.1.plot then .plot else .metric, p.1.shown a) else Dict.get? d k := by
      intro k
      rw [updateWith_cons]
      show Dict.get? (put d _ _ _) k = _
      rw [get?_put, hd p (by simp)]; rfl
    have hne : ∀ q ∈ l, p.1.key ≠ q.1.key := fun q hq he =>
      hk.1 (by rw [he]; exact List.mem_map.2 ⟨q.1, List.mem_map.2 ⟨q, hq, rfl⟩, rfl⟩)
    have hmk : ∀ u : Task, p.1.key ≠ u.matricesKey := fun u => named_ne (hn p (by simp))
    obtain ⟨h1, h2⟩ := ih hk.2 (fun q hq => hn q (by simp [hq])) _
      (fun q hq => by rw [hget, if_neg (hne q hq)]; exact hd q (by simp [hq]))
      (fun q hq => by rw [hget, if_neg (hmk _)]; exact hm q (by simp [hq])) h
    refine ⟨?_, ?_⟩
    · intro q hq b hb
      rcases List.mem_cons.1 hq with rfl | hq
      · rw [ha] at hb
        cases hb
        rw [h2 _ fun q' hq' => (hne q' hq').symm, hget, if_pos rfl]
      · exact h1 q hq b (by rw [hget, if_neg (hmk _)]; exact hb)
    · intro k hk'
      rw [h2 k fun q hq => hk' q (by simp [hq]), hget, if_neg (hk' p (by simp))]

/-- **C133** (what the code does): of several metrics and plots with different keys, each shows the matrices for the thresholds of the first
metric or plot that is configured for the same output of the same model, with the same use of weights. -/
theorem C133_first_thresholds (tasks : List Task) (hk : (tasks.map Task.key).Nodup) (hn : ∀ t ∈ tasks, t.Named)
    (s : Sched (Except Err Example)) (r : Results Value) (h : evaluate tasks s = .ok r) (t : Task) (ht : t ∈ tasks) :
    ∃ first ts a, tasks.find? (fun u => decide (SameOutput u t)) = some first ∧ first.resolve = .ok ts ∧
      (combiner ts).run s = .ok a ∧ Dict.get? r t.key = some (if t.plot then .plot else .metric, t.shown a) := by
  unfold evaluate at h
  simp only [bind, Except.bind] at h
  cases hf : MetricSpecs.flatMapE Task.computations tasks with
  | error e => rw [hf] at h; cases h
  | ok cs =>
    rw [hf] at h
    obtain ⟨l, hl, hres, rfl⟩ := flat_ok hf
    simp only at h
    cases hsep : separate (l.flatMap fun p => [matComp p.1 p.2, derComp p.1]) with
    | error e => rw [hsep] at h; cases h
    | ok sep =>
      rw [hsep] at h
      simp only at h
      obtain ⟨g1, g2, -, -⟩ := C29_first_occurrences _ _ hsep
      rw [ofKind_metric, firsts_mat] at g1
      rw [ofKind_derived, firsts_der l (by rw [hl]; exact hk)] at g2
      rw [g1, g2] at h
      cases hc : combineAll s ((leaders l).map fun p => matComp p.1 p.2) [] with
      | error e => rw [hc] at h; cases h
      | ok d =>
        rw [hc, derivedOnly_eq] at h
        simp only at h
        obtain ⟨c1, c2⟩ := combine_get s (leaders l) (leaders_pairwise l) [] d (fun _ _ => rfl) hc
        have hn' : ∀ p ∈ l, p.1.Named := fun p hp => hn p.1 (by rw [← hl]; exact List.mem_map.2 ⟨p, hp, rfl⟩)
        have hfirst : ∀ p ∈ l, ∃ q, l.find? (fun q => decide (SameOutput q.1 p.1)) = some q ∧ q ∈ leaders l ∧
            q.1.matricesKey = p.1.matricesKey ∧ q ∈ l := by
          intro p hp
          have : (l.find? fun q => decide (SameOutput q.1 p.1)).isSome := by
            rw [List.find?_isSome]; exact ⟨p, hp, by simp [same_refl]⟩
          obtain ⟨q, hq⟩ := Option.isSome_iff_exists.1 this
          refine ⟨q, hq, ?_, ?_, List.mem_of_find?_eq_some hq⟩
          · rw [← leaders_find] at hq; exact List.mem_of_find?_eq_some hq
          · have := List.find?_some hq
            exact (key_iff _ _).2 (by simpa using this)
        have hm : ∀ p ∈ l, ∃ a, Dict.get? d p.1.matricesKey = some (.metric, .matrices a) := by
          intro p hp
          obtain ⟨q, -, hq, hkq, -⟩ := hfirst p hp
          obtain ⟨a, -, ha⟩ := c1 q hq
          exact ⟨a, by rw [← hkq]; exact ha⟩
        obtain ⟨d1, -⟩ := derive_get l (by rw [hl]; exact hk) hn' d r
          (fun p hp => c2 _ fun q _ => (named_ne (hn' p hp)).symm) hm h
        rw [← hl] at ht
        obtain ⟨p, hp, rfl⟩ := List.mem_map.1 ht
        obtain ⟨q, hq, hql, hkq, hq'⟩ := hfirst p hp
        obtain ⟨a, ha, hga⟩ := c1 q hql
        refine ⟨q.1, q.2, a, ?_, hres q hq', ha, d1 p hp a (by rw [← hkq]; exact hga)⟩
        rw [← hl, List.find?_map]
        show Option.map Prod.fst (l.find? fun q => decide (SameOutput q.1 p.1)) = _
        rw [hq]; rfl

/-- **C133**: if the metrics and plots of an output of a model have the same thresholds, each of them shows the matrices for its
thresholds.  Missing from the full claim: different thresholds, for which it is false (`C133_thresholds_ignored`). -/
theorem C133_own_thresholds_partial (tasks : List Task) (hk : (tasks.map Task.key).Nodup) (hn : ∀ t ∈ tasks, t.Named)
    (hsame : ∀ t ∈ tasks, ∀ u ∈ tasks, SameOutput t u → t.resolve = u.resolve)
    (s : Sched (Except Err Example)) (r : Results Value) (h : evaluate tasks s = .ok r) (t : Task) (ht : t ∈ tasks) :
    ∃ ts a, t.resolve = .ok ts ∧ (combiner ts).run s = .ok a ∧
      Dict.get? r t.key = some (if t.plot then .plot else .metric, t.shown a) := by
  obtain ⟨first, ts, a, h1, h2, h3, h4⟩ := C133_first_thresholds tasks hk hn s r h t ht
  refine ⟨ts, a, ?_, h3, h4⟩
  rw [← h2]
  have hs : SameOutput first t := by simpa using List.find?_some h1
  exact (hsame first (List.mem_of_find?_eq_some h1) t ht hs).symm

/-- **C133** (false of the code): a metric at the threshold one half next to a plot with the threshold zero (both the defaults): the plot
shows the matrices at one half. -/
theorem C133_thresholds_ignored :
    let data : Sched (Except Err Example) := .bundle [.ok ⟨some [1], [3 / 10, 2 / 5], 1⟩]
    let metric : Task := { name := "multi_class_confusion_matrix_at_thresholds" }
    let plot : Task := { name := "multi_class_confusion_matrix_plot", plot := true }
    (((evaluate [plot] data).toOption.bind fun r => Dict.get? r plot.key) = some (.plot, .plot [⟨0, [(1, 1, 1)]⟩])) ∧
    (((evaluate [metric, plot] data).toOption.bind fun r => Dict.get? r plot.key) = some (.plot, .plot [⟨1 / 2, [(1, -1, 1)]⟩])) ∧
    (((evaluate [plot, metric] data).toOption.bind fun r => Dict.get? r metric.key) = some (.metric, .matrices [(0, [((1, 1), 1)])])) := by
  refine ⟨?_, ?_, ?_⟩ <;> decide +kernel

end MultiClass
end TFMA
