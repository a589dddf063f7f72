import Verif.Model.MultiLabel
import Verif.Lemmas.DictCombine
import Verif.Props.Inputs
import Mathlib.Algebra.Order.Field.Rat
import Mathlib.Tactic.Linarith
import Mathlib.Tactic.Ring
import Mathlib.Tactic.FieldSimp
import Mathlib.Algebra.BigOperators.Group.List.Basic

/-!
# C101: multi-label confusion matrices
-/

namespace TFMA
namespace MultiLabel

open Beam Inputs

/-! ### Specification -/

/-- An example as the user thinks of it: which classes are labels, the predictions of the classes, the weight. -/
structure Reading where
  has : ℕ → Bool
  preds : List Fl
  weight : ℚ

/-- How the arrays of an example are read: a vector of labels with one value per class, or one class number (-1 and `n`
stand for no class). -/
inductive Reads : Example → Reading → Prop
  | dense (l : List ℚ) (p : List Fl) (w : ℚ) (has : ℕ → Bool) : l.length = p.length → p.length ≠ 1 →
      (∀ c, has c = true ↔ ∃ x, l[c]? = some x ∧ x ≠ 0) → Reads ⟨⟨[l.length], l⟩, some p, w⟩ ⟨has, p, w⟩
  | sparse (s : List ℕ) (c : ℤ) (p : List Fl) (w : ℚ) (has : ℕ → Bool) : s ≠ [] → s.prod = 1 → 2 ≤ p.length →
      -1 ≤ c → c ≤ p.length → (∀ k : ℕ, has k = true ↔ (k : ℤ) = c ∧ k < p.length) →
      Reads ⟨⟨s, [(c : ℚ)]⟩, some p, w⟩ ⟨has, p, w⟩

/-- The prediction for class `c` is at most `t`. -/
def Reading.low (d : Reading) (c : ℕ) (t : ℚ) : Bool :=
  match d.preds[c]? with
  | some (.fin q) => decide (q ≤ t)
  | some .ninf => true
  | _ => false

/-- The prediction for class `c` exceeds `t`. -/
def Reading.high (d : Reading) (c : ℕ) (t : ℚ) : Bool :=
  match d.preds[c]? with
  | some (.fin q) => decide (t < q)
  | some .pinf => true
  | _ => false

/-- Total weight of the examples satisfying a condition. -/
def weightOf (data : List Reading) (q : Reading → Bool) : ℚ := ((data.filter q).map Reading.weight).sum

/-- The entry expected for a threshold listed `n` times, an actual class and a class: there is one if some example has
the actual class as a label and a prediction for the class. -/
def expected (data : List Reading) (n : ℕ) (t : ℚ) (a c : ℕ) : Option Cell :=
  if data.any (fun d => d.has a && decide (c < d.preds.length)) then
    some ⟨n * weightOf data (fun d => d.has a && (d.has c && d.low c t)),
      n * weightOf data (fun d => d.has a && (!d.has c && d.low c t)),
      n * weightOf data (fun d => d.has a && (!d.has c && d.high c t)),
      n * weightOf data (fun d => d.has a && (d.has c && d.high c t))⟩
  else none

/-- The thresholds in use. -/
def inUse (ts : List ℚ) : List ℚ := if ts = [] then [1 / 2] else ts

/-! ### The loops -/

private theorem add_assoc' (a b d : Cell) : Cell.add (Cell.add a b) d = Cell.add a (Cell.add b d) := by
  simp [Cell.add, add_assoc]

private theorem add_comm' (a b : Cell) : Cell.add a b = Cell.add b a := by simp [Cell.add, add_comm]

private def rv (row : Dict EntryKey Cell) : EntryKey → Option Cell := fun k => Dict.get? row k

private theorem bump_rv (row : Dict EntryKey Cell) (k : EntryKey) (c : Cell) :
    rv (bump row k c) = pw Cell.add (rv row) (single k c) := by
  funext k'
  simp only [rv, bump, pw, single]
  rw [Dict.get?_set]
  by_cases h : k = k'
  · subst h; cases hr : Dict.get? row k <;> simp [optOp]
  · simp [h]

private theorem bump_wf {row : Dict EntryKey Cell} (h : Dict.WF row) (k : EntryKey) (c : Cell) :
    Dict.WF (bump row k c) := Dict.WF_set h _ _

private def given (labels : List ℚ) (c : ℕ) : Bool := decide (labels[c]?.getD 0 ≠ 0)

private theorem classLoop_rv (labels : List ℚ) (t w : ℚ) (a : ℕ) (c : ℕ) (ps : List Fl) (row : Dict EntryKey Cell) :
    rv (classLoop labels t w a c ps row) = pw Cell.add (rv row) (fun k =>
      if k.1 = a ∧ c ≤ k.2 then (ps[k.2 - c]?).map fun p => cellFor (given labels k.2) p t w else none) := by
  induction ps generalizing c row with
  | nil => funext k; simp [classLoop, pw]
  | cons p ps ih =>
    simp only [classLoop]
    rw [ih, bump_rv, pw_assoc add_assoc']
    congr 1
    funext k
    simp only [pw, single]
    by_cases hk : (a, c) = k
    · subst hk
      simp [given]
    · rw [if_neg hk, optOp_none_left]
      by_cases h1 : k.1 = a ∧ c ≤ k.2
      · have h2 : c + 1 ≤ k.2 := by
          rcases Nat.lt_or_ge c k.2 with h | h
          · exact h
          · exact absurd (by ext <;> simp <;> omega) hk
        rw [if_pos ⟨h1.1, h2⟩, if_pos h1]
        have : k.2 - c = (k.2 - (c + 1)) + 1 := by omega
        rw [this, List.getElem?_cons_succ]
      · rw [if_neg h1, if_neg (fun h => h1 ⟨h.1, by omega⟩)]

private theorem classLoop_wf (labels : List ℚ) (t w : ℚ) (a : ℕ) (c : ℕ) (ps : List Fl) (row : Dict EntryKey Cell)
    (h : Dict.WF row) : Dict.WF (classLoop labels t w a c ps row) := by
  induction ps generalizing c row with
  | nil => exact h
  | cons p ps ih => exact ih _ _ (bump_wf h _ _)

private theorem actualLoop_rv (labels : List ℚ) (preds : List Fl) (t w : ℚ) (a : ℕ) (ls : List ℚ)
    (row : Dict EntryKey Cell) :
    rv (actualLoop labels preds t w a ls row) = pw Cell.add (rv row) (fun k =>
      if a ≤ k.1 ∧ ls[k.1 - a]?.getD 0 ≠ 0 then (preds[k.2]?).map fun p => cellFor (given labels k.2) p t w
      else none) := by
  induction ls generalizing a row with
  | nil => funext k; simp [actualLoop, pw]
  | cons l ls ih =>
    simp only [actualLoop]
    rw [ih]
    have e : rv (if l = 0 then row else classLoop labels t w a 0 preds row) = pw Cell.add (rv row) (fun k =>
        if k.1 = a ∧ l ≠ 0 then (preds[k.2]?).map fun p => cellFor (given labels k.2) p t w else none) := by
      by_cases hl : l = 0
      · rw [if_pos hl]; funext k; simp [pw, hl]
      · rw [if_neg hl, classLoop_rv]; congr 1; funext k; simp [hl]
    rw [e, pw_assoc add_assoc']
    congr 1
    funext k
    simp only [pw]
    by_cases hk : k.1 = a
    · subst hk
      have h2 : ¬ (k.1 + 1 ≤ k.1) := by omega
      simp [h2]
    · rw [if_neg (fun h => hk h.1), optOp_none_left]
      by_cases h1 : a ≤ k.1
      · have : k.1 - a = (k.1 - (a + 1)) + 1 := by omega
        rw [this, List.getElem?_cons_succ]
        have h3 : a + 1 ≤ k.1 := by omega
        simp [h1, h3]
      · have h3 : ¬ a + 1 ≤ k.1 := by omega
        simp [h1, h3]

private theorem actualLoop_wf (labels : List ℚ) (preds : List Fl) (t w : ℚ) (a : ℕ) (ls : List ℚ)
    (row : Dict EntryKey Cell) (h : Dict.WF row) : Dict.WF (actualLoop labels preds t w a ls row) := by
  induction ls generalizing a row with
  | nil => exact h
  | cons l ls ih =>
    apply ih
    split
    · exact h
    · exact classLoop_wf _ _ _ _ _ _ _ h

/-! ### The accumulator -/

private def view (a : Acc) : ℚ → Option (EntryKey → Option Cell) := fun t => (Dict.get? a t).map rv

private def Inv (a : Acc) : Prop := Dict.WF a ∧ ∀ t row, Dict.get? a t = some row → Dict.WF row

private theorem set_inv {a : Acc} (ha : Inv a) (t : ℚ) (row : Dict EntryKey Cell) (hr : Dict.WF row) :
    Inv (Dict.set a t row) := by
  refine ⟨Dict.WF_set ha.1 _ _, ?_⟩
  intro t' row' h
  rw [Dict.get?_set] at h
  split at h
  · cases h; exact hr
  · exact ha.2 t' row' h

private theorem rowWF {a : Acc} (ha : Inv a) (t : ℚ) : Dict.WF ((Dict.get? a t).getD []) := by
  cases hg : Dict.get? a t with
  | none => simpa using Dict.WF_nil
  | some r => simpa using ha.2 t r hg

private def plus := pw (K := ℚ) (pw (K := EntryKey) Cell.add)

private theorem plus_assoc (a b d : ℚ → Option (EntryKey → Option Cell)) : plus (plus a b) d = plus a (plus b d) :=
  pw_assoc (pw_assoc add_assoc') a b d

private theorem plus_comm (a b : ℚ → Option (EntryKey → Option Cell)) : plus a b = plus b a :=
  pw_comm (pw_comm add_comm') a b

private theorem plus_left (a : ℚ → Option (EntryKey → Option Cell)) : plus (fun _ => none) a = a := pw_left a

private theorem set_view (a : Acc) (t : ℚ) (row : Dict EntryKey Cell) (g : EntryKey → Option Cell)
    (h : rv row = pw Cell.add (rv ((Dict.get? a t).getD [])) g) :
    view (Dict.set a t row) = plus (view a) (single t g) := by
  funext t'
  simp only [view, plus, pw, single]
  rw [Dict.get?_set]
  by_cases ht : t = t'
  · subst ht
    rw [if_pos rfl, if_pos rfl, Option.map_some, h]
    cases hg : Dict.get? a t with
    | none =>
      simp only [Option.map_none, optOp_none_left, Option.getD_none]
      congr 1
    | some r => simp [optOp]
  · simp [ht]

private def contrib (labels : List ℚ) (preds : List Fl) (w t : ℚ) : EntryKey → Option Cell := fun k =>
  if labels[k.1]?.getD 0 ≠ 0 then (preds[k.2]?).map fun p => cellFor (given labels k.2) p t w else none

private theorem addAt_view (labels : List ℚ) (preds : List Fl) (w : ℚ) (a : Acc) (t : ℚ) :
    view (addAt labels preds w a t) = plus (view a) (single t (contrib labels preds w t)) := by
  unfold addAt
  apply set_view
  rw [actualLoop_rv]
  congr 1
  funext k
  simp [contrib]

private theorem addAt_inv (labels : List ℚ) (preds : List Fl) (w : ℚ) (a : Acc) (t : ℚ) (ha : Inv a) :
    Inv (addAt labels preds w a t) := set_inv ha _ _ (actualLoop_wf _ _ _ _ _ _ _ (rowWF ha t))

private def all (labels : List ℚ) (preds : List Fl) (w : ℚ) (ts : List ℚ) : ℚ → Option (EntryKey → Option Cell) :=
  ts.foldr (fun t f => plus (single t (contrib labels preds w t)) f) fun _ => none

private theorem foldl_view (labels : List ℚ) (preds : List Fl) (w : ℚ) (ts : List ℚ) (a : Acc) (ha : Inv a) :
    view (ts.foldl (addAt labels preds w) a) = plus (view a) (all labels preds w ts) ∧
      Inv (ts.foldl (addAt labels preds w) a) := by
  induction ts generalizing a with
  | nil => exact ⟨by rw [List.foldl_nil, plus_comm]; exact (plus_left _).symm, ha⟩
  | cons t ts ih =>
    obtain ⟨h1, h2⟩ := ih _ (addAt_inv labels preds w a t ha)
    refine ⟨?_, h2⟩
    rw [List.foldl_cons, h1, addAt_view, plus_assoc]
    rfl

private theorem mergeRow_rv (row m : Dict EntryKey Cell) (hr : Dict.WF row) (hm : Dict.WF m) :
    Dict.WF (mergeRow row m) ∧ rv (mergeRow row m) = pw Cell.add (rv row) (rv m) := by
  induction m generalizing row with
  | nil => exact ⟨hr, by funext k; simp [mergeRow, pw, rv]⟩
  | cons kv m ih =>
    obtain ⟨k0, v0⟩ := kv
    have hk : k0 ∉ Dict.keys m ∧ Dict.WF m := by simpa [Dict.WF, Dict.keys] using hm
    obtain ⟨h1, h2⟩ := ih _ (bump_wf hr k0 v0) hk.2
    refine ⟨h1, ?_⟩
    have e : rv (mergeRow row ((k0, v0) :: m)) = _ := h2
    rw [e, bump_rv, pw_assoc add_assoc']
    congr 1
    funext k
    simp only [pw, single, rv]
    rw [Dict.get?_cons]
    by_cases hkk : k0 = k
    · subst hkk; rw [(Dict.get?_eq_none_iff m k0).2 hk.1]; simp
    · simp [hkk]

private theorem mergeTwo_ok (r acc : Acc) (hr : Inv r) (ha : Inv acc) :
    Inv (mergeTwo r acc) ∧ view (mergeTwo r acc) = plus (view r) (view acc) := by
  induction acc generalizing r with
  | nil => exact ⟨hr, by rw [plus_comm]; exact (plus_left _).symm⟩
  | cons tm acc ih =>
    obtain ⟨t0, m0⟩ := tm
    have hk : t0 ∉ Dict.keys acc ∧ Dict.WF acc := by simpa [Dict.WF, Dict.keys] using ha.1
    have hm0 : Dict.WF m0 := ha.2 t0 m0 (by simp [Dict.get?_cons])
    have ha' : Inv acc := ⟨hk.2, fun t row h => ha.2 t row (by
      rw [Dict.get?_cons, if_neg]
      · exact h
      · rintro rfl
        rw [(Dict.get?_eq_none_iff acc t0).2 hk.1] at h; cases h)⟩
    obtain ⟨g1, g2⟩ := mergeRow_rv _ m0 (rowWF hr t0) hm0
    obtain ⟨h1, h2⟩ := ih _ (set_inv hr t0 _ g1) ha'
    refine ⟨h1, ?_⟩
    have e : view (mergeTwo r ((t0, m0) :: acc)) = _ := h2
    rw [e, set_view _ _ _ _ g2, plus_assoc]
    congr 1
    funext t
    simp only [plus, pw, single, view]
    rw [Dict.get?_cons]
    by_cases ht : t0 = t
    · subst ht; rw [(Dict.get?_eq_none_iff acc t0).2 hk.1]; simp
    · simp [ht]

private def f (ts : List ℚ) (x : Except Err Example) : Option (ℚ → Option (EntryKey → Option Cell)) :=
  x.toOption.bind fun e => (dense e).toOption.map fun d => all d.1 d.2 e.weight (inUse ts)

private theorem ohom (ts : List ℚ) : OHom (combiner ts) plus (fun _ => none) (f ts) view Inv where
  assoc := plus_assoc
  comm := plus_comm
  left := plus_left
  inv_create := ⟨Dict.WF_nil, fun t row h => by simp [combiner] at h⟩
  inv_add a x b ha h := by
    cases x with
    | error e => simp [combiner, Except.bind] at h
    | ok x =>
      simp only [combiner, Except.bind, addExample, bind] at h
      cases hc : dense x with
      | error e => rw [hc] at h; cases h
      | ok c =>
        rw [hc] at h
        simp only [pure, Except.pure, Except.ok.injEq] at h
        exact h ▸ (foldl_view _ _ _ _ a ha).2
  create := by funext k; rfl
  add a x ha := by
    cases x with
    | error e => rfl
    | ok x =>
      simp only [combiner, Except.bind, addExample, bind, f, Except.toOption, Option.bind_some]
      cases hc : dense x with
      | error e => rfl
      | ok c =>
        simp only [pure, Except.pure, Option.map_some]
        rw [(foldl_view _ _ _ _ a ha).1]; rfl
  merge a as h := by
    refine ⟨as.foldl mergeTwo a, rfl, ?_⟩
    induction as generalizing a with
    | nil => exact ⟨h a (by simp), rfl⟩
    | cons b as ih =>
      obtain ⟨h1, h2⟩ := mergeTwo_ok a b (h a (by simp)) (h b (by simp))
      obtain ⟨g1, g2⟩ := ih (mergeTwo a b) (by
        intro y hy
        rcases List.mem_cons.1 hy with rfl | hy
        · exact h1
        · exact h y (by simp [hy]))
      refine ⟨g1, ?_⟩
      rw [List.foldl_cons, g2, h2, List.map_cons, List.foldl_cons]

/-! ### What one example contributes -/

private def scale (n : ℕ) (c : Cell) : Cell := ⟨n * c.fn, n * c.tn, n * c.fp, n * c.tp⟩

private theorem all_eq (labels : List ℚ) (preds : List Fl) (w : ℚ) (ts : List ℚ) (t : ℚ) :
    all labels preds w ts t =
      if t ∈ ts then some fun k => (contrib labels preds w t k).map (scale (ts.count t)) else none := by
  induction ts with
  | nil => simp [all]
  | cons u ts ih =>
    have e : all labels preds w (u :: ts) t =
        optOp (pw Cell.add) (single u (contrib labels preds w u) t) (all labels preds w ts t) := rfl
    rw [e, ih]
    by_cases hu : u = t
    · subst hu
      simp only [single, if_true, List.mem_cons, true_or, List.count_cons_self]
      by_cases hm : u ∈ ts
      · simp only [hm, if_true, optOp, Option.some.injEq]
        funext k
        simp only [pw]
        cases contrib labels preds w u k with
        | none => rfl
        | some c => simp [optOp, Cell.add, scale]; refine ⟨?_, ?_, ?_, ?_⟩ <;> ring
      · simp only [hm, if_false, optOp, Option.some.injEq, List.count_eq_zero_of_not_mem hm]
        funext k
        cases contrib labels preds w u k <;> simp [scale]
    · have hu' : ¬ t = u := fun h => hu h.symm
      have hc : (u :: ts).count t = ts.count t := List.count_cons_of_ne hu
      simp [single, hu, hu', hc]

private theorem dense_of_reads {e : Example} {d : Reading} (h : Reads e d) :
    ∃ l, dense e = .ok (l, d.preds) ∧ e.weight = d.weight ∧ ∀ c, given l c = d.has c := by
  cases h with
  | dense l p w has hlen h1 hh =>
    refine ⟨l, ?_, rfl, ?_⟩
    · unfold dense
      match p, h1 with
      | [], _ => simp at hlen; simp [hlen]
      | [x], h1 => simp at h1
      | x :: y :: p, _ => simp [hlen]
    · intro c
      rw [Bool.eq_iff_iff, hh]
      simp only [given, decide_eq_true_eq]
      cases l[c]? <;> simp
  | sparse s c p w has hs hp hn hc1 hc2 hh =>
    refine ⟨hot p.length (if c < 0 then c + p.length + 1 else c), ?_, rfl, ?_⟩
    · unfold dense
      have ho := oneHot_eq s [c] [] p.length rfl (by simp; omega)
      simp only [List.map_cons, List.map_nil, List.nil_append, List.flatMap_cons, List.flatMap_nil, List.append_nil] at ho
      have hcond : s.length ≠ 1 ∨ s.getLast? ≠ some p.length := by
        by_cases h1 : s.length = 1
        · right
          obtain ⟨n, rfl⟩ := List.length_eq_one_iff.1 h1
          simp at hp
          simp; omega
        · exact .inl h1
      match p, hn with
      | x :: y :: p, _ =>
        simp only [hs, if_false]
        rw [if_pos hcond, ho]
        rfl
    · intro k
      rw [Bool.eq_iff_iff, hh]
      simp only [given, hot, decide_eq_true_eq, List.getElem?_map]
      by_cases hk : k < p.length
      · rw [List.getElem?_eq_getElem (by simpa using hk)]
        simp only [List.getElem_range, Option.map_some, Option.getD_some]
        split_ifs <;> simp <;> omega
      · rw [List.getElem?_eq_none (by simpa using hk)]
        simp; omega

private theorem f_of_reads (ts : List ℚ) {e : Example} {d : Reading} (h : Reads e d) :
    f ts (.ok e) = some fun t => if t ∈ inUse ts then
      some fun k => if d.has k.1 then (d.preds[k.2]?).map fun p =>
        scale ((inUse ts).count t) (cellFor (d.has k.2) p t d.weight) else none
      else none := by
  obtain ⟨l, h1, h2, h3⟩ := dense_of_reads h
  simp only [f, Except.toOption, Option.bind_some, h1, Option.map_some, Option.some.injEq]
  funext t
  rw [all_eq, h2]
  split
  · congr 1
    funext k
    simp only [contrib]
    have := h3 k.1
    simp only [given] at this
    rw [← h3 k.2]
    cases hd : d.has k.1 with
    | true =>
      rw [hd] at this
      have : l[k.1]?.getD 0 ≠ 0 := by simpa using this
      rw [if_pos this, if_pos rfl, Option.map_map]; rfl
    | false =>
      rw [hd] at this
      have : ¬ l[k.1]?.getD 0 ≠ 0 := by simpa using this
      rw [if_neg this]; rfl
  · rfl

private theorem weightOf_cons (d : Reading) (data : List Reading) (q : Reading → Bool) :
    weightOf (d :: data) q = (if q d then d.weight else 0) + weightOf data q := by
  unfold weightOf
  cases h : q d <;> simp [h]

private theorem low_eq (d : Reading) (c : ℕ) (t : ℚ) (p : Fl) (h : d.preds[c]? = some p) :
    d.low c t = Fl.le p (.fin t) := by
  unfold Reading.low; rw [h]; cases p <;> rfl

private theorem high_eq (d : Reading) (c : ℕ) (t : ℚ) (p : Fl) (h : d.preds[c]? = some p) :
    d.high c t = above p t := by
  unfold Reading.high above
  rw [h]
  cases p with
  | fin q =>
    simp only [Fl.le]
    rw [Bool.eq_iff_iff]
    simp only [decide_eq_true_eq, Bool.and_eq_true, Bool.not_eq_true', decide_eq_false_iff_not, not_le]
    exact ⟨fun h => ⟨le_of_lt h, h⟩, And.right⟩
  | _ => rfl

private theorem low_none (d : Reading) (c : ℕ) (t : ℚ) (h : d.preds[c]? = none) : d.low c t = false := by
  unfold Reading.low; rw [h]

private theorem high_none (d : Reading) (c : ℕ) (t : ℚ) (h : d.preds[c]? = none) : d.high c t = false := by
  unfold Reading.high; rw [h]

private theorem expected_cons (d : Reading) (data : List Reading) (n : ℕ) (t : ℚ) (a c : ℕ) :
    optOp Cell.add (if d.has a then (d.preds[c]?).map fun p => scale n (cellFor (d.has c) p t d.weight) else none)
      (expected data n t a c) = expected (d :: data) n t a c := by
  unfold expected
  simp only [List.any_cons, weightOf_cons]
  cases ha : d.has a with
  | false => simp
  | true =>
    cases hp : d.preds[c]? with
    | none =>
      have hlt : ¬ c < d.preds.length := by simpa [List.getElem?_eq_none_iff] using hp
      simp [low_none d c t hp, high_none d c t hp, hlt]
    | some p =>
      have hlt : c < d.preds.length := (List.getElem?_eq_some_iff.1 hp).1
      rw [low_eq d c t p hp, high_eq d c t p hp]
      simp only [hlt, decide_true, Bool.and_true, Bool.true_or, if_true, Option.map_some, Bool.true_and]
      by_cases hany : (data.any fun d => d.has a && decide (c < d.preds.length)) = true
      · rw [if_pos hany]
        simp only [optOp, Cell.add, scale, cellFor, times, Option.some.injEq, Cell.mk.injEq]
        refine ⟨?_, ?_, ?_, ?_⟩ <;> ring
      · rw [if_neg hany]
        have hz : ∀ q : Reading → Bool, (∀ x, c < x.preds.length ∨ q x = false) →
            weightOf data (fun x => x.has a && q x) = 0 := by
          intro q hq
          unfold weightOf
          have : data.filter (fun x => x.has a && q x) = [] := by
            rw [List.filter_eq_nil_iff]
            intro x hx hcon
            apply hany
            rw [List.any_eq_true]
            refine ⟨x, hx, ?_⟩
            simp only [Bool.and_eq_true] at hcon
            rcases hq x with h | h
            · simp [hcon.1, h]
            · rw [h] at hcon; simp at hcon
          rw [this]; rfl
        have hlow : ∀ x : Reading, c < x.preds.length ∨ x.low c t = false := by
          intro x
          by_cases h : c < x.preds.length
          · exact .inl h
          · exact .inr (low_none x c t (by simpa using h))
        have hhigh : ∀ x : Reading, c < x.preds.length ∨ x.high c t = false := by
          intro x
          by_cases h : c < x.preds.length
          · exact .inl h
          · exact .inr (high_none x c t (by simpa using h))
        rw [hz _ (fun x => (hlow x).imp id (by intro h; simp [h])), hz _ (fun x => (hlow x).imp id (by intro h; simp [h])),
          hz _ (fun x => (hhigh x).imp id (by intro h; simp [h])), hz _ (fun x => (hhigh x).imp id (by intro h; simp [h]))]
        simp [optOp, scale, cellFor, times]

private theorem total_eq (ts : List ℚ) (data : List (Example × Reading)) (h : ∀ d ∈ data, Reads d.1 d.2) :
    total plus (fun _ => none) (f ts) (data.map fun d => .ok d.1) =
      some fun t => if t ∈ inUse ts ∧ data ≠ [] then
        some fun k => expected (data.map Prod.snd) ((inUse ts).count t) t k.1 k.2 else none := by
  induction data with
  | nil => simp [total, prod]
  | cons d data ih =>
    rw [List.map_cons, total_cons, ih fun x hx => h x (by simp [hx]), f_of_reads ts (h d (by simp))]
    simp only [liftOp, Option.some.injEq, plus]
    funext t
    simp only [pw]
    by_cases ht : t ∈ inUse ts
    · simp only [ht, true_and, if_true, ne_eq, reduceCtorEq, not_false_eq_true, List.map_cons]
      by_cases hd : data = []
      · subst hd
        simp only [not_true_eq_false, if_false, optOp_none_right, Option.some.injEq, List.map_nil]
        funext k
        rw [← expected_cons]
        simp [expected]
      · simp only [hd, not_false_eq_true, if_true, optOp, Option.some.injEq]
        funext k
        exact expected_cons _ _ _ _ _ _
    · simp [ht]

/-! ### C101 -/

/-- C101: however the runner schedules the combiner, the result has a matrix for exactly the thresholds in use (unless
there is no example); the matrix has an entry for an actual class and a class exactly if an example has the actual class
among its labels and a prediction for the class; and the entry holds the total weights of the examples with that label
whose other class is or is not a label and whose prediction for it is above the threshold or not, once for each time
the threshold is listed. -/
theorem C101_entries (ts : List ℚ) (data : List (Example × Reading)) (hr : ∀ d ∈ data, Reads d.1 d.2)
    (s : Sched (Except Err Example)) (hs : s.inputs.Perm (data.map fun d => .ok d.1)) :
    ∃ acc, (combiner ts).run s = .ok acc ∧ Dict.WF acc ∧
      (∀ t, t ∈ Dict.keys acc ↔ t ∈ inUse ts ∧ data ≠ []) ∧
      ∀ t row, Dict.get? acc t = some row → Dict.WF row ∧
        ∀ a c, Dict.get? row (a, c) = expected (data.map Prod.snd) ((inUse ts).count t) t a c := by
  have h := orun_eq (ohom ts) hs
  rw [total_eq ts data hr] at h
  cases hrun : (combiner ts).run s with
  | error e => rw [hrun] at h; simp [Except.toOption] at h
  | ok acc =>
    rw [hrun] at h
    have hinv := run_inv (ohom ts).hom hrun
    simp only [Except.toOption, Option.map_some, Option.some.injEq] at h
    refine ⟨acc, rfl, hinv.1, ?_, ?_⟩
    · intro t
      have ht := congrFun h t
      simp only [view] at ht
      rw [Dict.mem_keys_iff]
      constructor
      · intro hm
        by_contra hne
        rw [if_neg hne] at ht
        cases hg : Dict.get? acc t with
        | none => rw [hg] at hm; simp at hm
        | some r => rw [hg] at ht; simp at ht
      · intro hc
        rw [if_pos hc] at ht
        cases hg : Dict.get? acc t with
        | none => rw [hg] at ht; simp at ht
        | some r => simp
    · intro t row hg
      refine ⟨hinv.2 t row hg, ?_⟩
      intro a c
      have ht := congrFun h t
      simp only [view, hg, Option.map_some] at ht
      split at ht
      · exact congrFun (Option.some.inj ht) (a, c)
      · cases ht

/-- C101: if the predictions are numbers, the four cells of an entry add up to the weight of the examples with the
actual class, once for each time the threshold is listed. -/
theorem C101_row_sum (data : List Reading) (n : ℕ) (t : ℚ) (a c : ℕ) (x : Cell)
    (hn : ∀ d ∈ data, c < d.preds.length ∧ d.preds[c]? ≠ some .nan) (hx : expected data n t a c = some x) :
    x.fn + x.tn + x.fp + x.tp = n * weightOf data fun d => d.has a := by
  unfold expected at hx
  split at hx
  · simp only [Option.some.injEq] at hx
    subst hx
    simp only [← mul_add]
    congr 1
    clear * - hn
    induction data with
    | nil => simp [weightOf]
    | cons d data ih =>
      simp only [weightOf_cons]
      have hd := hn d (by simp)
      have h1 : d.high c t = !d.low c t := by
        cases hp : d.preds[c]? with
        | none => rw [List.getElem?_eq_none_iff] at hp; omega
        | some p =>
          unfold Reading.high Reading.low
          rw [hp]
          cases p with
          | nan => exact absurd hp hd.2
          | fin q => simp only [← not_le, decide_not]
          | ninf => rfl
          | pinf => rfl
      rw [← ih fun y hy => hn y (by simp [hy])]
      rw [h1]
      cases d.has a <;> cases d.has c <;> cases d.low c t <;> simp <;> ring
  · cases hx

/-- Values that are NaN are in no cell. -/
theorem C101_nan : expected [⟨fun _ => true, [.fin 1, .nan], 3⟩] 1 (1 / 2) 0 1 = some ⟨0, 0, 0, 0⟩ := by decide +kernel

/-- A list of class numbers with several values (or none) is rejected, unless it has as many values as there are
classes. -/
theorem C101_several_sparse (s : List ℕ) (cs : List ℚ) (p : List Fl) (w : ℚ) (hs : s ≠ [p.length])
    (hn : 2 ≤ p.length) (hc : cs.length ≠ 1) : dense ⟨⟨s, cs⟩, some p, w⟩ = .error .valueError := by
  unfold dense
  by_cases h0 : s = []
  · simp [h0]
  · have hcond : s.length ≠ 1 ∨ s.getLast? ≠ some p.length := by
      by_contra hcon
      push Not at hcon
      obtain ⟨n, rfl⟩ := List.length_eq_one_iff.1 hcon.1
      simp at hcon
      exact hs (by rw [hcon])
    have ho : oneHot ⟨s, cs⟩ [p.length] = .error .valueError := by
      unfold oneHot
      simp only [List.getLast?_singleton]
      have hl : ∀ (cs : List ℚ) rs, mapE (fun x => eyeRow (p.length + 1) (toInt x)) cs = .ok rs →
          ((rs.map List.dropLast).flatten).length = cs.length * p.length := by
        intro cs
        induction cs with
        | nil => intro rs h; simp only [mapE, Except.ok.injEq] at h; subst h; simp
        | cons x cs ih =>
          intro rs h
          simp only [mapE, bind, Except.bind] at h
          cases he : eyeRow (p.length + 1) (toInt x) with
          | error e => rw [he] at h; cases h
          | ok r =>
            rw [he] at h
            cases hm : mapE (fun x => eyeRow (p.length + 1) (toInt x)) cs with
            | error e => rw [hm] at h; cases h
            | ok rs' =>
              rw [hm] at h
              simp only [pure, Except.pure, Except.ok.injEq] at h
              subst h
              have hr : r.length = p.length + 1 := by
                unfold eyeRow at he
                simp only at he
                split_ifs at he <;> simp only [Except.ok.injEq] at he <;> subst he <;> simp
              simp only [List.map_cons, List.flatten_cons, List.length_append, List.length_dropLast, hr, ih rs' hm,
                List.length_cons]
              rw [Nat.add_sub_cancel]; ring
      cases hm : mapE (fun x => eyeRow (p.length + 1) (toInt x)) cs with
      | error e => rfl
      | ok rs =>
        simp only
        unfold Arr.reshape
        rw [if_neg]
        unfold Arr.size
        rw [hl cs rs hm]
        simp only [List.prod_cons, List.prod_nil, mul_one]
        intro h
        have : cs.length * p.length = 1 * p.length := by omega
        exact hc (Nat.eq_of_mul_eq_mul_right (by omega) this)
    match p, hn with
    | x :: y :: p, _ =>
      simp only [h0, if_false]
      rw [if_pos hcond, ho]
      rfl

/-- With as many class numbers as classes the list is taken for one value per class: of the labels 0, 1 and 2, class 0
is then not counted as a label. -/
theorem C101_all_labels :
    (combiner [1 / 2]).run (.bundle [.ok ⟨⟨[3], [0, 1, 2]⟩, some [.fin 1, .fin 1, .fin 1], 1⟩]) =
      .ok [(1 / 2, [((1, 0), ⟨0, 0, 1, 0⟩), ((1, 1), ⟨0, 0, 0, 1⟩), ((1, 2), ⟨0, 0, 0, 1⟩),
        ((2, 0), ⟨0, 0, 1, 0⟩), ((2, 1), ⟨0, 0, 0, 1⟩), ((2, 2), ⟨0, 0, 0, 1⟩)])] := by decide +kernel

/-! ### The matrices that are shown -/

/-- Both settings together are refused. -/
theorem C101_both (ts : List ℚ) (n : ℤ) : chosenThresholds (some ts) (some n) = .error .valueError := rfl

private theorem eps_pos : (0 : ℚ) < epsilon := by unfold epsilon; norm_num

private theorem chosen_sorted (m : ℕ) :
    (-epsilon :: (List.range m).map (fun (i : ℕ) => ((i : ℚ) + 1) / ((m : ℚ) + 1)) ++ [1 + epsilon]).Pairwise (· < ·) := by
  have he := eps_pos
  have hm : (0 : ℚ) < (m : ℚ) + 1 := by positivity
  rw [List.cons_append, List.pairwise_cons]
  constructor
  · intro x hx
    rcases List.mem_append.1 hx with h | h
    · obtain ⟨i, _, rfl⟩ := List.mem_map.1 h
      have : (0 : ℚ) < ((i : ℚ) + 1) / ((m : ℚ) + 1) := by positivity
      linarith
    · simp only [List.mem_singleton] at h
      subst h; linarith
  · rw [List.pairwise_append]
    refine ⟨?_, List.pairwise_singleton _ _, ?_⟩
    · rw [List.pairwise_map]
      refine List.Pairwise.imp ?_ (List.pairwise_lt_range (n := m))
      intro a b hab
      have : (a : ℚ) < b := by exact_mod_cast hab
      exact (div_lt_div_iff_of_pos_right hm).2 (by linarith)
    · intro x hx y hy
      obtain ⟨i, hi, rfl⟩ := List.mem_map.1 hx
      simp only [List.mem_singleton] at hy
      subst hy
      have hi' : (i : ℚ) + 1 ≤ m := by exact_mod_cast (List.mem_range.1 hi)
      have : ((i : ℚ) + 1) / ((m : ℚ) + 1) < 1 := by rw [div_lt_one hm]; linarith
      linarith

/-- C101: the matrices shown are those of the thresholds in ascending order: the ones given, or the one threshold 1/2 by default. -/
theorem C101_thresholds (given : Option (List ℚ)) (ts : List ℚ) (ht : chosenThresholds given none = .ok ts)
    (wanted : List ℚ) (hw : wanted = given.getD [1 / 2]) (hsort : wanted.Pairwise (· < ·)) (hne : wanted ≠ [])
    (hin : ∀ t ∈ wanted, 0 ≤ t ∧ t ≤ 1) (data : List (Example × Reading)) (hd : data ≠ []) (hr : ∀ d ∈ data, Reads d.1 d.2)
    (s : Sched (Except Err Example)) (hs : s.inputs.Perm (data.map fun d => .ok d.1)) :
    ∃ acc, (combiner ts).run s = .ok acc ∧ (extract acc).map Prod.fst = wanted := by
  have hts : ts = wanted := by
    cases given with
    | none => simp only [chosenThresholds, Except.ok.injEq] at ht; rw [← ht, hw]; rfl
    | some l => simp only [chosenThresholds, Except.ok.injEq] at ht; rw [← ht, hw]; rfl
  subst hts
  obtain ⟨acc, h1, h2, h3, _⟩ := C101_entries ts data hr s hs
  refine ⟨acc, h1, ?_⟩
  have hperm : (acc.map Prod.fst).Perm ts := by
    refine (List.perm_ext_iff_of_nodup (l₁ := acc.map Prod.fst) h2 (hsort.imp fun h => ne_of_lt h)).2 ?_
    intro t
    have := h3 t
    simp only [inUse, hne, if_false, hd, ne_eq, not_false_eq_true, and_true] at this
    exact this
  have heq : (acc.map Prod.fst).insertionSort (· ≤ ·) = ts := by
    refine List.Perm.eq_of_pairwise (le := (· ≤ ·)) (fun a b _ _ h1 h2 => le_antisymm h1 h2) ?_ ?_ ?_
    · exact List.pairwise_insertionSort _ _
    · exact hsort.imp le_of_lt
    · exact (List.perm_insertionSort _ _).trans hperm
  unfold extract
  rw [heq, List.map_map]
  have he := eps_pos
  refine (List.map_congr_left fun t htm => ?_).trans (List.map_id ts)
  have := hin t htm
  simp only [Function.comp, shownThreshold]
  rw [if_neg (by intro h; linarith), if_neg (by intro h; linarith)]
  rfl

example : chosenThresholds none none = .ok [1 / 2] ∧ ([1 / 2] : List ℚ).Pairwise (· < ·) ∧ ∀ t ∈ ([1 / 2] : List ℚ), 0 ≤ t ∧ t ≤ 1 :=
  ⟨rfl, by simp, by simp; norm_num⟩

/-- C101: with `num_thresholds` of n ≥ 2 the matrices shown are those of 0, 1/(n-1), …, 1 in this order. -/
theorem C101_num_thresholds (n : ℕ) (hn : 2 ≤ n) (ts : List ℚ) (ht : chosenThresholds none (some n) = .ok ts)
    (data : List (Example × Reading)) (hd : data ≠ []) (hr : ∀ d ∈ data, Reads d.1 d.2)
    (s : Sched (Except Err Example)) (hs : s.inputs.Perm (data.map fun d => .ok d.1)) :
    ∃ acc, (combiner ts).run s = .ok acc ∧
      (extract acc).map Prod.fst = (List.range n).map fun (i : ℕ) => (i : ℚ) / ((n : ℚ) - 1) := by
  obtain ⟨m, rfl⟩ : ∃ m, n = m + 2 := ⟨n - 2, by omega⟩
  have hts : ts = -epsilon :: (List.range m).map (fun (i : ℕ) => ((i : ℚ) + 1) / ((m : ℚ) + 1)) ++ [1 + epsilon] := by
    simp only [chosenThresholds, Except.ok.injEq] at ht
    rw [← ht]
    have h1 : (((m + 2 : ℕ) : ℤ) - 2).toNat = m := by omega
    have h2 : ((((m + 2 : ℕ) : ℤ)) : ℚ) - 1 = (m : ℚ) + 1 := by push_cast; ring
    rw [h1, h2]
  obtain ⟨acc, h1, h2, h3, _⟩ := C101_entries ts data hr s hs
  refine ⟨acc, h1, ?_⟩
  have hsort := chosen_sorted m
  rw [← hts] at hsort
  have hne : ts ≠ [] := by rw [hts]; simp
  have hperm : (acc.map Prod.fst).Perm ts := by
    refine (List.perm_ext_iff_of_nodup (l₁ := acc.map Prod.fst) h2 (hsort.imp fun h => ne_of_lt h)).2 ?_
    intro t
    have := h3 t
    simp only [inUse, hne, if_false, hd, ne_eq, not_false_eq_true, and_true] at this
    exact this
  have heq : (acc.map Prod.fst).insertionSort (· ≤ ·) = ts := by
    refine List.Perm.eq_of_pairwise (le := (· ≤ ·)) (fun a b _ _ h1 h2 => le_antisymm h1 h2) ?_ ?_ ?_
    · exact List.pairwise_insertionSort _ _
    · exact hsort.imp le_of_lt
    · exact (List.perm_insertionSort _ _).trans hperm
  unfold extract
  rw [heq, List.map_map]
  have he := eps_pos
  have hm : (0 : ℚ) < (m : ℚ) + 1 := by positivity
  have h2' : (((m + 2 : ℕ)) : ℚ) - 1 = (m : ℚ) + 1 := by push_cast; ring
  rw [h2', hts, List.range_succ, List.range_succ_eq_map]
  simp only [List.cons_append, List.map_cons, List.map_append, List.map_map, List.map_nil, Function.comp_apply]
  congr 1
  · simp [shownThreshold]
  · congr 1
    · apply List.map_congr_left
      intro i hi
      simp only [Function.comp, shownThreshold]
      have hi' : (i : ℚ) + 1 ≤ m := by exact_mod_cast (List.mem_range.1 hi)
      have g1 : (0 : ℚ) < ((i : ℚ) + 1) / ((m : ℚ) + 1) := by positivity
      have g2 : ((i : ℚ) + 1) / ((m : ℚ) + 1) < 1 := by rw [div_lt_one hm]; linarith
      rw [if_neg (by intro h; rw [h] at g1; linarith), if_neg (by intro h; rw [h] at g2; linarith)]
      push_cast; rfl
    · simp only [shownThreshold]
      rw [if_neg (by intro h; linarith), if_pos trivial]
      congr 1
      push_cast
      field_simp

private theorem keyLe_total (a b : EntryKey) : keyLe a b = true ∨ keyLe b a = true := by
  simp only [keyLe, decide_eq_true_eq]; omega

/-- C101: every matrix shown lists the entries of its threshold, ordered by actual class and class; the thresholds are in
ascending order. -/
theorem C101_order (acc : Acc) (h : Dict.WF acc) :
    (∃ ts : List ℚ, ts.Pairwise (· < ·) ∧ (∀ t, t ∈ ts ↔ t ∈ Dict.keys acc) ∧
      List.Forall₂ (fun t m => m.1 = (if t = -(1 / 10000000) then 0 else if t = 1 + 1 / 10000000 then 1 else t) ∧
        (∃ row, Dict.get? acc t = some row ∧ m.2.Perm row) ∧
        m.2.Pairwise fun x y => x.1.1 < y.1.1 ∨ (x.1.1 = y.1.1 ∧ x.1.2 ≤ y.1.2)) ts (extract acc)) := by
  refine ⟨(acc.map Prod.fst).insertionSort (· ≤ ·), ?_, ?_, ?_⟩
  · have h1 : ((acc.map Prod.fst).insertionSort (· ≤ ·)).Pairwise (· ≤ ·) := List.pairwise_insertionSort _ _
    have h2 : ((acc.map Prod.fst).insertionSort (· ≤ ·)).Nodup := (List.perm_insertionSort _ _).nodup_iff.2 h
    exact (h1.and h2).imp fun ⟨a, b⟩ => lt_of_le_of_ne a b
  · intro t
    exact (List.perm_insertionSort _ _).mem_iff
  · unfold extract
    rw [List.forall₂_map_right_iff, List.forall₂_same]
    intro t ht
    rw [(List.perm_insertionSort _ _).mem_iff] at ht
    refine ⟨rfl, ?_, ?_⟩
    · have hk : t ∈ Dict.keys acc := ht
      rw [Dict.mem_keys_iff] at hk
      obtain ⟨row, hrow⟩ := hk
      exact ⟨row, hrow, by rw [hrow]; exact List.perm_insertionSort _ _⟩
    · have htot : Std.Total fun x y : EntryKey × Cell => keyLe x.1 y.1 = true := ⟨fun a b => keyLe_total _ _⟩
      have htr : IsTrans _ fun x y : EntryKey × Cell => keyLe x.1 y.1 = true :=
        ⟨fun a b c h1 h2 => by simp only [keyLe, decide_eq_true_eq] at *; omega⟩
      refine List.Pairwise.imp ?_ (List.pairwise_insertionSort (fun x y : EntryKey × Cell => keyLe x.1 y.1 = true) _)
      intro a b hab
      simpa [keyLe] using hab

/-- A threshold listed twice counts everything twice. -/
example : (combiner [1 / 2, 1 / 2]).run (.bundle [.ok ⟨⟨[1], [1]⟩, some [.fin 1, .fin (1 / 2)], 3⟩]) =
    .ok [(1 / 2, [((1, 0), ⟨0, 0, 6, 0⟩), ((1, 1), ⟨6, 0, 0, 0⟩)])] := by decide +kernel

/-- Two examples, one with a vector of labels and one with a class number, combined in two bundles. -/
example : (combiner []).run (.merge (.cons (.bundle [.ok ⟨⟨[2], [1, 1]⟩, some [.fin 1, .fin 0], 2⟩])
      (.one (.bundle [.ok ⟨⟨[1, 1], [0]⟩, some [.fin 1, .pinf], 3⟩])))) =
    .ok [(1 / 2, [((0, 0), ⟨0, 0, 0, 5⟩), ((0, 1), ⟨2, 0, 3, 0⟩), ((1, 0), ⟨0, 0, 0, 2⟩), ((1, 1), ⟨2, 0, 0, 0⟩)])] := by
  decide +kernel

example : Reads ⟨⟨[2], [1, 1]⟩, some [.fin 1, .fin 0], 2⟩ ⟨fun c => decide (c < 2), [.fin 1, .fin 0], 2⟩ :=
  .dense [1, 1] _ _ _ rfl (by decide) (by
    intro c
    match c with
    | 0 => simp
    | 1 => simp
    | c + 2 => simp)

example : Reads ⟨⟨[1, 1], [((0 : ℤ) : ℚ)]⟩, some [.fin 1, .pinf], 3⟩ ⟨fun c => decide (c = 0), [.fin 1, .pinf], 3⟩ :=
  .sparse [1, 1] 0 _ _ _ (by decide) rfl (by decide) (by decide) (by decide) (by
    intro k
    match k with
    | 0 => simp
    | k + 1 => simp; omega)

example : expected [⟨fun c => decide (c < 2), [.fin 1, .fin 0], 2⟩, ⟨fun c => decide (c = 0), [.fin 1, .pinf], 3⟩] 1 (1 / 2)
    0 1 = some ⟨2, 0, 3, 0⟩ := by decide +kernel

end MultiLabel
end TFMA
