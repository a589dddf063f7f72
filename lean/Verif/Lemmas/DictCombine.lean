import Verif.Lemmas.Combine
import Verif.Py.DictLemmas
import Mathlib.Data.List.Perm.Basic
import Mathlib.Data.List.Nodup

/-!
# Combiners whose accumulator is a dictionary

An accumulator is summarised by the function giving the summary of the entry of each key (none if absent); merging
is pointwise, an absent entry being the identity.
-/

namespace TFMA.Beam

variable {K M T : Type}

/-- Combination of optional entries; an absent entry is the identity. -/
def optOp (op : M → M → M) : Option M → Option M → Option M
  | none, b => b
  | a, none => a
  | some a, some b => some (op a b)

/-- Pointwise combination. -/
def pw (op : M → M → M) (f g : K → Option M) : K → Option M := fun k => optOp op (f k) (g k)

/-- A single entry. -/
def single [DecidableEq K] (k : K) (m : M) : K → Option M := fun k' => if k = k' then some m else none

/-- Combination of a list; none if empty. -/
def optFold (op : M → M → M) : List M → Option M
  | [] => none
  | x :: xs => optOp op (some x) (optFold op xs)

variable {op : M → M → M}

theorem optOp_assoc (h : ∀ a b d, op (op a b) d = op a (op b d)) (a b d : Option M) :
    optOp op (optOp op a b) d = optOp op a (optOp op b d) := by
  cases a <;> cases b <;> cases d <;> simp [optOp, h]

theorem optOp_comm (h : ∀ a b, op a b = op b a) (a b : Option M) : optOp op a b = optOp op b a := by
  cases a <;> cases b <;> simp only [optOp]
  rw [h]

@[simp] theorem optOp_none_left (a : Option M) : optOp op none a = a := by cases a <;> rfl
@[simp] theorem optOp_none_right (a : Option M) : optOp op a none = a := by cases a <;> rfl

theorem pw_assoc (h : ∀ a b d, op (op a b) d = op a (op b d)) (a b d : K → Option M) :
    pw op (pw op a b) d = pw op a (pw op b d) := by funext k; exact optOp_assoc h _ _ _

theorem pw_comm (h : ∀ a b, op a b = op b a) (a b : K → Option M) : pw op a b = pw op b a := by
  funext k; exact optOp_comm h _ _

theorem pw_left (a : K → Option M) : pw op (fun _ => none) a = a := by funext k; simp [pw]

theorem optFold_eq {e : M} (hr : ∀ a, op a e = a) (l : List M) :
    optFold op l = if l = [] then none else some (l.foldr op e) := by
  induction l with
  | nil => rfl
  | cons x xs ih =>
    simp only [optFold, ih]
    cases xs with
    | nil => simp [optOp, hr]
    | cons y ys => simp [optOp]

/-- Contributions to one key each: the totals per key. -/
theorem total_single [DecidableEq K] {idx : T → Option K} {m : T → M} (ts : List T)
    (h : ∀ t ∈ ts, ∃ i, idx t = some i) :
    total (pw op) (fun _ => none) (fun t => (idx t).map fun i => single i (m t)) ts =
      some fun k => optFold op ((ts.filter fun t => decide (idx t = some k)).map m) := by
  induction ts with
  | nil => rfl
  | cons t ts ih =>
    obtain ⟨i, hi⟩ := h t (by simp)
    rw [total_cons, ih (fun t ht => h t (by simp [ht])), hi]
    simp only [Option.map_some, liftOp, Option.some.injEq]
    funext k
    simp only [pw, single, List.filter_cons, hi, Option.some.injEq]
    by_cases hk : i = k
    · simp [hk, optFold]
    · simp [hk]

theorem total_single_none [DecidableEq K] {idx : T → Option K} {m : T → M} (ts : List T)
    (h : ∃ t ∈ ts, idx t = none) :
    total (pw op) (fun _ => none) (fun t => (idx t).map fun i => single i (m t)) ts = none := by
  induction ts with
  | nil => obtain ⟨t, ht, _⟩ := h; cases ht
  | cons t ts ih =>
    rw [total_cons]
    obtain ⟨t', ht', hn⟩ := h
    rcases List.mem_cons.1 ht' with rfl | ht'
    · rw [hn]; rfl
    · rw [ih ⟨t', ht', hn⟩]
      cases (idx t).map fun i => single i (m t) <;> rfl

/-- Contributions to several keys each. -/
theorem total_fun (g : T → K → Option M) (ts : List T) :
    total (pw op) (fun _ => none) (fun t => some (g t)) ts =
      some fun k => optFold op (ts.filterMap fun t => g t k) := by
  induction ts with
  | nil => rfl
  | cons t ts ih =>
    rw [total_cons, ih]
    simp only [liftOp, Option.some.injEq]
    funext k
    simp only [pw, List.filterMap_cons]
    cases g t k <;> simp [optFold]

end TFMA.Beam

namespace TFMA.Dict

variable {K V : Type} [DecidableEq K]

theorem nodup_of_WF {d : Dict K V} (h : WF d) : d.Nodup := List.Nodup.of_map _ h

/-- Two dictionaries with the same entries are equal up to the order of insertion. -/
theorem perm_of_get? {d e : Dict K V} (hd : WF d) (he : WF e) (h : ∀ k, get? d k = get? e k) : d.Perm e := by
  rw [List.perm_ext_iff_of_nodup (nodup_of_WF hd) (nodup_of_WF he)]
  rintro ⟨k, v⟩
  rw [mem_iff_get? hd, mem_iff_get? he, h]

end TFMA.Dict
