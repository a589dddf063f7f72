import Verif.Model.Attributions
import Verif.Lemmas.DictCombine
import Mathlib.Algebra.Order.Ring.Rat
import Mathlib.Algebra.BigOperators.Group.List.Basic

/-!
# C15 for total attributions

Merging can fail (vectors of different size), so the failure has to be shown independent of the schedule, too.
-/

namespace TFMA
namespace Attributions

open Beam

/-! ### Specification -/

/-- The vectors that the data contribute to a feature: weighted scores, as absolute values if requested. -/
def contributions (absolute : Bool) (data : List Elem) (k : String) : List (List ℚ) :=
  data.flatMap fun x => x.scores.filterMap fun e =>
    if e.1 = k then some (e.2.map fun v => if absolute then |v * x.weight| else v * x.weight) else none

/-- Componentwise sum of vectors of size `n`. -/
def vecSum (n : ℕ) (vs : List (List ℚ)) : List ℚ :=
  (List.range n).map fun i => (vs.map fun v => v.getD i 0).sum

/-! ### The monoid of partial vector sums -/

abbrev Sum := Option (String → Option (List ℚ))

private def Compat : Option (List ℚ) → Option (List ℚ) → Prop
  | some a, some b => a.length = b.length
  | _, _ => True

private abbrev vadd : List ℚ → List ℚ → List ℚ := List.zipWith (· + ·)

open Classical in
private noncomputable def op : Sum → Sum → Sum
  | some f, some g => if ∀ k, Compat (f k) (g k) then some (pw vadd f g) else none
  | _, _ => none

private def unit : Sum := some fun _ => none

private theorem vadd_assoc : ∀ a b c : List ℚ, vadd (vadd a b) c = vadd a (vadd b c) := by
  intro a
  induction a with
  | nil => intro b c; simp [vadd]
  | cons x a ih =>
    intro b c
    cases b with
    | nil => simp [vadd]
    | cons y b =>
      cases c with
      | nil => simp [vadd]
      | cons z c =>
        have := ih b c
        simp only [vadd, List.zipWith_cons_cons] at this ⊢
        rw [this, add_assoc]

private theorem vadd_comm (a b : List ℚ) : vadd a b = vadd b a := by
  unfold vadd
  rw [List.zipWith_comm]
  congr 1
  funext x y
  exact add_comm _ _

private theorem vadd_length (a b : List ℚ) (h : a.length = b.length) : (vadd a b).length = a.length := by
  simp [vadd, h]

private theorem compat_iff (a b c : Option (List ℚ)) :
    (Compat a b ∧ Compat (optOp vadd a b) c) ↔ (Compat b c ∧ Compat a (optOp vadd b c)) := by
  cases a with
  | none => cases b <;> cases c <;> simp [Compat, optOp]
  | some a =>
    cases b with
    | none => cases c <;> simp [Compat, optOp]
    | some b =>
      cases c with
      | none => simp [Compat, optOp]
      | some c =>
        simp only [Compat, optOp]
        constructor
        · rintro ⟨h1, h2⟩
          rw [vadd_length a b h1] at h2
          refine ⟨by omega, ?_⟩
          rw [vadd_length b c (by omega)]
          omega
        · rintro ⟨h1, h2⟩
          rw [vadd_length b c h1] at h2
          refine ⟨by omega, ?_⟩
          rw [vadd_length a b (by omega)]
          omega

private theorem op_assoc (a b c : Sum) : op (op a b) c = op a (op b c) := by
  cases a with
  | none => cases b <;> cases c <;> rfl
  | some f =>
    cases b with
    | none => cases c <;> rfl
    | some g =>
      cases c with
      | none =>
        have hn : ∀ x : Sum, op x none = none := by intro x; cases x <;> rfl
        rw [hn, hn, hn]
      | some h =>
        have key : (∀ k, Compat (f k) (g k)) ∧ (∀ k, Compat (pw vadd f g k) (h k)) ↔
            (∀ k, Compat (g k) (h k)) ∧ (∀ k, Compat (f k) (pw vadd g h k)) := by
          rw [← forall_and, ← forall_and]
          exact forall_congr' fun k => compat_iff _ _ _
        simp only [op]
        by_cases h1 : ∀ k, Compat (f k) (g k)
        · rw [if_pos h1]
          by_cases h2 : ∀ k, Compat (pw vadd f g k) (h k)
          · obtain ⟨h3, h4⟩ := key.1 ⟨h1, h2⟩
            rw [if_pos h3]
            simp only
            rw [if_pos h2, if_pos h4, pw_assoc vadd_assoc]
          · by_cases h3 : ∀ k, Compat (g k) (h k)
            · rw [if_pos h3]
              have h4 : ¬ ∀ k, Compat (f k) (pw vadd g h k) := fun h4 => h2 (key.2 ⟨h3, h4⟩).2
              simp only
              rw [if_neg h2, if_neg h4]
            · rw [if_neg h3]
              simp only
              rw [if_neg h2]
        · rw [if_neg h1]
          by_cases h3 : ∀ k, Compat (g k) (h k)
          · rw [if_pos h3]
            have h4 : ¬ ∀ k, Compat (f k) (pw vadd g h k) := fun h4 => h1 (key.2 ⟨h3, h4⟩).1
            simp only
            rw [if_neg h4]
          · rw [if_neg h3]

private theorem op_comm (a b : Sum) : op a b = op b a := by
  cases a with
  | none => cases b <;> rfl
  | some f =>
    cases b with
    | none => rfl
    | some g =>
      simp only [op]
      have : (∀ k, Compat (f k) (g k)) ↔ ∀ k, Compat (g k) (f k) := by
        apply forall_congr'
        intro k
        cases f k <;> cases g k <;> simp [Compat, eq_comm]
      rw [pw_comm vadd_comm]
      by_cases h : ∀ k, Compat (f k) (g k)
      · rw [if_pos h, if_pos (this.1 h)]
      · rw [if_neg h, if_neg fun h' => h (this.2 h')]

private theorem op_left (a : Sum) : op unit a = a := by
  cases a with
  | none => rfl
  | some f =>
    simp only [op, unit]
    rw [if_pos (fun k => by cases f k <;> trivial), pw_left]

private theorem op_right (a : Sum) : op a unit = a := by rw [op_comm, op_left]

/-! ### The methods as operations of the monoid -/

private def V (a : Option Acc) : Sum := a.map fun d k => Dict.get? d k

private def sgl (absolute : Bool) (e : String × List ℚ) : Sum := some (single e.1 (e.2.map (addend absolute)))

/-- Invariant: no repeated keys, and accumulated absolute values are not negative. -/
private def Inv (absolute : Bool) (a : Acc) : Prop :=
  Dict.WF a ∧ ∀ k l, Dict.get? a k = some l → l.map (addend absolute) = l

private theorem addend_idem (absolute : Bool) (v : ℚ) : addend absolute (addend absolute v) = addend absolute v := by
  cases absolute <;> simp [addend]

private theorem zip_addend (absolute : Bool) (l v : List ℚ) :
    List.zipWith (fun x v => x + addend absolute v) l v = vadd l (v.map (addend absolute)) := by
  simp [vadd, List.zipWith_map_right]

private theorem vadd_replicate (v : List ℚ) : vadd (List.replicate v.length 0) v = v := by
  induction v with
  | nil => rfl
  | cons x v ih => simp only [vadd, List.length_cons, List.replicate_succ, List.zipWith_cons_cons, zero_add] at ih ⊢; rw [ih]

private theorem addend_vadd (absolute : Bool) (a b : List ℚ) (ha : a.map (addend absolute) = a)
    (hb : b.map (addend absolute) = b) : (vadd a b).map (addend absolute) = vadd a b := by
  induction a generalizing b with
  | nil => simp [vadd]
  | cons x a ih =>
    cases b with
    | nil => simp [vadd]
    | cons y b =>
      simp only [List.map_cons, List.cons.injEq] at ha hb
      have := ih b ha.2 hb.2
      simp only [vadd, List.zipWith_cons_cons, List.map_cons, List.cons.injEq] at this ⊢
      refine ⟨?_, this⟩
      cases absolute with
      | false => rfl
      | true =>
        simp only [addend, if_true] at ha hb ⊢
        rw [abs_eq_self] at ha hb ⊢
        exact add_nonneg ha.1 hb.1

private theorem get_single (a : Acc) (k : String) (l : List ℚ) (m : List ℚ)
    (h : optOp vadd (Dict.get? a k) (some m) = some l) :
    (fun k' => Dict.get? (Dict.set a k l) k') = pw vadd (fun k' => Dict.get? a k') (single k m) := by
  funext k'
  simp only [pw, single, Dict.get?_set]
  by_cases hk : k = k'
  · subst hk; simp [h]
  · simp [hk, Ne.symm hk]

private theorem compat_single (a : Acc) (k : String) (m : List ℚ) :
    (∀ k', Compat (Dict.get? a k') (single k m k')) ↔ Compat (Dict.get? a k) (some m) := by
  constructor
  · intro h; have := h k; simpa [single] using this
  · intro h k'
    simp only [single]
    by_cases hk : k = k'
    · subst hk; simpa using h
    · rw [if_neg hk]; cases Dict.get? a k' <;> trivial

private theorem inv_set (absolute : Bool) (a : Acc) (k : String) (l : List ℚ) (h : Inv absolute a)
    (hl : l.map (addend absolute) = l) : Inv absolute (Dict.set a k l) := by
  refine ⟨Dict.WF_set h.1 _ _, ?_⟩
  intro k' l' h'
  rw [Dict.get?_set] at h'
  split at h'
  · cases h'; exact hl
  · exact h.2 k' l' h'

private theorem addStep_eq (absolute : Bool) (a : Acc) (e : String × List ℚ) (ha : Inv absolute a) :
    V (addStep absolute a e).toOption = op (V (some a)) (sgl absolute e) ∧
      ∀ b, addStep absolute a e = .ok b → Inv absolute b := by
  obtain ⟨k, v⟩ := e
  have hidem : (v.map (addend absolute)).map (addend absolute) = v.map (addend absolute) := by
    rw [List.map_map]; congr 1; funext x; exact addend_idem _ _
  simp only [addStep, sgl, V, op, Option.map_some, sumInto]
  cases hg : Dict.get? a k with
  | none =>
    have hr : List.zipWith (fun x v => x + addend absolute v) (List.replicate v.length 0) v =
        v.map (addend absolute) := by
      rw [zip_addend]
      have := vadd_replicate (v.map (addend absolute))
      rwa [List.length_map] at this
    simp only [List.length_replicate, ne_eq, not_true_eq_false, if_false, Except.map, hr]
    refine ⟨?_, ?_⟩
    · rw [if_pos ((compat_single a k _).2 (by rw [hg]; trivial))]
      show some _ = some _
      exact congrArg some (get_single a k _ (v.map (addend absolute)) (by rw [hg]; simp))
    · intro b hb; cases hb; exact inv_set absolute a k _ ha hidem
  | some l =>
    simp only
    by_cases hl : l.length = v.length
    · simp only [hl, ne_eq, not_true_eq_false, if_false, Except.map, zip_addend]
      refine ⟨?_, ?_⟩
      · rw [if_pos ((compat_single a k _).2 (by rw [hg]; simpa [Compat] using hl))]
        show some _ = some _
        exact congrArg some (get_single a k _ (v.map (addend absolute)) (by rw [hg]; simp [optOp]))
      · intro b hb; cases hb
        exact inv_set absolute a k _ ha (addend_vadd absolute _ _ (ha.2 k l hg) hidem)
    · simp only [ne_eq, hl, not_false_eq_true, if_true, Except.map]
      refine ⟨?_, fun b hb => by cases hb⟩
      rw [if_neg]
      · rfl
      · rw [compat_single, hg]
        simpa [Compat] using hl

private theorem mergeStep_eq (absolute : Bool) (a : Acc) (e : String × List ℚ)
    (he : e.2.map (addend absolute) = e.2) : mergeStep absolute a e = addStep absolute a e := by
  simp only [mergeStep, addStep]
  cases hg : Dict.get? a e.1 with
  | some l => rfl
  | none =>
    simp only [sumInto, List.length_replicate, ne_eq, not_true_eq_false, if_false, Except.map, zip_addend]
    have := vadd_replicate (e.2.map (addend absolute))
    rw [List.length_map] at this
    rw [this, he]

private noncomputable def sgls (absolute : Bool) (es : List (String × List ℚ)) : Sum :=
  (es.map (sgl absolute)).foldr op unit

private theorem loop_eq (absolute : Bool) (es : List (String × List ℚ)) (a : Acc) (ha : Inv absolute a) :
    V (loop (addStep absolute) a es).toOption = op (V (some a)) (sgls absolute es) ∧
      ∀ b, loop (addStep absolute) a es = .ok b → Inv absolute b := by
  induction es generalizing a with
  | nil =>
    refine ⟨?_, fun b hb => by cases hb; exact ha⟩
    simp only [loop, sgls, List.map_nil, List.foldr_nil, op_right]
    rfl
  | cons e es ih =>
    have h := addStep_eq absolute a e ha
    have hs : sgls absolute (e :: es) = op (sgl absolute e) (sgls absolute es) := rfl
    rw [hs, ← op_assoc, ← h.1]
    simp only [loop]
    cases hq : addStep absolute a e with
    | error x => exact ⟨rfl, fun b hb => by cases hb⟩
    | ok b => exact ih b (h.2 b hq)

private theorem loop_congr {S T : Type} (f g : S → T → Except Err S) (a : S) (ts : List T)
    (h : ∀ a, ∀ t ∈ ts, f a t = g a t) : loop f a ts = loop g a ts := by
  induction ts generalizing a with
  | nil => rfl
  | cons t ts ih =>
    simp only [loop]
    rw [h a t (by simp)]
    cases g a t with
    | error e => rfl
    | ok b => exact ih b fun a t ht => h a t (by simp [ht])

private theorem sgls_dict (absolute : Bool) (b : Acc) (hw : Dict.WF b)
    (hb : ∀ e ∈ b, e.2.map (addend absolute) = e.2) : sgls absolute b = V (some b) := by
  induction b with
  | nil => rfl
  | cons e b ih =>
    have hw' : Dict.WF b := by unfold Dict.WF at hw ⊢; exact (List.nodup_cons.1 hw).2
    have hs : sgls absolute (e :: b) = op (sgl absolute e) (sgls absolute b) := rfl
    rw [hs, ih hw' fun x hx => hb x (by simp [hx]), sgl, hb e (by simp)]
    obtain ⟨k, v⟩ := e
    have hn : Dict.get? b k = none := by
      rw [Dict.get?_eq_none_iff]
      exact (List.nodup_cons.1 hw).1
    rw [op_comm]
    simp only [V, Option.map_some, op]
    rw [if_pos ((compat_single b k v).2 (by rw [hn]; trivial))]
    congr 1
    funext k'
    simp only [pw, single, Dict.get?_cons]
    by_cases hk : k = k'
    · subst hk; simp [hn]
    · simp [hk]

private theorem inv_entries (absolute : Bool) (b : Acc) (h : Inv absolute b) :
    ∀ e ∈ b, e.2.map (addend absolute) = e.2 := by
  rintro ⟨k, v⟩ he
  exact h.2 k v (Dict.get?_of_mem h.1 he)

private theorem merge_two (absolute : Bool) (a b : Acc) (ha : Inv absolute a) (hb : Inv absolute b) :
    V (loop (mergeStep absolute) a b).toOption = op (V (some a)) (V (some b)) ∧
      ∀ d, loop (mergeStep absolute) a b = .ok d → Inv absolute d := by
  rw [loop_congr (mergeStep absolute) (addStep absolute) a b
    fun a t ht => mergeStep_eq absolute a t (inv_entries absolute b hb t ht)]
  have := loop_eq absolute b a ha
  rwa [sgls_dict absolute b hb.1 (inv_entries absolute b hb)] at this

private theorem merge_all (absolute : Bool) (as : List Acc) (a : Acc) (ha : Inv absolute a)
    (has : ∀ y ∈ as, Inv absolute y) :
    V (loop (fun r a => loop (mergeStep absolute) r a) a as).toOption =
        (as.map fun x => V (some x)).foldl op (V (some a)) ∧
      ∀ d, loop (fun r a => loop (mergeStep absolute) r a) a as = .ok d → Inv absolute d := by
  induction as generalizing a with
  | nil => exact ⟨rfl, fun d hd => by cases hd; exact ha⟩
  | cons b as ih =>
    have h := merge_two absolute a b ha (has b (by simp))
    simp only [List.map_cons, List.foldl_cons]
    rw [← h.1]
    simp only [loop]
    cases hq : loop (mergeStep absolute) a b with
    | error x =>
      refine ⟨?_, fun d hd => by cases hd⟩
      have : ∀ l : List Sum, l.foldl op none = none := by
        intro l
        induction l with
        | nil => rfl
        | cons x l ih => rw [List.foldl_cons]; exact ih
      exact (this _).symm
    | ok d => exact ih d (h.2 d hq) fun y hy => has y (by simp [hy])

private noncomputable def contrib (absolute : Bool) : Except Err Elem → Sum
  | .error _ => none
  | .ok x => sgls absolute (x.scores.map fun e => (e.1, e.2.map (· * x.weight)))

private theorem hom (absolute : Bool) : Hom (combiner absolute) op unit (contrib absolute) V (Inv absolute) where
  assoc := op_assoc
  comm := op_comm
  left := op_left
  absorb := fun _ => rfl
  inv_create := ⟨Dict.WF_nil, fun k l h => by cases h⟩
  inv_add := by
    intro a x b ha h
    cases x with
    | error e => cases h
    | ok x => exact (loop_eq absolute _ a ha).2 b h
  inv_merge := by
    intro a as b h hm
    exact (merge_all absolute as a (h a (by simp)) fun y hy => h y (by simp [hy])).2 b hm
  create := rfl
  add := by
    intro a x ha
    cases x with
    | error e => rfl
    | ok x => exact (loop_eq absolute _ a ha).1
  merge := by
    intro a as h
    exact (merge_all absolute as a (h a (by simp)) fun y hy => h y (by simp [hy])).1

/-! ### Theorems -/

/-- C15, total attributions: every execution over the data raises exactly when accumulating everything in one
bundle raises, and otherwise has the same entries. -/
theorem C15_attributions (absolute : Bool) (data : List (Except Err Elem)) (s : Sched _)
    (p : s.inputs.Perm data) :
    ((combiner absolute).run s).toOption.map (fun d k => Dict.get? d k) =
      ((combiner absolute).run (.bundle data)).toOption.map (fun d k => Dict.get? d k) :=
  (run_eq (hom absolute) p).trans
    (run_eq (s := .bundle data) (hom absolute) (List.Perm.refl data)).symm

private theorem prod_value (fs : List (String → Option (List ℚ))) (F : String → Option (List ℚ))
    (h : (fs.map some).foldr op unit = some F) (k : String) :
    F k = optFold vadd (fs.filterMap fun f => f k) ∧
      ∀ f ∈ fs, ∀ l, f k = some l → ∃ m, F k = some m ∧ m.length = l.length := by
  induction fs generalizing F with
  | nil => cases h; exact ⟨rfl, fun f hf => by cases hf⟩
  | cons f fs ih =>
    simp only [List.map_cons, List.foldr_cons] at h
    cases hG : (fs.map some).foldr op unit with
    | none => rw [hG] at h; cases h
    | some G =>
      rw [hG] at h
      simp only [op] at h
      split at h
      · rename_i hc
        cases h
        obtain ⟨h1, h2⟩ := ih G hG
        refine ⟨?_, ?_⟩
        · simp only [pw, List.filterMap_cons]
          rw [h1]
          cases f k <;> simp [optFold]
        · intro f' hf' l hl
          have hck := hc k
          rcases List.mem_cons.1 hf' with rfl | hf'
          · cases hk : G k with
            | none => exact ⟨l, by simp [pw, hl, hk], rfl⟩
            | some m =>
              rw [hl, hk] at hck
              exact ⟨vadd l m, by simp [pw, hl, hk, optOp], by rw [vadd_length l m hck]⟩
          · obtain ⟨m, hm, hlen⟩ := h2 f' hf' l hl
            cases hk : f k with
            | none => exact ⟨m, by simp [pw, hm, hk], hlen⟩
            | some n =>
              rw [hk, hm] at hck
              exact ⟨vadd n m, by simp [pw, hm, hk, optOp], by rw [vadd_length n m hck]; exact hck.trans hlen⟩
      · cases h

private theorem optFold_vecSum (n : ℕ) (vs : List (List ℚ)) (h : ∀ v ∈ vs, v.length = n) :
    optFold vadd vs = if vs = [] then none else some (vecSum n vs) := by
  induction vs with
  | nil => rfl
  | cons v vs ih =>
    have hv := h v (by simp)
    simp only [optFold, ih fun v hv => h v (by simp [hv])]
    by_cases hn : vs = []
    · subst hn
      simp only [if_true, optOp_none_right, List.cons_ne_nil, if_false, Option.some.injEq, vecSum]
      apply List.ext_getElem (by simp [hv])
      intro i h1 h2
      simp [List.getD_eq_getElem?_getD, List.getElem?_eq_getElem h1]
    · simp only [hn, if_false, optOp, List.cons_ne_nil, Option.some.injEq, vecSum, vadd]
      apply List.ext_getElem (by simp [hv])
      intro i h1 h2
      have hi : i < v.length := by simp at h1; omega
      simp [List.getD_eq_getElem?_getD, List.getElem?_eq_getElem hi]

private theorem flatten_prod (absolute : Bool) (data : List Elem) :
    prod op unit (contrib absolute) (data.map Except.ok) =
      ((data.flatMap fun x => x.scores.map fun e => (e.1, e.2.map (· * x.weight))).map (sgl absolute)).foldr op
        unit := by
  induction data with
  | nil => rfl
  | cons x data ih =>
    have happ : ∀ (l : List Sum) (m : Sum), op (l.foldr op unit) m = l.foldr op m := by
      intro l m
      induction l with
      | nil => exact op_left m
      | cons a l ih => rw [List.foldr_cons, List.foldr_cons, op_assoc, ih]
    have h1 : prod op unit (contrib absolute) ((x :: data).map Except.ok) =
        op (contrib absolute (.ok x)) (prod op unit (contrib absolute) (data.map Except.ok)) := rfl
    rw [h1, ih, List.flatMap_cons, List.map_append, List.foldr_append]
    exact happ _ _

/-- C15, total attributions: when the data are accepted, the entry of a feature is the componentwise sum of what
the data contribute to it; a feature that no element mentions has no entry. -/
theorem C15_attributions_value (absolute : Bool) (data : List Elem) (s : Sched _)
    (p : s.inputs.Perm (data.map Except.ok)) (d : Acc) (h : (combiner absolute).run s = .ok d) (k : String) :
    (contributions absolute data k = [] ∧ Dict.get? d k = none) ∨
      ∃ n, contributions absolute data k ≠ [] ∧ (∀ v ∈ contributions absolute data k, v.length = n) ∧
        Dict.get? d k = some (vecSum n (contributions absolute data k)) := by
  have e := run_eq (hom absolute) p
  rw [h, flatten_prod] at e
  have e' : (((data.flatMap fun x => x.scores.map fun e => (e.1, e.2.map (· * x.weight))).map
      (fun e => single e.1 (e.2.map (addend absolute)))).map some).foldr op unit =
      some (fun k => Dict.get? d k) := by
    rw [List.map_map]
    exact e.symm
  obtain ⟨h1, h2⟩ := prod_value _ _ e' k
  have hc : (((data.flatMap fun x => x.scores.map fun e => (e.1, e.2.map (· * x.weight))).map
      (fun e => single e.1 (e.2.map (addend absolute)))).filterMap fun f => f k) =
      contributions absolute data k := by
    rw [List.filterMap_map, contributions]
    clear * -
    induction data with
    | nil => rfl
    | cons x data ih =>
      rw [List.flatMap_cons, List.flatMap_cons, List.filterMap_append, ih]
      congr 1
      rw [List.filterMap_map]
      congr 1
      funext e
      simp only [Function.comp_apply, single, List.map_map]
      by_cases hk : e.1 = k
      · simp only [hk, if_true, Option.some.injEq]
        congr 1
      · simp [hk]
  rw [hc] at h1
  cases hl : contributions absolute data k with
  | nil => left; refine ⟨rfl, ?_⟩; rw [h1, hl]; rfl
  | cons v vs =>
    right
    have hlen : ∀ w ∈ contributions absolute data k, ∃ m, Dict.get? d k = some m ∧ m.length = w.length := by
      intro w hw
      rw [← hc] at hw
      obtain ⟨f, hf, hfk⟩ := List.mem_filterMap.1 hw
      exact h2 f hf w hfk
    obtain ⟨m, hm, hmv⟩ := hlen v (by rw [hl]; simp)
    have hall : ∀ w ∈ contributions absolute data k, w.length = v.length := by
      intro w hw
      obtain ⟨m', hm', hmw⟩ := hlen w hw
      rw [hm] at hm'; cases hm'
      omega
    rw [hl] at hall h1
    refine ⟨v.length, by simp, hall, ?_⟩
    rw [h1, optFold_vecSum v.length _ hall, if_neg (by simp)]

private theorem prod_some (fs : List (String → Option (List ℚ)))
    (h : ∀ f ∈ fs, ∀ g ∈ fs, ∀ k, Compat (f k) (g k)) : ∃ F, (fs.map some).foldr op unit = some F := by
  induction fs with
  | nil => exact ⟨_, rfl⟩
  | cons f fs ih =>
    obtain ⟨G, hG⟩ := ih fun f hf g hg => h f (by simp [hf]) g (by simp [hg])
    refine ⟨pw vadd f G, ?_⟩
    simp only [List.map_cons, List.foldr_cons, hG, op]
    rw [if_pos]
    intro k
    obtain ⟨h1, h2⟩ := prod_value fs G hG k
    cases hk : G k with
    | none => cases f k <;> trivial
    | some m =>
      rw [hk] at h1
      cases hne : fs.filterMap (fun f => f k) with
      | nil => rw [hne] at h1; cases h1
      | cons l ls =>
        obtain ⟨g, hg, hgk⟩ := List.mem_filterMap.1 (hne ▸ List.mem_cons_self : l ∈ fs.filterMap fun f => f k)
        obtain ⟨m', hm', hlen⟩ := h2 g hg l hgk
        rw [hk] at hm'; cases hm'
        have := h f (by simp) g (by simp [hg]) k
        rw [hgk] at this
        cases hf : f k with
        | none => trivial
        | some n => rw [hf] at this; exact this.trans hlen.symm

/-- C15, total attributions: an execution is accepted exactly when the sizes agree for every feature. -/
theorem C15_attributions_accepts (absolute : Bool) (data : List Elem) (s : Sched _)
    (p : s.inputs.Perm (data.map Except.ok)) :
    (∃ d, (combiner absolute).run s = .ok d) ↔
      ∀ k, ∀ v ∈ contributions absolute data k, ∀ w ∈ contributions absolute data k, v.length = w.length := by
  constructor
  · rintro ⟨d, hd⟩ k v hv w hw
    rcases C15_attributions_value absolute data s p d hd k with ⟨h, -⟩ | ⟨n, -, h, -⟩
    · rw [h] at hv; cases hv
    · rw [h v hv, h w hw]
  · intro h
    have e := run_eq (hom absolute) p
    rw [flatten_prod] at e
    have : ∃ F, (((data.flatMap fun x => x.scores.map fun e => (e.1, e.2.map (· * x.weight))).map
        (fun e => single e.1 (e.2.map (addend absolute)))).map some).foldr op unit = some F := by
      apply prod_some
      have hmem : ∀ f ∈ ((data.flatMap fun x => x.scores.map fun e => (e.1, e.2.map (· * x.weight))).map
          (fun e => single e.1 (e.2.map (addend absolute)))), ∀ k l, f k = some l →
          l ∈ contributions absolute data k := by
        intro f hf k l hl
        obtain ⟨e, he, rfl⟩ := List.mem_map.1 hf
        obtain ⟨x, hx, he⟩ := List.mem_flatMap.1 he
        obtain ⟨e', he', rfl⟩ := List.mem_map.1 he
        simp only [single] at hl
        split at hl
        · rename_i hk
          rw [contributions, List.mem_flatMap]
          refine ⟨x, hx, List.mem_filterMap.2 ⟨e', he', ?_⟩⟩
          rw [if_pos hk, ← hl, List.map_map]
          rfl
        · cases hl
      intro f hf g hg k
      cases hfk : f k with
      | none => trivial
      | some l =>
        cases hgk : g k with
        | none => trivial
        | some m => exact h k l (hmem f hf k l hfk) m (hmem g hg k m hgk)
    obtain ⟨F, hF⟩ := this
    rw [List.map_map] at hF
    have e' : V ((combiner absolute).run s).toOption = some F := e.trans hF
    cases hr : (combiner absolute).run s with
    | error x => rw [hr] at e'; cases e'
    | ok d => exact ⟨d, rfl⟩

/-- Two bundles, one feature only in the second one. -/
example :
    ((combiner true).run (.merge (.cons (.bundle [.ok ⟨[("a", [1, -2])], 2⟩])
      (.one (.bundle [.ok ⟨[("a", [-3, 4]), ("b", [5])], 1⟩]))))).toOption =
      some [("a", [5, 8]), ("b", [5])] := by
  decide +kernel

/-- Without absolute values, and rejected because of sizes. -/
example :
    ((combiner false).run (.bundle [.ok ⟨[("a", [1, -2])], 2⟩, .ok ⟨[("a", [-3, 4])], 1⟩])).toOption =
      some [("a", [-1, 0])] ∧
    ((combiner false).run (.merge (.cons (.bundle [.ok ⟨[("a", [1, -2])], 2⟩])
      (.one (.bundle [.ok ⟨[("a", [1])], 2⟩]))))).toOption = none := by
  decide +kernel

end Attributions
end TFMA
