import Verif.Model.MultiClass
import Verif.Lemmas.DictCombine
import Mathlib.Algebra.Order.Field.Rat
import Mathlib.Tactic.Linarith
import Mathlib.Algebra.BigOperators.Group.List.Basic

/-!
# C22: multi-class confusion matrices
-/

namespace TFMA
namespace MultiClass

open Beam

/-! ### Specification -/

/-- `c` is the first class with the largest value. -/
def IsTop (l : List ℚ) (c : ℕ) : Prop :=
  ∃ m, l[c]? = some m ∧ ∀ (j : ℕ) (x : ℚ), l[j]? = some x → x ≤ m ∧ (j < c → x < m)

/-- The integer part of a label: the nearest integer towards zero. -/
def IsIntegerPart (x : ℚ) (a : ℤ) : Prop := if 0 ≤ x then (a : ℚ) ≤ x ∧ x < a + 1 else x ≤ a ∧ (a : ℚ) - 1 < x

private theorem truncate_part (x : ℚ) : IsIntegerPart x (truncate x) := by
  unfold IsIntegerPart truncate
  split
  · exact ⟨Int.floor_le x, Int.lt_floor_add_one x⟩
  · push_cast
    have h1 := Int.floor_le (-x)
    have h2 := Int.lt_floor_add_one (-x)
    constructor <;> linarith

private theorem part_unique {x : ℚ} {a b : ℤ} (ha : IsIntegerPart x a) (hb : IsIntegerPart x b) : a = b := by
  unfold IsIntegerPart at ha hb
  have h : ((a : ℚ) < b + 1 ∧ (b : ℚ) < a + 1) := by
    split at ha
    · rw [if_pos (by assumption)] at hb; constructor <;> linarith [ha.1, ha.2, hb.1, hb.2]
    · rw [if_neg (by assumption)] at hb; constructor <;> linarith [ha.1, ha.2, hb.1, hb.2]
  have h1 : a < b + 1 := by exact_mod_cast h.1
  have h2 : b < a + 1 := by exact_mod_cast h.2
  omega

/-- The actual class of an example: the top class of a vector, the integer part of a single label. -/
def IsActual (label : List ℚ) (a : ℤ) : Prop :=
  (∃ x, label = [x] ∧ IsIntegerPart x a) ∨ (2 ≤ label.length ∧ ∃ c : ℕ, IsTop label c ∧ a = c)

/-- The class counted for an example at a threshold: the top class if its value exceeds the threshold, otherwise -1. -/
def IsPredicted (preds : List ℚ) (t : ℚ) (p : ℤ) : Prop :=
  ∃ (c : ℕ) (m : ℚ), IsTop preds c ∧ preds[c]? = some m ∧ p = if m ≤ t then -1 else (c : ℤ)

/-- An example is counted under `(a, p)` at threshold `t`. -/
def Counts (e : Example) (t : ℚ) (k : EntryKey) : Prop :=
  (∃ l, e.label = some l ∧ IsActual l k.1) ∧ IsPredicted e.preds t k.2

/-- The example is accepted. -/
def Accepted (e : Example) : Prop := (∃ l, e.label = some l ∧ l ≠ []) ∧ 2 ≤ e.preds.length

/-! ### argmax -/

private theorem argmaxFrom_spec (pre : List ℚ) (best : ℕ) (m : ℚ) (xs : List ℚ) (hb : pre[best]? = some m)
    (hm : ∀ (j : ℕ) (x : ℚ), pre[j]? = some x → x ≤ m ∧ (j < best → x < m)) :
    IsTop (pre ++ xs) (argmaxFrom best m pre.length xs) := by
  induction xs generalizing pre best m with
  | nil => simp only [argmaxFrom, List.append_nil]; exact ⟨m, hb, hm⟩
  | cons y ys ih =>
    have e : pre ++ y :: ys = (pre ++ [y]) ++ ys := by simp
    have hlen : (pre ++ [y]).length = pre.length + 1 := by simp
    simp only [argmaxFrom]
    rw [e, ← hlen]
    have hbl := (List.getElem?_eq_some_iff.1 hb).1
    split
    · rename_i hlt
      apply ih
      · simp
      · intro j x hj
        by_cases h : j < pre.length
        · rw [List.getElem?_append_left h] at hj
          have := (hm j x hj).1
          exact ⟨by linarith, fun _ => by linarith⟩
        · have hj' : j = pre.length := by
            have := (List.getElem?_eq_some_iff.1 hj).1
            rw [hlen] at this; omega
          subst hj'
          simp at hj; subst hj
          exact ⟨le_refl _, fun h => absurd h (by omega)⟩
    · rename_i hlt
      push Not at hlt
      apply ih
      · rw [List.getElem?_append_left hbl]; exact hb
      · intro j x hj
        by_cases h : j < pre.length
        · rw [List.getElem?_append_left h] at hj; exact hm j x hj
        · have hj' : j = pre.length := by
            have := (List.getElem?_eq_some_iff.1 hj).1
            rw [hlen] at this; omega
          subst hj'
          simp at hj; subst hj
          exact ⟨hlt, fun h => absurd h (by omega)⟩

theorem argmax_top (l : List ℚ) (h : l ≠ []) : IsTop l (argmax l) := by
  cases l with
  | nil => exact absurd rfl h
  | cons x xs =>
    have := argmaxFrom_spec [x] 0 x xs rfl (by
      intro j y hj
      cases j with
      | zero => simp at hj; subst hj; exact ⟨le_refl _, fun h => absurd h (by omega)⟩
      | succ j => simp at hj)
    exact this

theorem top_unique {l : List ℚ} {c d : ℕ} (hc : IsTop l c) (hd : IsTop l d) : c = d := by
  obtain ⟨m, h1, h2⟩ := hc
  obtain ⟨n, g1, g2⟩ := hd
  have a1 := (h2 d n g1)
  have a2 := (g2 c m h1)
  rcases lt_trichotomy c d with h | h | h
  · have := a2.2 h; linarith [a1.1]
  · exact h
  · have := a1.2 h; linarith [a2.1]

/-! ### Keys of one example -/

/-- The keys incremented by the loop. -/
private def keysOf (preds : List ℚ) (actual : ℤ) : ℤ → List ℚ → Option (List (ℚ × EntryKey))
  | _, [] => some []
  | pid, t :: ts => match pyGet preds pid with
    | .error _ => none
    | .ok p => (keysOf preds actual (if p ≤ t then noClass else pid) ts).map
        ((t, (actual, if p ≤ t then noClass else pid)) :: ·)

private def view (a : Acc) : ℚ × EntryKey → Option ℚ := fun k => entry a k.1 k.2

private def Inv (a : Acc) : Prop := Dict.WF a ∧ ∀ t row, Dict.get? a t = some row → Dict.WF row

private theorem bump_inv {a : Acc} (ha : Inv a) (t : ℚ) (k : EntryKey) (w : ℚ) : Inv (bump a t k w) := by
  refine ⟨Dict.WF_set ha.1 _ _, ?_⟩
  intro t' row h
  unfold bump at h
  rw [Dict.get?_set] at h
  split at h
  · cases h
    apply Dict.WF_set
    cases hg : Dict.get? a t with
    | none => simpa using Dict.WF_nil
    | some r => simpa using ha.2 t r hg
  · exact ha.2 t' row h

private theorem bump_view (a : Acc) (t : ℚ) (k : EntryKey) (w : ℚ) :
    view (bump a t k w) = pw (· + ·) (view a) (single (t, k) w) := by
  funext ⟨t', k'⟩
  simp only [view, entry, bump, pw, single, Prod.mk.injEq]
  rw [Dict.get?_set]
  by_cases ht : t = t'
  · subst ht
    simp only [if_true, Option.bind_some, true_and]
    rw [Dict.get?_set]
    cases hg : Dict.get? a t with
    | none =>
      by_cases hk : k = k'
      · simp [hk]
      · simp [hk]
    | some r =>
      by_cases hk : k = k'
      · subst hk
        cases hr : Dict.get? r k <;> simp [hr, optOp]
      · simp [hk]
  · simp [ht]

private def contrib (w : ℚ) (ks : List (ℚ × EntryKey)) : ℚ × EntryKey → Option ℚ :=
  ks.foldr (fun k f => pw (· + ·) (single k w) f) fun _ => none

private theorem loop_view (preds : List ℚ) (actual : ℤ) (w : ℚ) (pid : ℤ) (ts : List ℚ) (a : Acc) (ha : Inv a) :
    (thresholdLoop preds actual w pid ts a).toOption.map view =
      (keysOf preds actual pid ts).map (fun ks => pw (· + ·) (view a) (contrib w ks)) ∧
    ∀ b, thresholdLoop preds actual w pid ts a = .ok b → Inv b := by
  induction ts generalizing pid a with
  | nil =>
    refine ⟨?_, fun b hb => by simp only [thresholdLoop, Except.ok.injEq] at hb; exact hb ▸ ha⟩
    simp only [thresholdLoop, keysOf, Except.toOption, Option.map_some, contrib, List.foldr_nil, Option.some.injEq]
    rw [pw_comm (fun a b => add_comm a b), pw_left]
  | cons t ts ih =>
    simp only [thresholdLoop, keysOf]
    cases hp : pyGet preds pid with
    | error e => exact ⟨rfl, fun b hb => by simp [bind, Except.bind] at hb⟩
    | ok p =>
      simp only [bind, Except.bind]
      obtain ⟨h1, h2⟩ := ih (if p ≤ t then noClass else pid)
        (bump a t (actual, if p ≤ t then noClass else pid) w) (bump_inv ha _ _ _)
      refine ⟨?_, h2⟩
      rw [h1, Option.map_map, bump_view]
      congr 1
      funext ks
      simp only [Function.comp, contrib, List.foldr_cons]
      rw [pw_assoc (fun a b d => add_assoc a b d)]

private theorem mergeRow_get (row m : Dict EntryKey ℚ) (hr : Dict.WF row) (hm : Dict.WF m) :
    Dict.WF (mergeRow row m) ∧
    ∀ k, Dict.get? (mergeRow row m) k = optOp (· + ·) (Dict.get? row k) (Dict.get? m k) := by
  induction m generalizing row with
  | nil => exact ⟨hr, fun k => by simp [mergeRow]⟩
  | cons kv m ih =>
    obtain ⟨k0, v0⟩ := kv
    have hk : k0 ∉ Dict.keys m ∧ Dict.WF m := by simpa [Dict.WF, Dict.keys] using hm
    obtain ⟨h1, h2⟩ := ih _ (Dict.WF_set hr k0 (match Dict.get? row k0 with | some v => v + v0 | none => v0)) hk.2
    refine ⟨h1, ?_⟩
    intro k
    have e : Dict.get? (mergeRow row ((k0, v0) :: m)) k = _ := h2 k
    rw [e, Dict.get?_set, Dict.get?_cons]
    by_cases hkk : k0 = k
    · subst hkk
      rw [(Dict.get?_eq_none_iff m k0).2 hk.1]
      cases Dict.get? row k0 <;> simp [optOp]
    · simp [hkk]

private theorem mergeTwo_ok (r acc : Acc) (hr : Inv r) (ha : Inv acc) :
    Inv (mergeTwo r acc) ∧ view (mergeTwo r acc) = pw (· + ·) (view r) (view acc) := by
  induction acc generalizing r with
  | nil => exact ⟨hr, by funext k; simp [mergeTwo, view, entry, pw]⟩
  | cons tm acc ih =>
    obtain ⟨t0, m0⟩ := tm
    have hk : t0 ∉ Dict.keys acc ∧ Dict.WF acc := by simpa [Dict.WF, Dict.keys] using ha.1
    have hm0 : Dict.WF m0 := ha.2 t0 m0 (by simp [Dict.get?_cons])
    have ha' : Inv acc := ⟨hk.2, fun t row h => ha.2 t row (by
      rw [Dict.get?_cons, if_neg]
      · exact h
      · rintro rfl
        rw [(Dict.get?_eq_none_iff acc t0).2 hk.1] at h; cases h)⟩
    have hrow : Dict.WF ((Dict.get? r t0).getD []) := by
      cases hg : Dict.get? r t0 with
      | none => simpa using Dict.WF_nil
      | some x => simpa using hr.2 t0 x hg
    obtain ⟨g1, g2⟩ := mergeRow_get _ m0 hrow hm0
    have hr' : Inv (Dict.set r t0 (mergeRow ((Dict.get? r t0).getD []) m0)) := by
      refine ⟨Dict.WF_set hr.1 _ _, ?_⟩
      intro t row h
      rw [Dict.get?_set] at h
      split at h
      · cases h; exact g1
      · exact hr.2 t row h
    obtain ⟨h1, h2⟩ := ih _ hr' ha'
    refine ⟨h1, ?_⟩
    have e : view (mergeTwo r ((t0, m0) :: acc)) = _ := h2
    rw [e]
    funext ⟨t, k⟩
    simp only [pw, view, entry]
    rw [Dict.get?_set, Dict.get?_cons]
    by_cases ht : t0 = t
    · subst ht
      rw [(Dict.get?_eq_none_iff acc t0).2 hk.1]
      simp only [if_true, Option.bind_some, Option.bind_none, optOp_none_right]
      rw [g2]
      cases Dict.get? r t0 <;> simp
    · simp [ht]

private def f (ts : List ℚ) (x : Except Err Example) : Option (ℚ × EntryKey → Option ℚ) :=
  x.toOption.bind fun e => (classes e).toOption.bind fun c =>
    (keysOf e.preds c.1 c.2 (if ts = [] then [0] else ts)).map fun ks => contrib e.weight ks

private theorem ohom (ts : List ℚ) :
    OHom (combiner ts) (pw (· + ·)) (fun _ => none) (f ts) view Inv where
  assoc := pw_assoc fun a b d => add_assoc a b d
  comm := pw_comm fun a b => add_comm a b
  left := pw_left
  inv_create := ⟨Dict.WF_nil, fun t row h => by simp [combiner] at h⟩
  inv_add a x b ha h := by
    cases x with
    | error e => simp [combiner, Except.bind] at h
    | ok x =>
      simp only [combiner, Except.bind, addExample, bind] at h
      cases hc : classes x with
      | error e => rw [hc] at h; cases h
      | ok c => rw [hc] at h; exact (loop_view _ _ _ _ _ a ha).2 b h
  create := by funext k; rfl
  add a x ha := by
    cases x with
    | error e => rfl
    | ok x =>
      simp only [combiner, Except.bind, addExample, bind, f, Except.toOption, Option.bind_some]
      cases hc : classes x with
      | error e => rfl
      | ok c =>
        simp only [Option.bind_some, Option.map_map]
        exact (loop_view _ _ _ _ _ a ha).1
  merge a as h := by
    refine ⟨as.foldl mergeTwo a, rfl, ?_⟩
    induction as generalizing a with
    | nil => exact ⟨h a (by simp), rfl⟩
    | cons b as ih =>
      obtain ⟨h1, h2⟩ := mergeTwo_ok a b (h a (by simp)) (h b (by simp))
      obtain ⟨g1, g2⟩ := ih (mergeTwo a b) (by
        intro y hy
        rcases List.mem_cons.1 hy with rfl | hy
        · exact h1
        · exact h y (by simp [hy]))
      refine ⟨g1, ?_⟩
      rw [List.foldl_cons, g2, h2, List.map_cons, List.foldl_cons]

/-! ### Which examples are accepted and what they contribute -/

private theorem pyGet_nat (l : List ℚ) (c : ℕ) (m : ℚ) (h : l[c]? = some m) : pyGet l (c : ℤ) = .ok m := by
  have h0 : ¬ ((c : ℤ) < 0) := by omega
  simp [pyGet, h0, h]

private theorem pyGet_last (l : List ℚ) (h : l ≠ []) : ∃ (j : ℕ) (x : ℚ), l[j]? = some x ∧ pyGet l noClass = .ok x := by
  have hl : 0 < l.length := List.length_pos_iff.2 h
  refine ⟨l.length - 1, l[l.length - 1], List.getElem?_eq_getElem (by omega), ?_⟩
  have h1 : ((-1 : ℤ) + l.length).toNat = l.length - 1 := by omega
  have h2 : ¬ ((-1 : ℤ) + l.length < 0) := by omega
  have h3 : (if noClass < 0 then noClass + (l.length : ℤ) else noClass) = -1 + l.length := rfl
  simp only [pyGet, h3]
  rw [if_neg h2, h1, List.getElem?_eq_getElem (by omega)]

private theorem keysOf_some (preds : List ℚ) (hp : preds ≠ []) (a : ℤ) (pid : ℤ)
    (h : pid = noClass ∨ ∃ (c : ℕ) (m : ℚ), pid = c ∧ preds[c]? = some m) (ts : List ℚ) :
    (keysOf preds a pid ts).isSome := by
  induction ts generalizing pid with
  | nil => rfl
  | cons t ts ih =>
    have : ∃ x, pyGet preds pid = .ok x := by
      rcases h with rfl | ⟨c, m, rfl, hc⟩
      · obtain ⟨_, x, _, hx⟩ := pyGet_last preds hp; exact ⟨x, hx⟩
      · exact ⟨m, pyGet_nat _ _ _ hc⟩
    obtain ⟨x, hx⟩ := this
    simp only [keysOf, hx, Option.isSome_map]
    apply ih
    split
    · exact .inl rfl
    · exact h

private theorem classes_ok (e : Example) :
    (Accepted e → ∃ a : ℤ, ∃ l, e.label = some l ∧ IsActual l a ∧ classes e = .ok (a, (argmax e.preds : ℤ))) ∧
    (¬ Accepted e → ∃ er, classes e = .error er) := by
  unfold Accepted classes
  cases hl : e.label with
  | none => simp
  | some l =>
    by_cases hp : e.preds.length ≤ 1
    · simp [hp]; intro h; omega
    · have hp' : 2 ≤ e.preds.length := by omega
      simp only [hp, if_false]
      match l, hl with
      | [], _ => simp
      | [x], _ => simp [hp', IsActual, truncate_part]
      | x :: y :: l, _ =>
        simp only [hp', IsActual]
        refine ⟨fun _ => ⟨_, _, rfl, .inr ⟨by simp, _, argmax_top _ (by simp), rfl⟩, rfl⟩, ?_⟩
        intro h
        exact absurd ⟨⟨_, rfl, by simp⟩, trivial⟩ h

private theorem keysOf_ascending (preds : List ℚ) (hp : preds ≠ []) (a : ℤ) (c : ℕ) (m : ℚ) (hc : preds[c]? = some m)
    (hm : ∀ (j : ℕ) (x : ℚ), preds[j]? = some x → x ≤ m) (pid : ℤ) (ts : List ℚ) (hs : ts.Pairwise (· < ·))
    (h : pid = c ∨ (pid = noClass ∧ ∀ t ∈ ts, m ≤ t)) :
    keysOf preds a pid ts = some (ts.map fun t => (t, (a, if m ≤ t then -1 else (c : ℤ)))) := by
  induction ts generalizing pid with
  | nil => rfl
  | cons t ts ih =>
    rw [List.pairwise_cons] at hs
    rcases h with rfl | ⟨rfl, hall⟩
    · simp only [keysOf, pyGet_nat _ _ _ hc, List.map_cons]
      rw [ih _ hs.2 (by
        by_cases hmt : m ≤ t
        · right; rw [if_pos hmt]; exact ⟨rfl, fun t' ht' => le_trans hmt (hs.1 t' ht').le⟩
        · left; rw [if_neg hmt])]
      rfl
    · obtain ⟨j, x, hj, hx⟩ := pyGet_last preds hp
      have hmt : m ≤ t := hall t (by simp)
      have hxt : x ≤ t := le_trans (hm j x hj) hmt
      simp only [keysOf, hx, List.map_cons, if_pos hxt, if_pos hmt]
      rw [ih _ hs.2 (.inr ⟨rfl, fun t' ht' => hall t' (by simp [ht'])⟩)]
      rfl

private theorem contrib_map (w : ℚ) (g : ℚ → EntryKey) (ts : List ℚ) (hs : ts.Nodup) (t : ℚ) (k : EntryKey) :
    contrib w (ts.map fun t => (t, g t)) (t, k) = if t ∈ ts ∧ g t = k then some w else none := by
  induction ts with
  | nil => simp [contrib]
  | cons u ts ih =>
    rw [List.nodup_cons] at hs
    have : contrib w ((u :: ts).map fun t => (t, g t)) (t, k) =
        optOp (· + ·) (single (u, g u) w (t, k)) (contrib w (ts.map fun t => (t, g t)) (t, k)) := rfl
    rw [this, ih hs.2]
    by_cases hu : u = t
    · subst hu
      by_cases hg : g u = k
      · simp [single, hg, hs.1]
      · simp [single, hg, hs.1]
    · have hu' : ¬ t = u := fun h => hu h.symm
      simp [single, hu, hu']

private theorem total_map {ε' : Type} {M : Type} (op : M → M → M) (e : M) {ε : Type} (f : ε → Option M) (g : ε' → ε)
    (xs : List ε') : total op e f (xs.map g) = total op e (f ∘ g) xs := by
  induction xs with
  | nil => rfl
  | cons x xs ih => rw [List.map_cons, total_cons, total_cons, ih]; rfl

private theorem total_congr {ε : Type} {M : Type} (op : M → M → M) (e : M) (f g : ε → Option M) (xs : List ε)
    (h : ∀ x ∈ xs, f x = g x) : total op e f xs = total op e g xs := by
  induction xs with
  | nil => rfl
  | cons x xs ih => rw [total_cons, total_cons, h x (by simp), ih fun y hy => h y (by simp [hy])]

private theorem total_isSome {ε : Type} {M : Type} (op : M → M → M) (e : M) (f : ε → Option M) (xs : List ε) :
    (total op e f xs).isSome ↔ ∀ x ∈ xs, (f x).isSome := by
  induction xs with
  | nil => simp [total, prod]
  | cons x xs ih =>
    rw [total_cons, List.forall_mem_cons, ← ih]
    cases f x <;> cases total op e f xs <;> simp [liftOp]

private theorem f_isSome (ts : List ℚ) (x : Except Err Example) : (f ts x).isSome ↔ ∃ e, x = .ok e ∧ Accepted e := by
  cases x with
  | error er => simp [f, Except.toOption]
  | ok e =>
    obtain ⟨h1, h2⟩ := classes_ok e
    constructor
    · intro h
      refine ⟨e, rfl, ?_⟩
      by_contra hna
      obtain ⟨er, her⟩ := h2 hna
      simp [f, Except.toOption, her] at h
    · rintro ⟨e', he, ha⟩
      cases he
      obtain ⟨a, l, _, _, hc⟩ := h1 ha
      have hp : e.preds ≠ [] := by
        have := ha.2
        intro h0; rw [h0] at this; simp at this
      obtain ⟨m, hm, _⟩ := argmax_top e.preds hp
      simp only [f, Except.toOption, Option.bind_some, hc, Option.isSome_map]
      exact keysOf_some _ hp _ _ (.inr ⟨_, m, rfl, hm⟩) _

/-! ### Theorems -/

/-- The thresholds in effect. -/
def effective (ts : List ℚ) : List ℚ := if ts = [] then [0] else ts

/-- C15 for multi-class confusion matrices, for every list of thresholds: every entry is the same however the examples are
bundled and merged. -/
theorem C15_multi_class (ts : List ℚ) (data : List (Except Err Example)) (s : Sched _) (p : s.inputs.Perm data) :
    ((combiner ts).run s).toOption.map (fun a => fun (k : ℚ × EntryKey) => entry a k.1 k.2) =
      ((combiner ts).run (.bundle data)).toOption.map fun a => fun (k : ℚ × EntryKey) => entry a k.1 k.2 :=
  (orun_eq (ohom ts) p).trans (orun_bundle (ohom ts) data).symm

/-- C22: accumulation succeeds exactly when every example has a label and at least two predictions. -/
theorem C22_accepts (ts : List ℚ) (data : List (Except Err Example)) (s : Sched _) (p : s.inputs.Perm data) :
    (∃ acc, (combiner ts).run s = .ok acc) ↔ ∀ x ∈ data, ∃ e, x = .ok e ∧ Accepted e := by
  have h := orun_eq (ohom ts) p
  have h2 := total_isSome (pw (· + ·)) (fun _ => none) (f ts) data
  rw [← h] at h2
  simp only [f_isSome] at h2
  rw [← h2]
  cases (combiner ts).run s <;> simp [Except.toOption]

open Classical in
/-- C22 for strictly ascending thresholds: the entry of a threshold and a pair of classes is the total weight of the
examples counted there, present exactly when there is such an example.  Missing from the full claim: other orders of the
thresholds, for which it is false (`C22_descending_wrong`). -/
theorem C22_entries_partial (ts : List ℚ) (hs : ts.Pairwise (· < ·)) (data : List Example)
    (hacc : ∀ e ∈ data, Accepted e) (s : Sched (Except Err Example)) (p : s.inputs.Perm (data.map .ok)) :
    ∃ acc, (combiner ts).run s = .ok acc ∧ ∀ t k, entry acc t k =
      if t ∈ effective ts ∧ ∃ e ∈ data, Counts e t k then
        some (((data.filter fun e => decide (Counts e t k)).map Example.weight).sum) else none := by
  have hs' : (effective ts).Pairwise (· < ·) := by
    unfold effective; split
    · simp
    · exact hs
  have hnd : (effective ts).Nodup := hs'.imp fun h => ne_of_lt h
  have hrun := orun_eq (ohom ts) p
  rw [total_map] at hrun
  let g : Example → ℚ × EntryKey → Option ℚ := fun e k =>
    if k.1 ∈ effective ts ∧ Counts e k.1 k.2 then some e.weight else none
  have hg : ∀ e ∈ data, (f ts ∘ .ok) e = some (g e) := by
    intro e he
    obtain ⟨a, l, hl, hact, hc⟩ := (classes_ok e).1 (hacc e he)
    have hp : e.preds ≠ [] := by
      have := (hacc e he).2
      intro h0; rw [h0] at this; simp at this
    have htop := argmax_top e.preds hp
    obtain ⟨m, hm1, hm2⟩ := argmax_top e.preds hp
    have hk := keysOf_ascending e.preds hp a (argmax e.preds) m hm1 (fun j x hj => (hm2 j x hj).1) _ _ hs' (.inl rfl)
    simp only [Function.comp, f, Except.toOption, Option.bind_some, hc]
    show Option.map _ (keysOf e.preds a _ (effective ts)) = _
    rw [hk]
    simp only [Option.map_some, Option.some.injEq]
    funext ⟨t, k⟩
    rw [contrib_map _ _ _ hnd]
    have hiff : ((a, if m ≤ t then -1 else ((argmax e.preds : ℕ) : ℤ)) = k) ↔ Counts e t k := by
      constructor
      · rintro rfl
        exact ⟨⟨l, hl, hact⟩, _, m, htop, hm1, rfl⟩
      · rintro ⟨⟨l', hl', hact'⟩, c, m', htop', hm', hk'⟩
        rw [hl] at hl'; cases hl'
        have hcc := top_unique htop htop'
        subst hcc
        rw [hm1] at hm'; cases hm'
        have ha : a = k.1 := by
          rcases hact with ⟨x, h1, h2⟩ | ⟨h1, c1, h2, h3⟩
          · rcases hact' with ⟨y, g1, g2⟩ | ⟨g1, _⟩
            · rw [h1] at g1; cases g1; exact part_unique h2 g2
            · rw [h1] at g1; simp at g1
          · rcases hact' with ⟨y, g1, _⟩ | ⟨_, c2, g2, g3⟩
            · rw [g1] at h1; simp at h1
            · rw [h3, g3, top_unique h2 g2]
        exact Prod.ext ha hk'.symm
    simp only [g, hiff]
  rw [total_congr _ _ _ _ _ hg, total_fun] at hrun
  cases hr : (combiner ts).run s with
  | error er => rw [hr] at hrun; cases hrun
  | ok acc =>
    refine ⟨acc, rfl, ?_⟩
    rw [hr] at hrun
    simp only [Except.toOption, Option.map_some, Option.some.injEq] at hrun
    intro t k
    have := congrFun hrun (t, k)
    simp only [view] at this
    rw [this, optFold_eq (e := 0) (fun a => add_zero a)]
    by_cases ht : t ∈ effective ts
    · have e1 : data.filterMap (fun e => g e (t, k)) =
          (data.filter fun e => decide (Counts e t k)).map Example.weight := by
        simp only [g, ht, true_and]
        clear hrun this hg hacc p
        induction data with
        | nil => rfl
        | cons e data ih =>
          rw [List.filterMap_cons, List.filter_cons]
          by_cases h : Counts e t k
          · simp [h, ih]
          · simp [h, ih]
      rw [e1]
      by_cases hex : ∃ e ∈ data, Counts e t k
      · have hne : (data.filter fun e => decide (Counts e t k)).map Example.weight ≠ [] := by
          obtain ⟨e, he, hc⟩ := hex
          intro h0
          rw [List.map_eq_nil_iff, List.filter_eq_nil_iff] at h0
          exact h0 e he (by simpa using hc)
        rw [if_neg hne, if_pos ⟨ht, hex⟩]
        rfl
      · have hne : (data.filter fun e => decide (Counts e t k)).map Example.weight = [] := by
          rw [List.map_eq_nil_iff, List.filter_eq_nil_iff]
          intro e he h
          exact hex ⟨e, he, by simpa using h⟩
        rw [if_pos hne, if_neg fun h => hex h.2]
    · have e1 : data.filterMap (fun e => g e (t, k)) = [] := by
        rw [List.filterMap_eq_nil_iff]
        intro e _
        simp [g, ht]
      rw [e1, if_pos rfl, if_neg fun h => ht h.1]

/-- Non-vacuous: two examples, thresholds 0.1 and 0.5. -/
example : ((combiner [1 / 10, 1 / 2]).run (.bundle [.ok ⟨some [1], [1 / 5, 4 / 5], 2⟩, .ok ⟨some [0, 1], [3 / 10, 1 / 5], 1⟩])).toOption =
    some [(1 / 10, [((1, 1), 2), ((1, 0), 1)]), (1 / 2, [((1, 1), 2), ((1, -1), 1)])] := by decide +kernel

/-- C22 is false for descending thresholds: with thresholds [0.5, 0.1] the top prediction 0.3 exceeds 0.1, but the example
is counted under 'no prediction' at 0.1, because the class was overwritten at 0.5. -/
theorem C22_descending_wrong :
    ((combiner [1 / 2, 1 / 10]).run (.bundle [.ok ⟨some [0], [1 / 5, 3 / 10], 1⟩])).toOption =
      some [(1 / 2, [((0, -1), 1)]), (1 / 10, [((0, -1), 1)])] ∧
    ((combiner [1 / 10, 1 / 2]).run (.bundle [.ok ⟨some [0], [1 / 5, 3 / 10], 1⟩])).toOption =
      some [(1 / 10, [((0, 1), 1)]), (1 / 2, [((0, -1), 1)])] ∧
    ¬ Counts ⟨some [0], [1 / 5, 3 / 10], 1⟩ (1 / 10) (0, -1) := by
  refine ⟨by decide +kernel, by decide +kernel, ?_⟩
  rintro ⟨_, c, m, htop, hm, h⟩
  have h1 : IsTop [1 / 5, 3 / 10] 1 := by
    have := argmax_top [1 / 5, 3 / 10] (by simp)
    rwa [show argmax [1 / 5, 3 / 10] = 1 by decide +kernel] at this
  have := top_unique htop h1
  subst this
  simp at hm
  subst hm
  norm_num at h

/-- Each accepted example is counted under exactly one pair of classes at every threshold. -/
theorem C22_counted_once (e : Example) (h : Accepted e) (t : ℚ) : ∃! k, Counts e t k := by
  obtain ⟨a, l, hl, hact, hc⟩ := (classes_ok e).1 h
  have hp : e.preds ≠ [] := by
    have := h.2
    intro h0; rw [h0] at this; simp at this
  have htop := argmax_top e.preds hp
  obtain ⟨m, hm1, hm2⟩ := argmax_top e.preds hp
  refine ⟨(a, if m ≤ t then -1 else ((argmax e.preds : ℕ) : ℤ)), ⟨⟨l, hl, hact⟩, _, m, htop, hm1, rfl⟩, ?_⟩
  rintro k ⟨⟨l', hl', hact'⟩, c, m', htop', hm', hk'⟩
  rw [hl] at hl'; cases hl'
  have hcc := top_unique htop htop'
  subst hcc
  rw [hm1] at hm'; cases hm'
  refine Prod.ext ?_ hk'
  rcases hact with ⟨x, h1, h2⟩ | ⟨h1, c1, h2, h3⟩
  · rcases hact' with ⟨y, g1, g2⟩ | ⟨g1, _⟩
    · rw [h1] at g1; cases g1; exact (part_unique g2 h2)
    · rw [h1] at g1; simp at g1
  · rcases hact' with ⟨y, g1, _⟩ | ⟨_, c2, g2, g3⟩
    · rw [g1] at h1; simp at h1
    · rw [h3, g3, top_unique h2 g2]

/-- Non-vacuous. -/
example : Accepted ⟨some [0], [1 / 5, 3 / 10], 1⟩ := ⟨⟨[0], rfl, by simp⟩, by simp⟩

end MultiClass
end TFMA
