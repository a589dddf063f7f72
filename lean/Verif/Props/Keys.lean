import Verif.Model.Keys
import Verif.Py.DictLemmas
import Mathlib.Data.List.Nodup
import Mathlib.Tactic.Common
import Mathlib.Data.Fintype.Card
import Mathlib.Data.Finset.Card

/-!
# C10, C11, C12: key helpers
-/

namespace TFMA
namespace Keys

/-! ## C11: unique_key -/

/-- The candidate names tried, in order: `key`, `key_1`, `key_2`, ... -/
def candidate (key : String) : ℕ → String
  | 0 => key
  | n + 1 => key ++ "_" ++ Nat.repr (n + 1)

theorem repr_inj {m n : ℕ} (h : Nat.repr m = Nat.repr n) : m = n := by
  have h1 : (Nat.repr m).toList = (Nat.repr n).toList := by rw [h]
  rw [Nat.toList_repr, Nat.toList_repr] at h1
  rw [← Nat.ofDigitChars_ten_toDigits (n := m), h1, Nat.ofDigitChars_ten_toDigits]

theorem candidate_inj (key : String) {m n : ℕ} (h : candidate key m = candidate key n) : m = n := by
  have hl : (candidate key m).toList = (candidate key n).toList := by rw [h]
  cases m with
  | zero =>
    cases n with
    | zero => rfl
    | succ n =>
      simp only [candidate, String.toList_append] at hl
      have := congrArg List.length hl
      simp at this
  | succ m =>
    cases n with
    | zero =>
      simp only [candidate, String.toList_append] at hl
      have := congrArg List.length hl
      simp at this
    | succ n =>
      simp only [candidate, String.toList_append, List.append_assoc, List.append_cancel_left_eq] at hl
      exact repr_inj (String.toList_inj.mp hl)

/-- the loop state with index `i + 1` holds the candidate number `i`. -/
theorem uniqueLoop_spec (key : String) (cur : List String) (fuel i : ℕ) (r : String) :
    uniqueLoop key cur fuel (candidate key i) (i + 1) = some r ↔
      ∃ j, i ≤ j ∧ j ≤ i + fuel ∧ r = candidate key j ∧ r ∉ cur ∧
        ∀ l, i ≤ l → l < j → candidate key l ∈ cur := by
  induction fuel generalizing i with
  | zero =>
    unfold uniqueLoop
    by_cases h : candidate key i ∈ cur
    · rw [if_pos h]
      constructor
      · intro h'; cases h'
      · rintro ⟨j, h1, h2, h3, h4, _⟩
        have : j = i := by omega
        subst this; subst h3; exact absurd h h4
    · rw [if_neg h]
      constructor
      · intro h'; cases h'
        exact ⟨i, le_refl _, by omega, rfl, h, fun l _ _ => by omega⟩
      · rintro ⟨j, h1, h2, h3, _⟩
        have : j = i := by omega
        subst this; rw [h3]
  | succ fuel ih =>
    unfold uniqueLoop
    by_cases h : candidate key i ∈ cur
    · rw [if_pos h]
      have := ih (i + 1)
      have e : key ++ "_" ++ Nat.repr (i + 1) = candidate key (i + 1) := rfl
      rw [e, this]
      constructor
      · rintro ⟨j, h1, h2, h3, h4, h5⟩
        refine ⟨j, by omega, by omega, h3, h4, fun l hl1 hl2 => ?_⟩
        by_cases hli : l = i
        · subst hli; exact h
        · exact h5 l (by omega) hl2
      · rintro ⟨j, h1, h2, h3, h4, h5⟩
        have hji : j ≠ i := by rintro rfl; subst h3; exact h4 h
        exact ⟨j, by omega, by omega, h3, h4, fun l hl1 hl2 => h5 l (by omega) hl2⟩
    · rw [if_neg h]
      constructor
      · intro h'; cases h'
        exact ⟨i, le_refl _, by omega, rfl, h, fun l _ _ => by omega⟩
      · rintro ⟨j, h1, h2, h3, h4, h5⟩
        by_cases hji : j = i
        · subst hji; rw [h3]
        · exact absurd (h5 i (le_refl _) (by omega)) h

/-- among the first `length + 1` candidates one is free. -/
theorem exists_free (key : String) (cur : List String) : ∃ j ≤ cur.length, candidate key j ∉ cur := by
  by_contra hcon
  push Not at hcon
  let f : Fin (cur.length + 1) → {x // x ∈ cur.toFinset} := fun j =>
    ⟨candidate key j, by simpa using hcon j (by omega)⟩
  have hf : Function.Injective f := by
    intro a b hab
    have : candidate key a = candidate key b := congrArg Subtype.val hab
    exact Fin.ext (candidate_inj key this)
  have h1 := Fintype.card_le_of_injective f hf
  have h2 : cur.toFinset.card ≤ cur.length := List.toFinset_card_le cur
  rw [Fintype.card_fin, Fintype.card_coe] at h1
  omega

/-- **C11** (termination): the loop stops after at most `len(current_keys)` iterations. -/
theorem C11_terminates (key : String) (cur : List String) (upd : Bool) (fuel : ℕ)
    (hf : cur.length ≤ fuel) : ∃ r, uniqueKey fuel key cur upd = some r := by
  obtain ⟨j0, hj0, hfree⟩ := exists_free key cur
  have hex : ∃ j, candidate key j ∉ cur := ⟨j0, hfree⟩
  classical
  have hmin : ∀ l < Nat.find hex, candidate key l ∈ cur := fun l hl => by
    simpa using Nat.find_min hex hl
  have hle : Nat.find hex ≤ j0 := Nat.find_min' hex hfree
  have : uniqueLoop key cur fuel key 1 = some (candidate key (Nat.find hex)) :=
    (uniqueLoop_spec key cur fuel 0 _).mpr
      ⟨Nat.find hex, by omega, by omega, rfl, Nat.find_spec hex, fun l _ hl => hmin l hl⟩
  unfold uniqueKey
  rw [this]
  exact ⟨_, rfl⟩

/-- **C11** (result): whatever bound is put on the loop, a returned name is the first of `key`, `key_1`,
`key_2`, ... that is not in use; the list of current names is extended by exactly that name iff requested. -/
theorem C11_result (key : String) (cur : List String) (upd : Bool) (fuel : ℕ) (k : String)
    (cur' : List String) (h : uniqueKey fuel key cur upd = some (k, cur')) :
    k ∉ cur ∧ (∃ j, k = candidate key j ∧ ∀ l < j, candidate key l ∈ cur) ∧
      cur' = (if upd then cur ++ [k] else cur) := by
  unfold uniqueKey at h
  split at h
  · cases h
  · rename_i k1 hk1
    cases h
    obtain ⟨j, _, _, h3, h4, h5⟩ := (uniqueLoop_spec key cur fuel 0 _).mp hk1
    exact ⟨h4, ⟨j, h3, fun l hl => h5 l (by omega) hl⟩, rfl⟩

/-- **C11** (no collision): a name that is not in use is returned unchanged. -/
theorem C11_no_collision (key : String) (cur : List String) (upd : Bool) (fuel : ℕ) (h : key ∉ cur) :
    uniqueKey fuel key cur upd = some (key, if upd then cur ++ [key] else cur) := by
  unfold uniqueKey
  have : uniqueLoop key cur fuel key 1 = some key := by
    cases fuel <;> simp [uniqueLoop, h]
  rw [this]

/-- **C11** (repeated use with update): naming any sequence of things one after the other gives pairwise
different names. -/
theorem C11_sequence_distinct (keys : List String) (cur : List String) (hcur : cur.Nodup) :
    ∃ out, keys.foldlM (m := Option) (fun cur key =>
        (uniqueKey cur.length key cur true).map Prod.snd) cur = some out ∧
      out.Nodup ∧ out.length = cur.length + keys.length ∧ cur <+: out := by
  induction keys generalizing cur with
  | nil => exact ⟨cur, rfl, hcur, by simp, List.prefix_rfl⟩
  | cons key keys ih =>
    obtain ⟨⟨k, cur'⟩, hr⟩ := C11_terminates key cur true cur.length (le_refl _)
    obtain ⟨h1, _, h3⟩ := C11_result key cur true cur.length k cur' hr
    simp only [if_true] at h3
    subst h3
    have hnd : (cur ++ [k]).Nodup := by
      rw [List.nodup_append]
      refine ⟨hcur, by simp, ?_⟩
      intro a ha b hb
      simp only [List.mem_singleton] at hb
      subst hb
      rintro rfl; exact h1 ha
    obtain ⟨out, e1, e2, e3, e4⟩ := ih (cur ++ [k]) hnd
    refine ⟨out, ?_, e2, ?_, ?_⟩
    · simp only [List.foldlM_cons, hr, Option.map_some]
      exact e1
    · rw [e3]; simp; omega
    · exact List.IsPrefix.trans (List.prefix_append _ _) e4

example : uniqueKey 3 "auc" ["auc", "loss", "auc_1"] true =
    some ("auc_2", ["auc", "loss", "auc_1", "auc_2"]) := by decide +kernel

/-! ## C12: compound_key -/

/-- **C12 is false**: names with underscores at their ends, empty names, and the empty list collide. -/
theorem C12_collisions :
    compoundKey ["a_".toList, "b".toList] = compoundKey ["a".toList, "_b".toList] ∧
    compoundKey ["a".toList, "".toList, "b".toList] = compoundKey ["a__b".toList] ∧
    compoundKey [] = compoundKey ["".toList] := by
  decide +kernel

/-- what may follow an escaped name: nothing, or a separator and a character other than '_'. -/
def Tail (l : List Char) : Prop := l = [] ∨ ∃ c r, c ≠ '_' ∧ l = '_' :: '_' :: c :: r

theorem escape_us_single (r : List Char) (h : ∀ r', r ≠ '_' :: r') : escape ('_' :: r) = '_' :: escape r := by
  cases r with
  | nil => rfl
  | cons c r =>
    have hc : c ≠ '_' := fun e => h r (by rw [e])
    rw [escape]
    intro r' _ h'
    exact h r' h'

theorem escape_ne (c : Char) (r : List Char) (h : c ≠ '_') : escape (c :: r) = c :: escape r := by
  rw [escape]
  intro r' h' _
  exact h h'

/-- first characters: an escaped name that does not start with '_' followed by a tail. -/
theorem escape_head_ne {r t : List Char} (hr : ∀ r', r ≠ '_' :: r') (ht : Tail t) (x : List Char) :
    escape r ++ t ≠ '_' :: '_' :: '_' :: x := by
  cases r with
  | nil =>
    simp only [escape, List.nil_append]
    rcases ht with rfl | ⟨c, r, hc, rfl⟩
    · simp
    · intro h; simp at h; exact hc h.1
  | cons c r =>
    have hc : c ≠ '_' := fun e => hr r (by rw [e])
    rw [escape_ne c r hc]
    intro h; simp at h; exact hc h.1

theorem tail_eq_escape {t s : List Char} (a : List Char) (ht : Tail t) (hs : Tail s)
    (h : t = escape a ++ s) : a = [] := by
  match a, h with
  | [], _ => rfl
  | '_' :: '_' :: r, h =>
    exfalso
    simp only [escape, List.cons_append] at h
    rcases ht with rfl | ⟨c, r', hc, rfl⟩
    · cases h
    · simp at h; exact hc h.1
  | [c], h =>
    exfalso
    by_cases hc : c = '_'
    · subst hc
      have e : escape ['_'] = ['_'] := rfl
      rw [e] at h
      rcases hs with rfl | ⟨c', r', hc', rfl⟩
      · rcases ht with rfl | ⟨c, r', hc, rfl⟩ <;> simp at h
      · rcases ht with rfl | ⟨c, r'', hc, rfl⟩
        · simp at h
        · simp at h; exact hc h.1
    · rw [escape_ne c [] hc] at h
      rcases ht with rfl | ⟨c', r', hc', rfl⟩
      · cases h
      · simp at h; exact hc h.1.symm
  | c :: d :: r, h =>
    exfalso
    by_cases hc : c = '_'
    · subst hc
      by_cases hd : d = '_'
      · subst hd
        simp only [escape, List.cons_append] at h
        rcases ht with rfl | ⟨c, r', hc, rfl⟩
        · cases h
        · simp at h; exact hc h.1
      · rw [escape_us_single _ (by rintro r' e; cases e; exact hd rfl), escape_ne d r hd] at h
        rcases ht with rfl | ⟨c, r', hc, rfl⟩
        · cases h
        · simp at h; exact hd h.1.symm
    · rw [escape_ne c _ hc] at h
      rcases ht with rfl | ⟨c', r', hc', rfl⟩
      · cases h
      · simp at h; exact hc h.1.symm

/-- escaped names are uniquely decodable in front of tails. -/
theorem escape_append_inj (a b s t : List Char) (hs : Tail s) (ht : Tail t)
    (h : escape a ++ s = escape b ++ t) : a = b ∧ s = t := by
  induction a using escape.induct generalizing b with
  | case1 r ih =>
    match b with
    | [] =>
      have := tail_eq_escape ('_' :: '_' :: r) ht hs (by simpa [escape] using h.symm)
      cases this
    | '_' :: '_' :: r' =>
      simp only [escape, List.cons_append, List.cons.injEq, true_and] at h
      obtain ⟨rfl, e⟩ := ih r' h
      exact ⟨rfl, e⟩
    | c :: r' =>
      by_cases hc : c = '_'
      · subst hc
        by_cases hr' : ∃ r'', r' = '_' :: r''
        · obtain ⟨r'', rfl⟩ := hr'
          simp only [escape, List.cons_append, List.cons.injEq, true_and] at h
          obtain ⟨rfl, e⟩ := ih r'' h
          exact ⟨rfl, e⟩
        · push Not at hr'
          rw [escape_us_single r' hr'] at h
          simp only [escape, List.cons_append, List.cons.injEq, true_and] at h
          exact absurd h.symm (escape_head_ne hr' ht _)
      · rw [escape_ne c r' hc] at h
        simp only [escape, List.cons_append, List.cons.injEq] at h
        exact absurd h.1.symm hc
  | case2 c r hnot ih =>
    match b with
    | [] =>
      have := tail_eq_escape (c :: r) ht hs (by simpa [escape] using h.symm)
      cases this
    | d :: r' =>
      by_cases hc : c = '_'
      · subst hc
        have hr : ∀ r'', r ≠ '_' :: r'' := fun r'' e => hnot r'' rfl e
        rw [escape_us_single r hr] at h
        by_cases hd : d = '_'
        · subst hd
          by_cases hr' : ∃ r'', r' = '_' :: r''
          · obtain ⟨r'', rfl⟩ := hr'
            simp only [escape, List.cons_append, List.cons.injEq, true_and] at h
            exact absurd h (escape_head_ne hr hs _)
          · push Not at hr'
            rw [escape_us_single r' hr'] at h
            simp only [List.cons_append, List.cons.injEq, true_and] at h
            obtain ⟨rfl, e⟩ := ih r' h
            exact ⟨rfl, e⟩
        · rw [escape_ne d r' hd] at h
          simp only [List.cons_append, List.cons.injEq] at h
          exact absurd h.1.symm hd
      · rw [escape_ne c r hc] at h
        by_cases hd : d = '_'
        · subst hd
          exfalso
          by_cases hr' : ∃ r'', r' = '_' :: r''
          · obtain ⟨r'', rfl⟩ := hr'
            simp only [escape, List.cons_append, List.cons.injEq] at h
            exact hc h.1
          · push Not at hr'
            rw [escape_us_single r' hr'] at h
            simp only [List.cons_append, List.cons.injEq] at h
            exact hc h.1
        · rw [escape_ne d r' hd] at h
          simp only [List.cons_append, List.cons.injEq] at h
          obtain ⟨rfl, h2⟩ := h
          obtain ⟨rfl, e⟩ := ih r' h2
          exact ⟨rfl, e⟩
  | case3 =>
    have h' : s = escape b ++ t := by simpa [escape] using h
    have := tail_eq_escape b hs ht h'
    subst this
    exact ⟨rfl, by simpa [escape] using h'⟩

/-- A name that may follow a separator: not empty and not starting with '_'. -/
def Clean (n : List Char) : Prop := ∃ c r, c ≠ '_' ∧ n = c :: r

theorem joinSep_tail (l : List (List Char)) (hl : ∀ n ∈ l, Clean n) :
    ∃ t, Tail t ∧ ∀ a, joinSep (escape a :: l.map escape) = escape a ++ t := by
  cases l with
  | nil => exact ⟨[], Or.inl rfl, fun a => by simp [joinSep]⟩
  | cons b l =>
    obtain ⟨c, r, hc, rfl⟩ := hl b (by simp)
    refine ⟨'_' :: '_' :: joinSep ((c :: r) :: l |>.map escape), Or.inr ?_, fun a => by
      simp [joinSep]⟩
    rw [List.map_cons, escape_ne c r hc]
    cases l with
    | nil => exact ⟨c, escape r, hc, rfl⟩
    | cons d l => exact ⟨c, _, hc, by simp [joinSep]; rfl⟩

/-- **C12** for lists of names whose second and later names are not empty and do not start with an underscore
(the first name and the other characters, including runs of underscores, are arbitrary).  `_partial`: the
general statement is false, see `C12_collisions`. -/
theorem C12_injective_partial (a b : List Char) (l m : List (List Char)) (hl : ∀ n ∈ l, Clean n)
    (hm : ∀ n ∈ m, Clean n) (h : compoundKey (a :: l) = compoundKey (b :: m)) : a :: l = b :: m := by
  induction l generalizing a b m with
  | nil =>
    obtain ⟨t, ht, e⟩ := joinSep_tail m hm
    have h' : escape a ++ [] = escape b ++ t := by
      simpa [compoundKey, joinSep, e b] using h
    obtain ⟨rfl, e2⟩ := escape_append_inj a b [] t (Or.inl rfl) ht h'
    cases m with
    | nil => rfl
    | cons d m =>
      exfalso
      subst e2
      have := e a
      simp [joinSep] at this
  | cons c l ih =>
    obtain ⟨s, hs, es⟩ := joinSep_tail (c :: l) hl
    obtain ⟨t, ht, et⟩ := joinSep_tail m hm
    have h' : escape a ++ s = escape b ++ t := by
      have := h
      unfold compoundKey at this
      rw [show (a :: c :: l).map escape = escape a :: (c :: l).map escape from rfl,
        show (b :: m).map escape = escape b :: m.map escape from rfl, es a, et b] at this
      exact this
    obtain ⟨rfl, e2⟩ := escape_append_inj a b s t hs ht h'
    cases m with
    | nil =>
      exfalso
      have h1 := et a
      have h2 := es a
      simp [joinSep] at h1 h2
      subst h1
      subst e2
      simp at h2
    | cons d m =>
      have h1 := et a
      have h2 := es a
      have h3 : compoundKey (c :: l) = compoundKey (d :: m) := by
        simp only [List.map_cons, joinSep, List.append_cancel_left_eq] at h1 h2
        rw [← e2, ← h2] at h1
        simp only [List.cons.injEq, true_and] at h1
        simpa [compoundKey] using h1.symm
      rw [ih c d m (fun n hn => hl n (by simp [hn])) (fun n hn => hm n (by simp [hn])) h3]

/-- a list meeting the hypotheses, with separators inside and at the end of names. -/
example : (∀ n ∈ ["b__c_".toList, "d".toList], Clean n) ∧
    compoundKey ["_a__".toList, "b__c_".toList, "d".toList] = "_a______b____c___d".toList := by
  refine ⟨?_, by decide +kernel⟩
  intro n hn
  simp only [List.mem_cons, List.not_mem_nil, or_false] at hn
  rcases hn with rfl | rfl
  · exact ⟨'b', "__c_".toList, by decide, by decide +kernel⟩
  · exact ⟨'d', [], by decide, by decide +kernel⟩

/-! ## C10: copy_and_set_by_keys, get_by_keys -/

variable {V : Type}

/-- Specification: the object reached from `a` by following a path of exact keys. -/
def lookup (h : Heap V) : ℕ → List String → Option ℕ
  | a, [] => some a
  | a, k :: ks => match h[a]? with
    | some (.dict d) => match Dict.get? d k with
      | some b => lookup h b ks
      | none => none
    | _ => none

/-- The object at an address is a dictionary. -/
def IsDict (h : Heap V) (a : ℕ) : Prop := ∃ d, h[a]? = some (Obj.dict d)

/-- No dangling addresses (always true in python). -/
def Closed (h : Heap V) : Prop :=
  ∀ (a : ℕ) (d : Dict String ℕ), h[a]? = some (Obj.dict d) → ∀ k b, Dict.get? d k = some b → b < h.length

theorem lookup_cons (h : Heap V) (a : ℕ) (k : String) (ks : List String) :
    lookup h a (k :: ks) = match h[a]? with
      | some (.dict d) => match Dict.get? d k with
        | some b => lookup h b ks
        | none => none
      | _ => none := rfl

theorem lookup_congr (h0 h : Heap V) (hc : Closed h0) (hag : ∀ a < h0.length, h[a]? = h0[a]?) (q : List String)
    (a : ℕ) (ha : a < h0.length) : lookup h a q = lookup h0 a q := by
  induction q generalizing a with
  | nil => rfl
  | cons k ks ih =>
    simp only [lookup_cons]
    rw [hag a ha]
    cases e : h0[a]? with
    | none => rfl
    | some o =>
      cases o with
      | val v => rfl
      | dict d =>
        simp only
        cases e2 : Dict.get? d k with
        | none => rfl
        | some b => exact ih b (hc a d e k b e2)

/-- what one step of the loop does to the heap. -/
theorem setLoop_cons {h h' : Heap V} {visit : ℕ} {k k' : String} {ks : List String} {v : ℕ}
    (hs : setLoop h visit (k :: k' :: ks) v = .ok h') :
    ∃ d o, h[visit]? = some (.dict d) ∧
      ((Dict.get? d k = none ∧ o = Obj.dict []) ∨ ∃ b, Dict.get? d k = some b ∧ h[b]? = some o) ∧
      setLoop ((h ++ [o]).set visit (.dict (Dict.set d k h.length))) h.length (k' :: ks) v = .ok h' := by
  unfold setLoop at hs
  split at hs
  · rename_i d hd
    split at hs
    · rename_i hn; exact ⟨d, _, hd, Or.inl ⟨hn, rfl⟩, hs⟩
    · rename_i b hb
      split at hs
      · cases hs
      · rename_i o ho
        exact ⟨d, o, hd, Or.inr ⟨b, hb, ho⟩, hs⟩
  · cases hs

theorem setLoop_frame {ks : List String} {h h' : Heap V} {visit v : ℕ} (hv : visit < h.length)
    (hs : setLoop h visit ks v = .ok h') :
    h.length ≤ h'.length ∧ ∀ a < h.length, a ≠ visit → h'[a]? = h[a]? := by
  induction ks generalizing h visit with
  | nil => simp [setLoop] at hs; subst hs; exact ⟨le_refl _, fun _ _ _ => rfl⟩
  | cons k ks ih =>
    cases ks with
    | nil =>
      unfold setLoop at hs
      split at hs
      · cases hs
        refine ⟨by simp, fun a ha hav => ?_⟩
        rw [List.getElem?_set_ne (Ne.symm hav)]
      · cases hs
    | cons k' ks =>
      obtain ⟨d, o, hd, _, hs'⟩ := setLoop_cons hs
      have := ih (by simp) hs'
      simp only [List.length_set, List.length_append, List.length_singleton] at this
      refine ⟨by omega, fun a ha hav => ?_⟩
      rw [this.2 a (by omega) (by omega), List.getElem?_set_ne (Ne.symm hav), List.getElem?_append_left ha]

theorem setLoop_at_visit {ks : List String} {h h' : Heap V} {visit v : ℕ} {k k' : String}
    (hv : visit < h.length) (hs : setLoop h visit (k :: k' :: ks) v = .ok h') :
    ∃ d, h[visit]? = some (.dict d) ∧ h'[visit]? = some (.dict (Dict.set d k h.length)) := by
  obtain ⟨d, o, hd, _, hs'⟩ := setLoop_cons hs
  have hf := setLoop_frame (by simp) hs'
  refine ⟨d, hd, ?_⟩
  rw [hf.2 visit (by simp; omega) (by omega), List.getElem?_set_self (by simp; omega)]

/-- the loop invariant: `visit` is a fresh object whose entries are old objects. -/
theorem setLoop_lookup (h0 : Heap V) (hc : Closed h0) {ks : List String} {h h' : Heap V} {visit v : ℕ}
    (hne : ks ≠ []) (hn0 : h0.length ≤ visit) (hv : visit < h.length) (hvv : v < h0.length)
    (hag : ∀ a < h0.length, h[a]? = h0[a]?)
    (hent : ∀ d, h[visit]? = some (.dict d) → ∀ k b, Dict.get? d k = some b → b < h0.length)
    (hs : setLoop h visit ks v = .ok h') :
    (∀ q, lookup h' visit (ks ++ q) = lookup h0 v q) ∧
    (∀ q, ¬ q <+: ks → ¬ ks <+: q → lookup h' visit q = lookup h visit q) := by
  have hag' : ∀ a < h0.length, h'[a]? = h0[a]? := fun a ha => by
    rw [(setLoop_frame hv hs).2 a (by omega) (by omega), hag a ha]
  induction ks generalizing h visit with
  | nil => exact absurd rfl hne
  | cons k ks ih =>
    cases ks with
    | nil =>
      unfold setLoop at hs
      split at hs
      · rename_i d hd
        have hh' : h'[visit]? = some (.dict (Dict.set d k v)) := by
          cases hs; rw [List.getElem?_set_self hv]
        constructor
        · intro q
          simp only [List.singleton_append]
          simp only [lookup_cons]
          rw [hh']
          simp only [Dict.get?_set_self]
          exact lookup_congr h0 h' hc hag' q v hvv
        · intro q h1 h2
          cases q with
          | nil => exact absurd (List.nil_prefix) h1
          | cons k2 q =>
            have hk : k ≠ k2 := by
              rintro rfl; exact h2 (by simp)
            simp only [lookup_cons]
            rw [hh', hd]
            simp only [Dict.get?_set_ne d v hk]
            cases e : Dict.get? d k2 with
            | none => rfl
            | some b =>
              have hb := hent d hd k2 b e
              simp only
              rw [lookup_congr h0 h' hc hag' q b hb, lookup_congr h0 h hc hag q b hb]
      · cases hs
    | cons k' ks =>
      obtain ⟨d, hd, hh'⟩ := setLoop_at_visit hv hs
      obtain ⟨d', o, hd', ho, hs'⟩ := setLoop_cons hs
      have : d' = d := by rw [hd] at hd'; cases hd'; rfl
      subst this
      set h1 := (h ++ [o]).set visit (.dict (Dict.set d' k h.length)) with hh1
      have hl1 : h.length < h1.length := by simp [hh1]
      have hag1 : ∀ a < h0.length, h1[a]? = h0[a]? := fun a ha => by
        rw [hh1, List.getElem?_set_ne (by omega), List.getElem?_append_left (by omega), hag a ha]
      have hat : h1[h.length]? = some o := by
        rw [hh1, List.getElem?_set_ne (by omega)]; simp
      have hent1 : ∀ d, h1[h.length]? = some (.dict d) → ∀ k b, Dict.get? d k = some b → b < h0.length := by
        intro d2 hd2 k2 b2 hb2
        rw [hat] at hd2
        rcases ho with ⟨_, rfl⟩ | ⟨b, hb, hob⟩
        · cases hd2; simp at hb2
        · have hb0 := hent d' hd k b hb
          rw [hag b hb0] at hob
          cases hd2
          exact hc b d2 hob k2 b2 hb2
      obtain ⟨i1, i2⟩ := ih (h := h1) (visit := h.length) (by simp) (by omega) hl1 hag1 hent1 hs'
      constructor
      · intro q
        rw [List.cons_append]
        simp only [lookup_cons]
        rw [hh']
        simp only [Dict.get?_set_self]
        exact i1 q
      · intro q h1p h2p
        cases q with
        | nil => exact absurd (List.nil_prefix) h1p
        | cons k2 q =>
          simp only [lookup_cons]
          rw [hh', hd]
          simp only
          by_cases hk : k = k2
          · subst hk
            have hq1 : ¬ q <+: (k' :: ks) := fun hp => h1p (by
              rw [List.cons_prefix_cons]; exact ⟨rfl, hp⟩)
            have hq2 : ¬ (k' :: ks) <+: q := fun hp => h2p (by
              rw [List.cons_prefix_cons]; exact ⟨rfl, hp⟩)
            rw [Dict.get?_set_self]
            simp only
            rw [i2 q hq1 hq2]
            -- the copied child has the same contents
            cases q with
            | nil => exact absurd (List.nil_prefix) hq1
            | cons k3 q =>
              rcases ho with ⟨hnone, rfl⟩ | ⟨b, hb, hob⟩
              · rw [hnone]
                simp only [lookup_cons]
                rw [hat]
                simp
              · rw [hb]
                simp only
                have hb0 := hent d' hd k b hb
                simp only [lookup_cons]
                rw [hat, hob]
                cases o with
                | val _ => rfl
                | dict dd =>
                  simp only
                  cases e : Dict.get? dd k3 with
                  | none => rfl
                  | some b2 =>
                    have hob' := hob
                    rw [hag b hb0] at hob'
                    have hb2 := hc b dd hob' k3 b2 e
                    simp only
                    rw [lookup_congr h0 h1 hc hag1 q b2 hb2, lookup_congr h0 h hc hag q b2 hb2]
          · rw [Dict.get?_set_ne d' _ hk]
            cases e : Dict.get? d' k2 with
            | none => rfl
            | some b =>
              have hb := hent d' hd k2 b e
              simp only
              rw [lookup_congr h0 h' hc hag' q b hb, lookup_congr h0 h hc hag q b hb]

theorem copyAndSet_cases {h h' : Heap V} {root root' v : ℕ} {kp : List String}
    (hr : copyAndSetByKeys h root kp v = .ok (h', root')) :
    kp ≠ [] ∧ root' = h.length ∧ ∃ o, h[root]? = some o ∧ setLoop (h ++ [o]) h.length kp v = .ok h' := by
  unfold copyAndSetByKeys at hr
  split at hr
  · cases hr
  · rename_i hne
    split at hr
    · cases hr
    · rename_i o ho
      split at hr
      · cases hr
      · rename_i h2 hs
        cases hr
        exact ⟨by simpa using hne, rfl, o, ho, hs⟩

/-- **C10** (nothing is modified in place): every object that existed before has the same contents afterwards;
the returned root is a new object. -/
theorem C10_original_unmodified (h h' : Heap V) (root root' v : ℕ) (kp : List String)
    (hr : copyAndSetByKeys h root kp v = .ok (h', root')) :
    (∀ a < h.length, h'[a]? = h[a]?) ∧ h.length ≤ root' := by
  obtain ⟨_, rfl, o, _, hs⟩ := copyAndSet_cases hr
  have := setLoop_frame (by simp) hs
  refine ⟨fun a ha => ?_, le_refl _⟩
  rw [this.2 a (by simp; omega) (by omega), List.getElem?_append_left ha]

theorem copyAndSet_lookup (h h' : Heap V) (hc : Closed h) (root root' v : ℕ) (hv : v < h.length)
    (kp : List String) (hr : copyAndSetByKeys h root kp v = .ok (h', root')) :
    (∀ q, lookup h' root' (kp ++ q) = lookup h v q) ∧
    (∀ q, ¬ q <+: kp → ¬ kp <+: q → lookup h' root' q = lookup h root q) := by
  obtain ⟨hne, rfl, o, ho, hs⟩ := copyAndSet_cases hr
  have hag : ∀ a < h.length, (h ++ [o])[a]? = h[a]? := fun a ha => List.getElem?_append_left ha
  have hat : (h ++ [o])[h.length]? = some o := by simp
  have := setLoop_lookup h hc hne (le_refl _) (by simp) hv hag (by
    intro d hd k b hb
    rw [hat] at hd; cases hd
    exact hc root d ho k b hb) hs
  refine ⟨this.1, fun q h1 h2 => ?_⟩
  rw [this.2 q h1 h2]
  cases q with
  | nil => exact absurd (List.nil_prefix) h1
  | cons k q =>
    simp only [lookup_cons]
    rw [hat, ho]
    cases o with
    | val _ => rfl
    | dict d =>
      simp only
      cases e : Dict.get? d k with
      | none => rfl
      | some b => exact lookup_congr h (h ++ [.dict d]) hc hag q b (hc root d ho k b e)

/-- **C10** (value stored): the path leads to the stored object, and everything below it is what was below that
object before. -/
theorem C10_value_stored (h h' : Heap V) (hc : Closed h) (root root' v : ℕ) (hv : v < h.length)
    (kp : List String) (hr : copyAndSetByKeys h root kp v = .ok (h', root')) :
    lookup h' root' kp = some v ∧ ∀ q, lookup h' root' (kp ++ q) = lookup h v q := by
  have := (copyAndSet_lookup h h' hc root root' v hv kp hr).1
  refine ⟨?_, this⟩
  simpa [lookup] using this []

/-- **C10** (other paths): a path that is neither a prefix nor an extension of the key path leads to the very
same object as before, or to nothing as before. -/
theorem C10_other_paths (h h' : Heap V) (hc : Closed h) (root root' v : ℕ) (hv : v < h.length)
    (kp : List String) (hr : copyAndSetByKeys h root kp v = .ok (h', root')) (q : List String)
    (h1 : ¬ q <+: kp) (h2 : ¬ kp <+: q) : lookup h' root' q = lookup h root q :=
  (copyAndSet_lookup h h' hc root root' v hv kp hr).2 q h1 h2

theorem setLoop_ok_iff (h0 : Heap V) (hc : Closed h0) {ks : List String} {h : Heap V} {visit v : ℕ}
    (hne : ks ≠ []) (hn0 : h0.length ≤ visit) (hv : visit < h.length)
    (hag : ∀ a < h0.length, h[a]? = h0[a]?)
    (hent : ∀ d, h[visit]? = some (.dict d) → ∀ k b, Dict.get? d k = some b → b < h0.length) :
    (∃ h', setLoop h visit ks v = .ok h') ↔
      ∀ p a, p <+: ks → p ≠ ks → lookup h visit p = some a → IsDict h a := by
  induction ks generalizing h visit with
  | nil => exact absurd rfl hne
  | cons k ks ih =>
    -- the object visited must be a dict
    cases hd : h[visit]? with
    | none => rw [List.getElem?_eq_none_iff] at hd; omega
    | some o =>
      cases o with
      | val x =>
        constructor
        · rintro ⟨h', hs⟩
          cases ks <;> (unfold setLoop at hs; rw [hd] at hs; cases hs)
        · intro hp
          obtain ⟨d, hd'⟩ := hp [] visit (List.nil_prefix) (by simp) rfl
          rw [hd] at hd'; cases hd'
      | dict d =>
        cases ks with
        | nil =>
          constructor
          · intro _ p a hp hpne hl
            have : p = [] := by
              cases p with
              | nil => rfl
              | cons x p =>
                rw [List.cons_prefix_cons, List.prefix_nil] at hp
                exact absurd (by rw [hp.1, hp.2]) hpne
            subst this
            cases hl
            exact ⟨d, hd⟩
          · intro _
            unfold setLoop; rw [hd]; exact ⟨_, rfl⟩
        | cons k' ks =>
          have key : ∀ o : Obj V, ((Dict.get? d k = none ∧ o = Obj.dict []) ∨
              ∃ b, Dict.get? d k = some b ∧ h[b]? = some o) →
              ((∃ h', setLoop ((h ++ [o]).set visit (.dict (Dict.set d k h.length))) h.length (k' :: ks) v
                = .ok h') ↔
              ∀ p a, p <+: (k :: k' :: ks) → p ≠ (k :: k' :: ks) → lookup h visit p = some a →
                IsDict h a) := by
            intro o ho
            set h1 := (h ++ [o]).set visit (.dict (Dict.set d k h.length)) with hh1
            have hl1 : h.length < h1.length := by simp [hh1]
            have hag1 : ∀ a < h0.length, h1[a]? = h0[a]? := fun a ha => by
              rw [hh1, List.getElem?_set_ne (by omega), List.getElem?_append_left (by omega), hag a ha]
            have hat : h1[h.length]? = some o := by
              rw [hh1, List.getElem?_set_ne (by omega)]; simp
            have hent1 : ∀ d, h1[h.length]? = some (.dict d) →
                ∀ k b, Dict.get? d k = some b → b < h0.length := by
              intro d2 hd2 k2 b2 hb2
              rw [hat] at hd2
              rcases ho with ⟨_, rfl⟩ | ⟨b, hb, hob⟩
              · cases hd2; simp at hb2
              · have hb0 := hent d hd k b hb
                rw [hag b hb0] at hob
                cases hd2
                exact hc b d2 hob k2 b2 hb2
            rw [ih (h := h1) (visit := h.length) (by simp) (by omega) hl1 hag1 hent1]
            -- lookups from the copy agree with lookups from the original child
            have hold : ∀ a < h0.length, (IsDict h1 a ↔ IsDict h a) := fun a ha => by
              unfold IsDict; rw [hag1 a ha, hag a ha]
            have hlk : ∀ (b : ℕ), b < h0.length → ∀ q a, lookup h0 b q = some a → a < h0.length := by
              intro b hb q
              induction q generalizing b with
              | nil => intro a ha; cases ha; exact hb
              | cons k2 q ihq =>
                intro a ha
                rw [lookup_cons] at ha
                split at ha
                · rename_i dd hdd
                  split at ha
                  · rename_i b2 hb2
                    exact ihq b2 (hc b dd hdd k2 b2 hb2) a ha
                  · cases ha
                · cases ha
            have hcopy : ∀ b, Dict.get? d k = some b → h[b]? = some o → ∀ k3 q,
                lookup h1 h.length (k3 :: q) = lookup h0 b (k3 :: q) := by
              intro b hb hob k3 q
              have hb0 := hent d hd k b hb
              have hob' := hob
              rw [hag b hb0] at hob'
              simp only [lookup_cons]
              rw [hat, hob']
              cases o with
              | val _ => rfl
              | dict dd =>
                simp only
                cases e : Dict.get? dd k3 with
                | none => rfl
                | some b2 =>
                  have hb2 := hc b dd hob' k3 b2 e
                  simp only
                  rw [lookup_congr h0 h1 hc hag1 q b2 hb2]
            constructor
            · intro hp p a hpre hpne hl
              cases p with
              | nil => cases hl; exact ⟨d, hd⟩
              | cons k2 p =>
                rw [List.cons_prefix_cons] at hpre
                obtain ⟨rfl, hpre⟩ := hpre
                have hpne' : p ≠ k' :: ks := fun e => hpne (by rw [e])
                rw [lookup_cons] at hl
                rw [hd] at hl
                simp only at hl
                rcases ho with ⟨hnone, rfl⟩ | ⟨b, hb, hob⟩
                · rw [hnone] at hl; cases hl
                · rw [hb] at hl
                  simp only at hl
                  have hb0 := hent d hd k2 b hb
                  rw [lookup_congr h0 h hc hag p b hb0] at hl
                  cases p with
                  | nil =>
                    cases hl
                    obtain ⟨dd, hdd⟩ := hp [] h.length (List.nil_prefix) (by simp) rfl
                    rw [hat] at hdd; cases hdd
                    exact ⟨dd, hob⟩
                  | cons k3 q =>
                    have ha0 := hlk b hb0 (k3 :: q) a hl
                    rw [← hcopy b hb hob k3 q] at hl
                    exact (hold a ha0).mp (hp (k3 :: q) a hpre hpne' hl)
            · intro hp p a hpre hpne hl
              cases p with
              | nil =>
                cases hl
                rcases ho with ⟨hnone, rfl⟩ | ⟨b, hb, hob⟩
                · exact ⟨_, hat⟩
                · have hlb : lookup h visit [k] = some b := by
                    simp [lookup, hd, hb]
                  obtain ⟨dd, hdd⟩ := hp [k] b (by simp) (by simp) hlb
                  rw [hob] at hdd; cases hdd
                  exact ⟨dd, hat⟩
              | cons k3 q =>
                rcases ho with ⟨hnone, rfl⟩ | ⟨b, hb, hob⟩
                · rw [lookup_cons] at hl
                  rw [hat] at hl
                  simp at hl
                · have hb0 := hent d hd k b hb
                  rw [hcopy b hb hob k3 q] at hl
                  have ha0 := hlk b hb0 (k3 :: q) a hl
                  refine (hold a ha0).mpr (hp (k :: k3 :: q) a ?_ ?_ ?_)
                  · rw [List.cons_prefix_cons]; exact ⟨rfl, hpre⟩
                  · intro e; apply hpne; cases e; rfl
                  · rw [show lookup h visit (k :: k3 :: q) = lookup h b (k3 :: q) by
                      rw [lookup_cons]
                      simp [hd, hb]]
                    rw [lookup_congr h0 h hc hag _ b hb0, hl]
          cases e : Dict.get? d k with
          | none =>
            rw [← key (.dict []) (Or.inl ⟨e, rfl⟩)]
            conv_lhs => unfold setLoop
            rw [hd]; simp only [e]
          | some b =>
            have hb0 := hent d hd k b e
            cases eo : h[b]? with
            | none => rw [List.getElem?_eq_none_iff] at eo; omega
            | some o =>
              rw [← key o (Or.inr ⟨b, e, eo⟩)]
              conv_lhs => unfold setLoop
              rw [hd]; simp only [e, eo]

/-- **C10** (when it fails): for a non-empty path the call succeeds exactly when no proper prefix of the path
leads to something that is not a dictionary. -/
theorem C10_succeeds_iff (h : Heap V) (hc : Closed h) (root v : ℕ) (hroot : root < h.length)
    (kp : List String) (hne : kp ≠ []) :
    (∃ r, copyAndSetByKeys h root kp v = .ok r) ↔
      ∀ p a, p <+: kp → p ≠ kp → lookup h root p = some a → IsDict h a := by
  obtain ⟨o, ho⟩ : ∃ o, h[root]? = some o := ⟨h[root], by simp [hroot]⟩
  have hag : ∀ a < h.length, (h ++ [o])[a]? = h[a]? := fun a ha => List.getElem?_append_left ha
  have hat : (h ++ [o])[h.length]? = some o := by simp
  have hent : ∀ d, (h ++ [o])[h.length]? = some (.dict d) → ∀ k b, Dict.get? d k = some b → b < h.length := by
    intro d hd k b hb
    rw [hat] at hd; cases hd
    exact hc root d ho k b hb
  have hi := setLoop_ok_iff h hc (v := v) hne (le_refl _) (by simp) hag hent
  have h1 : (∃ r, copyAndSetByKeys h root kp v = .ok r) ↔
      ∃ h', setLoop (h ++ [o]) h.length kp v = .ok h' := by
    unfold copyAndSetByKeys
    rw [if_neg (by simpa using hne), ho]
    simp only
    cases e : setLoop (h ++ [o]) h.length kp v <;> simp
  rw [h1, hi]
  have hsame : ∀ k q, lookup (h ++ [o]) h.length (k :: q) = lookup h root (k :: q) := by
    intro k q
    simp only [lookup_cons]
    rw [hat, ho]
    cases o with
    | val _ => rfl
    | dict d =>
      simp only
      cases e : Dict.get? d k with
      | none => rfl
      | some b => exact lookup_congr h (h ++ [.dict d]) hc hag q b (hc root d ho k b e)
  have hlt : ∀ (b : ℕ), b < h.length → ∀ q a, lookup h b q = some a → a < h.length := by
    intro b hb q
    induction q generalizing b with
    | nil => intro a ha; cases ha; exact hb
    | cons k2 q ihq =>
      intro a ha
      rw [lookup_cons] at ha
      split at ha
      · rename_i dd hdd
        split at ha
        · rename_i b2 hb2
          exact ihq b2 (hc b dd hdd k2 b2 hb2) a ha
        · cases ha
      · cases ha
  have hdict : ∀ a < h.length, (IsDict (h ++ [o]) a ↔ IsDict h a) := fun a ha => by
    unfold IsDict; rw [hag a ha]
  constructor
  · intro hp p a hpre hpne hl
    cases p with
    | nil =>
      cases hl
      obtain ⟨d, hd⟩ := hp [] h.length (List.nil_prefix) hpne rfl
      rw [hat] at hd; cases hd
      exact ⟨d, ho⟩
    | cons k q =>
      have ha := hlt root hroot _ a hl
      rw [← hsame] at hl
      exact (hdict a ha).mp (hp _ a hpre hpne hl)
  · intro hp p a hpre hpne hl
    cases p with
    | nil =>
      cases hl
      obtain ⟨d, hd⟩ := hp [] root (List.nil_prefix) hpne rfl
      rw [ho] at hd; cases hd
      exact ⟨d, hat⟩
    | cons k q =>
      rw [hsame] at hl
      have ha := hlt root hroot _ a hl
      exact (hdict a ha).mpr (hp _ a hpre hpne hl)

/-- **C10** (the empty path is refused). -/
theorem C10_empty_path (h : Heap V) (root v : ℕ) :
    copyAndSetByKeys h root [] v = .error .valueError := rfl

theorem getLoop_lookup (h : Heap V) (a b : ℕ) (q : List String) (hl : lookup h a q = some b) :
    getLoop h (.at a) (q.map some) = .ok (.at b, true) := by
  induction q generalizing a with
  | nil => cases hl; rfl
  | cons k q ih =>
    rw [lookup_cons] at hl
    split at hl
    · rename_i d hd
      split at hl
      · rename_i c hk
        simp only [List.map_cons]
        unfold getLoop
        simp only [Cur.mapping?, hd, hk]
        exact ih c hl
      · cases hl
    · cases hl

/-- **C10** (reading): if a path of exact keys leads to an object that is not an empty dictionary then
get_by_keys returns that very object, whatever the default and whatever other keys contain "/". -/
theorem C10_get_exact_path (h : Heap V) (a b : ℕ) (q : List String) (hq : q ≠ [])
    (hl : lookup h a q = some b) (hne : h[b]? ≠ some (.dict [])) (hasDefault optional : Bool) :
    getByKeys h a (q.map some) hasDefault optional = .ok (.found (.at b)) := by
  unfold getByKeys
  rw [if_neg (by simpa using hq), getLoop_lookup h a b q hl]
  simp only [Bool.not_true, Bool.false_or, Cur.mapping?]
  rw [if_neg]
  cases e : h[b]? with
  | none => simp
  | some o =>
    cases o with
    | val _ => simp
    | dict d =>
      cases d with
      | nil => exact absurd e hne
      | cons x d => simp

/-- **C10** (read back): the stored value is returned by get_by_keys.  `_partial`: a stored empty dictionary is
reported as not found, see `C10_empty_dict_not_found`. -/
theorem C10_read_back_partial (h h' : Heap V) (hc : Closed h) (root root' v : ℕ) (hv : v < h.length)
    (kp : List String) (hr : copyAndSetByKeys h root kp v = .ok (h', root'))
    (hne : h[v]? ≠ some (.dict [])) (hasDefault optional : Bool) :
    getByKeys h' root' (kp.map some) hasDefault optional = .ok (.found (.at v)) := by
  refine C10_get_exact_path h' root' v kp (copyAndSet_cases hr).1
    (C10_value_stored h h' hc root root' v hv kp hr).1 ?_ hasDefault optional
  rw [(C10_original_unmodified h h' root root' v kp hr).1 v hv]
  exact hne

/-- **C10 fails for a stored empty dictionary**: get_by_keys raises ValueError. -/
theorem C10_empty_dict_not_found (h h' : Heap V) (hc : Closed h) (root root' v : ℕ) (hv : v < h.length)
    (kp : List String) (hr : copyAndSetByKeys h root kp v = .ok (h', root'))
    (he : h[v]? = some (.dict [])) :
    getByKeys h' root' (kp.map some) false false = .error .valueError := by
  have hl := (C10_value_stored h h' hc root root' v hv kp hr).1
  unfold getByKeys
  rw [if_neg (by simpa using (copyAndSet_cases hr).1), getLoop_lookup h' root' v kp hl]
  have : h'[v]? = some (.dict []) := by
    rw [(C10_original_unmodified h h' root root' v kp hr).1 v hv]; exact he
  simp [Cur.mapping?, this]

/-! a concrete case: `{"a": {"x": 1}, "b": 2}`, storing object 3 under `a → y` -/

def demoHeap : Heap ℕ :=
  [.dict [("a", 1), ("b", 2)], .dict [("x", 3)], .val 2, .val 1]

example : ∃ h' r, copyAndSetByKeys demoHeap 0 ["a", "y"] 3 = .ok (h', r) ∧
    lookup h' r ["a", "y"] = some 3 ∧ lookup h' r ["a", "x"] = some 3 ∧ lookup h' r ["b"] = some 2 ∧
    lookup h' 0 ["a", "y"] = none := by
  refine ⟨[.dict [("a", 1), ("b", 2)], .dict [("x", 3)], .val 2, .val 1,
    .dict [("a", 5), ("b", 2)], .dict [("x", 3), ("y", 3)]], 4, ?_, ?_, ?_, ?_, ?_⟩
  · simp [copyAndSetByKeys, demoHeap, setLoop, Dict.get?, Dict.set]
  all_goals simp [lookup, Dict.get?]

example : Closed demoHeap := by
  intro a d hd k b hb
  have ha : a < 4 := by
    by_contra hcon
    have : demoHeap[a]? = none := by rw [List.getElem?_eq_none_iff]; simp [demoHeap]; omega
    rw [this] at hd; cases hd
  have : a = 0 ∨ a = 1 ∨ a = 2 ∨ a = 3 := by omega
  rcases this with rfl | rfl | rfl | rfl <;> simp [demoHeap] at hd ⊢
  · subst hd; simp only [Dict.get?] at hb; split at hb
    · cases hb; omega
    · split at hb <;> cases hb; omega
  · subst hd; simp only [Dict.get?] at hb; split at hb <;> cases hb; omega

example : copyAndSetByKeys demoHeap 0 ["b", "y"] 3 = .error .valueError := by
  simp [copyAndSetByKeys, demoHeap, setLoop, Dict.get?, Dict.set]

end Keys
end TFMA
