import Verif.Model.SliceNames

/-!
# C156: names of slices

The name of a slice tells its columns and the texts of its values, unless these contain the separators.
-/

namespace TFMA
namespace SliceNames

open Slicer

/-! ### specification -/

/-- The text does not contain the beginning of the separator. -/
def NoSep (s : String) : Prop := ¬ ['_', 'X'] <:+: s.toList

/-- Neither the columns nor the texts of the values of a slice look like separators. -/
def Plain (c : NumCodec) (k : SliceKey) : Prop :=
  ∀ e ∈ k, ':' ∉ e.1.toList ∧ NoSep e.1 ∧ NoSep (valueText c e.2)

/-- What a reader sees of a slice: its columns with the texts of the values. -/
def seen (c : NumCodec) (k : SliceKey) : List (String × String) := k.map fun e => (e.1, valueText c e.2)

/-- The three types a value can have. -/
inductive Kind where
  | text | int | float
  deriving DecidableEq

/-- The type of a value. -/
def kindOf : Val → Kind
  | .str _ => .text
  | .int _ => .int
  | .flt _ => .float

/-- The values of a column are all of the type of the column. -/
def Typed (t : String → Kind) (k : SliceKey) : Prop := ∀ e ∈ k, kindOf e.2 = t e.1

/-! ### texts -/

private def sep : List Char := ['_', 'X', '_']

private theorem sep_first (a b a' b' : List Char) (ha : ¬ ['_', 'X'] <:+: a) (ha' : ¬ ['_', 'X'] <:+: a')
    (h : a ++ (sep ++ b) = a' ++ (sep ++ b')) : a = a' ∧ b = b' := by
  have key : ∀ a b a' b' : List Char, ¬ ['_', 'X'] <:+: a' → ∀ d, a' = a ++ d → sep ++ b = d ++ (sep ++ b') → d = [] := by
    intro a b a' b' ha' d e1 e2
    match d, e1, e2 with
    | [], _, _ => rfl
    | [x], _, e2 =>
      simp only [sep, List.cons_append, List.nil_append, List.cons.injEq] at e2
      exact absurd e2.2.1 (by decide)
    | x :: y :: d, e1, e2 =>
      simp only [sep, List.cons_append, List.nil_append, List.cons.injEq] at e2
      exact absurd ⟨a, d, by rw [e1, ← e2.1, ← e2.2.1]; simp⟩ ha'
  rcases List.append_eq_append_iff.1 h with ⟨d, e1, e2⟩ | ⟨d, e1, e2⟩
  · have hd := key a b a' b' ha' d e1 e2
    subst hd
    exact ⟨by simpa using e1.symm, by simpa [sep] using e2⟩
  · have hd := key a' b' a b ha d e1 e2
    subst hd
    exact ⟨by simpa using e1, by simpa [sep] using e2.symm⟩

private theorem joinX_cons (x y : String) (l : List String) :
    (joinX (x :: y :: l)).toList = x.toList ++ (sep ++ (joinX (y :: l)).toList) := by
  simp [joinX, sep]

private theorem joinX_inj (l l' : List String) (hl : l ≠ []) (hl' : l' ≠ []) (h : ∀ s ∈ l, NoSep s) (h' : ∀ s ∈ l', NoSep s)
    (e : joinX l = joinX l') : l = l' := by
  induction l generalizing l' with
  | nil => exact absurd rfl hl
  | cons x l ih =>
    cases l' with
    | nil => exact absurd rfl hl'
    | cons x' l' =>
      have e' := congrArg String.toList e
      cases l with
      | nil =>
        cases l' with
        | nil => simpa [joinX] using e
        | cons y' l' =>
          rw [joinX_cons] at e'
          refine absurd ⟨x'.toList, '_' :: (joinX (y' :: l')).toList, ?_⟩ (h x (by simp))
          have : x.toList = _ := e'
          rw [this]
          simp [sep]
      | cons y l =>
        cases l' with
        | nil =>
          rw [joinX_cons] at e'
          refine absurd ⟨x.toList, '_' :: (joinX (y :: l)).toList, ?_⟩ (h' x' (by simp))
          have : _ = x'.toList := e'
          rw [← this]
          simp [sep]
        | cons y' l' =>
          rw [joinX_cons, joinX_cons] at e'
          obtain ⟨e1, e2⟩ := sep_first _ _ _ _ (h x (by simp)) (h' x' (by simp)) e'
          rw [String.toList_inj.1 e1, ih (y' :: l') (by simp) (by simp) (fun s hs => h s (by simp [List.mem_cons.1 hs]))
            (fun s hs => h' s (by simp [List.mem_cons.1 hs])) (String.toList_inj.1 e2)]

private theorem not_mem_joinX (ch : Char) (hc : ch ∉ sep) (l : List String) (h : ∀ s ∈ l, ch ∉ s.toList) :
    ch ∉ (joinX l).toList := by
  induction l with
  | nil => simp [joinX]
  | cons x l ih =>
    cases l with
    | nil => simpa [joinX] using h x (by simp)
    | cons y l =>
      rw [joinX_cons]
      simp only [List.mem_append, not_or]
      exact ⟨h x (by simp), hc, ih fun s hs => h s (by simp [List.mem_cons.1 hs])⟩

private theorem colon_first (a b a' b' : List Char) (ha : ':' ∉ a) (ha' : ':' ∉ a') (h : a ++ ':' :: b = a' ++ ':' :: b') :
    a = a' ∧ b = b' := by
  rcases List.append_eq_append_iff.1 h with ⟨d, e1, e2⟩ | ⟨d, e1, e2⟩
  · cases d with
    | nil => exact ⟨by simpa using e1.symm, by simpa using e2⟩
    | cons x d =>
      simp only [List.cons_append, List.cons.injEq] at e2
      exact absurd (by rw [e1, ← e2.1]; simp) ha'
  · cases d with
    | nil => exact ⟨by simpa using e1, by simpa using e2.symm⟩
    | cons x d =>
      simp only [List.cons_append, List.cons.injEq] at e2
      exact absurd (by rw [e1, ← e2.1]; simp) ha

private theorem stringify_chars (c : NumCodec) (k : SliceKey) (h : k ≠ []) :
    (stringify c k).toList = (joinX (k.map fun e => e.1)).toList ++ ':' :: (joinX (k.map fun e => valueText c e.2)).toList := by
  simp [stringify, h]

/-! ### C156 -/

/-- The name "Overall" is that of the slice of all examples and of no other. -/
theorem C156_overall (c : NumCodec) (k : SliceKey) : stringify c k = "Overall" ↔ k = [] := by
  constructor
  · intro h
    by_contra hk
    have e := stringify_chars c k hk
    rw [h] at e
    have : ':' ∈ "Overall".toList := by rw [e]; simp
    exact absurd this (by decide)
  · rintro rfl
    rfl

/-- A slice on one column is named by the column and the text of its value. -/
theorem C156_single (c : NumCodec) (col : String) (v : Val) : stringify c [(col, v)] = col ++ ":" ++ valueText c v := by
  simp [stringify, joinX]

/-- A slice on two columns is named by both columns and both texts, in the order of the slice key. -/
theorem C156_cross (c : NumCodec) (a b : String) (v w : Val) :
    stringify c [(a, v), (b, w)] = a ++ "_X_" ++ b ++ ":" ++ (valueText c v ++ "_X_" ++ valueText c w) := by
  simp [stringify, joinX]

/-- Slices of the same name have the same columns, in the same order, and the same texts of values. -/
theorem C156_apart (c : NumCodec) (k k' : SliceKey) (h : Plain c k) (h' : Plain c k') (e : stringify c k = stringify c k') :
    seen c k = seen c k' := by
  by_cases hk : k = []
  · subst hk
    have : k' = [] := (C156_overall c k').1 (by rw [← e]; rfl)
    rw [this]
  by_cases hk' : k' = []
  · subst hk'
    exact absurd ((C156_overall c k).1 (by rw [e]; rfl)) hk
  have e' := congrArg String.toList e
  rw [stringify_chars c k hk, stringify_chars c k' hk'] at e'
  have col : ∀ k : SliceKey, Plain c k → ':' ∉ (joinX (k.map fun e => e.1)).toList := fun k h => by
    refine not_mem_joinX _ (by decide) _ fun s hs => ?_
    obtain ⟨p, hp, rfl⟩ := List.mem_map.1 hs
    exact (h p hp).1
  obtain ⟨e1, e2⟩ := colon_first _ _ _ _ (col k h) (col k' h') e'
  have f1 := joinX_inj _ _ (by simpa using hk) (by simpa using hk')
    (fun s hs => by obtain ⟨p, hp, rfl⟩ := List.mem_map.1 hs; exact (h p hp).2.1)
    (fun s hs => by obtain ⟨p, hp, rfl⟩ := List.mem_map.1 hs; exact (h' p hp).2.1) (String.toList_inj.1 e1)
  have f2 := joinX_inj _ _ (by simpa using hk) (by simpa using hk')
    (fun s hs => by obtain ⟨p, hp, rfl⟩ := List.mem_map.1 hs; exact (h p hp).2.2)
    (fun s hs => by obtain ⟨p, hp, rfl⟩ := List.mem_map.1 hs; exact (h' p hp).2.2) (String.toList_inj.1 e2)
  unfold seen
  clear e e' e1 e2 col h h' hk hk'
  induction k generalizing k' with
  | nil =>
    cases k' with
    | nil => rfl
    | cons p k' => simp at f1
  | cons p k ih =>
    cases k' with
    | nil => simp at f1
    | cons p' k' =>
      simp only [List.map_cons, List.cons.injEq] at f1 f2 ⊢
      exact ⟨Prod.ext f1.1 f2.1, ih k' f1.2 f2.2⟩

private theorem seen_inj (c : NumCodec) (hi : Function.Injective c.showInt) (hf : Function.Injective c.showFloat) (t : String → Kind)
    (k k' : SliceKey) (h : Typed t k) (h' : Typed t k') (e : seen c k = seen c k') : k = k' := by
  induction k generalizing k' with
  | nil =>
    cases k' with
    | nil => rfl
    | cons p k' => simp [seen] at e
  | cons p k ih =>
    cases k' with
    | nil => simp [seen] at e
    | cons p' k' =>
      simp only [seen, List.map_cons, List.cons.injEq, Prod.mk.injEq] at e
      obtain ⟨⟨e1, e2⟩, e3⟩ := e
      have ek := ih k' (fun q hq => h q (by simp [hq])) (fun q hq => h' q (by simp [hq])) e3
      obtain ⟨col, v⟩ := p
      obtain ⟨col', v'⟩ := p'
      simp only at e1 e2
      subst e1
      have hv : kindOf v = kindOf v' := (h (col, v) (by simp)).trans (h' (col, v') (by simp)).symm
      have : v = v' := by
        cases v <;> cases v' <;> simp [kindOf] at hv <;> simp only [valueText] at e2
        · rw [e2]
        · rw [hi e2]
        · rw [hf e2]
      rw [this, ek]

/-- If moreover each column has values of one type, whose texts differ, different slices have different names. -/
theorem C156_typed (c : NumCodec) (hi : Function.Injective c.showInt) (hf : Function.Injective c.showFloat) (t : String → Kind)
    (k k' : SliceKey) (h : Plain c k) (h' : Plain c k') (ht : Typed t k) (ht' : Typed t k') :
    stringify c k = stringify c k' ↔ k = k' :=
  ⟨fun e => seen_inj c hi hf t k k' ht ht' (C156_apart c k k' h h' e), fun e => by rw [e]⟩

/-- The column of names of an example has the name of each of its slices, in the order of the slice keys, and no name twice. It is
written only on request. -/
theorem C156_column (c : NumCodec) (hi : Function.Injective c.showInt) (hf : Function.Injective c.showFloat) (t : String → Kind)
    (unique : List SliceKey) (hu : unique.Nodup) (h : ∀ k ∈ unique, Plain c k ∧ Typed t k) :
    namesColumn c false unique = none ∧ ∃ names, namesColumn c true unique = some names ∧ names.Nodup ∧
      names.length = unique.length ∧
      ∀ i : ℕ, names[i]? = (unique[i]?).map fun k => (stringify c k).toUTF8 := by
  refine ⟨rfl, _, rfl, ?_, by simp, fun i => by simp⟩
  refine (List.nodup_map_iff_inj_on hu).2 fun k hk k' hk' e => ?_
  exact (C156_typed c hi hf t k k' (h k hk).1 (h k' hk').1 (h k hk).2 (h k' hk').2).1 (String.toByteArray_inj.1 e)

private theorem shown_from {V : Type} (c : NumCodec) (s : Spec) (results : List (ResultKey × V)) (data : List (Views.Shown V))
    (e : Views.findAllSlices c (stringify c) s results = .ok data) (n : String) (v : V) (hm : (n, v) ∈ data) :
    ∃ k, (ResultKey.slice k, v) ∈ results ∧ n = stringify c k := by
  induction results generalizing data with
  | nil =>
    simp only [Views.findAllSlices, Except.ok.injEq] at e
    subst e
    simp at hm
  | cons p rest ih =>
    obtain ⟨k, w⟩ := p
    simp only [Views.findAllSlices] at e
    cases happ : Views.isApplicable c s k with
    | error x => simp [happ] at e
    | ok b =>
      cases b with
      | false =>
        simp only [happ] at e
        obtain ⟨k', hk', hn⟩ := ih data e hm
        exact ⟨k', by simp [hk'], hn⟩
      | true =>
        simp only [happ] at e
        cases hr : Views.findAllSlices c (stringify c) s rest with
        | error x => simp [hr] at e
        | ok l =>
          simp only [hr, Except.ok.injEq] at e
          subst e
          rcases List.mem_cons.1 hm with hm | hm
          · cases k with
            | slice key =>
              simp only [Prod.mk.injEq] at hm
              exact ⟨key, by simp [hm.2], hm.1⟩
            | cross a b => cases a <;> simp [Views.isApplicable] at happ
          · obtain ⟨k', hk', hn⟩ := ih l hr hm
            exact ⟨k', by simp [hk'], hn⟩

/-- The rows of the slicing view have different names if the result has no slice twice. -/
theorem C156_view {V : Type} (c : NumCodec) (hi : Function.Injective c.showInt) (hf : Function.Injective c.showFloat)
    (t : String → Kind) (s : Spec) (results : List (ResultKey × V)) (hu : (results.map Prod.fst).Nodup)
    (h : ∀ k, ResultKey.slice k ∈ results.map Prod.fst → Plain c k ∧ Typed t k) (data : List (Views.Shown V))
    (e : Views.findAllSlices c (stringify c) s results = .ok data) : (data.map Prod.fst).Nodup := by
  induction results generalizing data with
  | nil =>
    simp only [Views.findAllSlices, Except.ok.injEq] at e
    subst e
    simp
  | cons p rest ih =>
    obtain ⟨k, w⟩ := p
    simp only [List.map_cons, List.nodup_cons] at hu
    have ih' := ih hu.2 fun k hk => h k (by simp [hk])
    simp only [Views.findAllSlices] at e
    cases happ : Views.isApplicable c s k with
    | error x => simp [happ] at e
    | ok b =>
      cases b with
      | false =>
        simp only [happ] at e
        exact ih' data e
      | true =>
        simp only [happ] at e
        cases hr : Views.findAllSlices c (stringify c) s rest with
        | error x => simp [hr] at e
        | ok l =>
          simp only [hr, Except.ok.injEq] at e
          subst e
          cases k with
          | cross a b => cases a <;> simp [Views.isApplicable] at happ
          | slice key =>
            simp only [List.map_cons, List.nodup_cons]
            refine ⟨fun hin => ?_, ih' l hr⟩
            obtain ⟨⟨n, v⟩, hm, hn⟩ := List.mem_map.1 hin
            obtain ⟨k', hk', hn'⟩ := shown_from c s rest l hr n v hm
            have hk'' : ResultKey.slice k' ∈ rest.map Prod.fst := List.mem_map.2 ⟨_, hk', rfl⟩
            have h1 := h key (by simp)
            have h2 := h k' (by simp [hk''])
            have : key = k' := (C156_typed c hi hf t key k' h1.1 h2.1 h1.2 h2.2).1 (by simp only at hn; rw [← hn, hn'])
            subst this
            exact hu.1 hk''

/-! ### what the name does not tell -/

/-- A column or a value with the separator in it, or only a part of it at its end, makes the names of different slices the same. -/
theorem C156_separator_fails (c : NumCodec) :
    stringify c [("a_X", .str "1"), ("b", .str "2")] = stringify c [("a", .str "1"), ("X_b", .str "2")] ∧
      stringify c [("a_X_b", .str "1_X_2")] = stringify c [("a", .str "1"), ("b", .str "2")] := by
  constructor <;> simp [stringify, joinX, valueText] <;> rfl

/-- So does a column with a colon. -/
theorem C156_colon_fails (c : NumCodec) : stringify c [("a:b", .str "c")] = stringify c [("a", .str "b:c")] := by
  simp [stringify, joinX, valueText]

/-- A number and its text have the same name. -/
theorem C156_number_fails (c : NumCodec) (col : String) (i : ℤ) :
    stringify c [(col, .int i)] = stringify c [(col, .str (c.showInt i))] ∧
      ([(col, .int i)] : SliceKey) ≠ [(col, .str (c.showInt i))] := by
  refine ⟨by simp [stringify, joinX, valueText], by simp⟩

/-- The conditions hold for ordinary columns and values. -/
example (c : NumCodec) (hi : c.showInt 5 = "5") : Plain c [("age", .int 5), ("gender", .str "f_x")] := by
  intro e he
  simp only [List.mem_cons, List.not_mem_nil, or_false] at he
  rcases he with rfl | rfl
  · simp only [valueText, hi, NoSep]; decide
  · simp only [valueText, NoSep]; decide

example (c : NumCodec) (hi : c.showInt 5 = "5") :
    stringify c [("age", .int 5), ("gender", .str "f")] = "age_X_gender:5_X_f" := by
  simp [stringify, joinX, valueText, hi]

end SliceNames
end TFMA
