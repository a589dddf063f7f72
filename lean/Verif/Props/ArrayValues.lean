import Verif.Model.ArrayValues
import Mathlib.Data.List.Forall2
import Mathlib.Algebra.BigOperators.Group.List.Basic
import Mathlib.Tactic.Ring

/-!
# C158: arrays in the written messages

The message of an array of numbers holds its shape and each of its entries, at the place of its index, in the field of its type.
-/

namespace TFMA
namespace ArrayValues

variable {α : Type}

/-! ### specification -/

/-- An index lies within a shape. -/
def Within (shape ix : List ℕ) : Prop := List.Forall₂ (fun i n => i < n) ix shape

/-- Where a reader looks for the entry of an index: the last index runs fastest. -/
def position : List ℕ → List ℕ → ℕ
  | _ :: s, i :: ix => i * s.prod + position s ix
  | _, _ => 0

/-- The values are those of the array, each at its position, and no others. -/
def Holds (a : Nd α) (vs : List α) : Prop :=
  vs.length = a.shape.prod ∧ ∀ ix, Within a.shape ix → vs[position a.shape ix]? = some (a.entry ix)

/-- Two arrays are equal: same shape and same entries. -/
def SameArray (a b : Nd α) : Prop := a.shape = b.shape ∧ ∀ ix, Within a.shape ix → a.entry ix = b.entry ix

/-- The message says the type and the shape of the array, its values are in the field of the type and the other fields are empty. -/
def Faithful : NArray → Msg → Prop
  | .int32 a, m => ∃ vs, Holds a vs ∧ m = ⟨.int32, a.shape, [], vs, [], [], []⟩
  | .int64 a, m => ∃ vs, Holds a vs ∧ m = ⟨.int64, a.shape, [], [], vs, [], []⟩
  | .float32 a, m => ∃ vs, Holds a vs ∧ m = ⟨.float32, a.shape, [], [], [], vs, []⟩
  | .float64 a, m => ∃ vs, Holds a vs ∧ m = ⟨.float64, a.shape, [], [], [], [], vs⟩
  | .bytes a, m => ∃ vs, Holds a vs ∧ m = ⟨.bytes, a.shape, vs, [], [], [], []⟩
  | .other _ a, m => ∃ vs, Holds ⟨a.shape, fun ix => (a.entry ix).toUTF8⟩ vs ∧ m = ⟨.bytes, a.shape, vs, [], [], [], []⟩

/-- Equal arrays of numbers of the same type. -/
def SameNumbers : NArray → NArray → Prop
  | .int32 a, .int32 b => SameArray a b
  | .int64 a, .int64 b => SameArray a b
  | .float32 a, .float32 b => SameArray a b
  | .float64 a, .float64 b => SameArray a b
  | _, _ => False

/-- Arrays of the four types of numbers that have a field. -/
def Numeric : NArray → Prop
  | .bytes _ => False
  | .other _ _ => False
  | _ => True

/-! ### flattening -/

private theorem length_flatMap_range (n k : ℕ) (f : ℕ → List α) (h : ∀ i, (f i).length = k) :
    ((List.range n).flatMap f).length = n * k := by
  induction n with
  | zero => simp
  | succ n ih =>
    rw [List.range_succ, List.flatMap_append, List.length_append, ih]
    simp [h]
    ring

private theorem get_flatMap_range (n k : ℕ) (f : ℕ → List α) (h : ∀ i, (f i).length = k) (i j : ℕ) (hi : i < n) (hj : j < k) :
    ((List.range n).flatMap f)[i * k + j]? = (f i)[j]? := by
  induction n with
  | zero => omega
  | succ n ih =>
    have hlen := length_flatMap_range n k f h
    rw [List.range_succ, List.flatMap_append]
    by_cases hin : i < n
    · rw [List.getElem?_append_left]
      · exact ih hin
      · rw [hlen]
        calc i * k + j < i * k + k := by omega
          _ = (i + 1) * k := by ring
          _ ≤ n * k := Nat.mul_le_mul_right k hin
    · have e : i = n := by omega
      subst e
      rw [List.getElem?_append_right (by rw [hlen]; omega), hlen]
      simp

private theorem indices_length (s : List ℕ) : (indices s).length = s.prod := by
  induction s with
  | nil => rfl
  | cons n s ih =>
    rw [indices, length_flatMap_range n s.prod _ (fun i => by rw [List.length_map, ih]), List.prod_cons]

private theorem position_lt (s ix : List ℕ) (h : Within s ix) : position s ix < s.prod := by
  unfold Within at h
  induction h with
  | nil => simp [position]
  | @cons i n ix s hi _ ih =>
    simp only [position, List.prod_cons]
    calc i * s.prod + position s ix < i * s.prod + s.prod := by omega
      _ = (i + 1) * s.prod := by ring
      _ ≤ n * s.prod := Nat.mul_le_mul_right _ hi

private theorem indices_get (s ix : List ℕ) (h : Within s ix) : (indices s)[position s ix]? = some ix := by
  unfold Within at h
  induction h with
  | nil => rfl
  | @cons i n ix s hi hrest ih =>
    simp only [position, indices]
    rw [get_flatMap_range n s.prod _ (fun i => by rw [List.length_map, indices_length]) i _ hi (position_lt s ix hrest)]
    simp [ih]

private theorem flatten_holds (a : Nd α) : Holds a a.flatten :=
  ⟨by simp [Nd.flatten, indices_length], fun ix h => by simp [Nd.flatten, indices_get a.shape ix h]⟩

private theorem holds_same (a b : Nd α) (vs : List α) (ha : Holds a vs) (hb : Holds b vs) (hs : a.shape = b.shape) : SameArray a b :=
  ⟨hs, fun ix h => Option.some_injective _ ((ha.2 ix h).symm.trans (by rw [hs]; exact hb.2 ix (hs ▸ h)))⟩

private theorem recodeAll_ok (l vs : List ByteArray) (h : recodeAll l = .ok vs) : vs = l := by
  induction l generalizing vs with
  | nil => simpa [recodeAll] using h.symm
  | cons b l ih =>
    simp only [recodeAll, recode] at h
    by_cases hb : b.data.toList.all fun x => decide (x < 128)
    · rw [if_pos hb] at h
      simp only at h
      cases hr : recodeAll l with
      | error e => simp [hr] at h
      | ok ws =>
        simp only [hr, Except.ok.injEq] at h
        rw [← h, ih ws hr]
    · rw [if_neg hb] at h
      simp at h

private theorem recodeAll_iff (l : List ByteArray) :
    (recodeAll l = .ok l ∧ ∀ b ∈ l, ∀ x ∈ b.data.toList, x < 128) ∨
      (recodeAll l = .error .unicodeError ∧ ∃ b ∈ l, ∃ x ∈ b.data.toList, ¬ x < 128) := by
  induction l with
  | nil => left; exact ⟨rfl, by simp⟩
  | cons b l ih =>
    simp only [recodeAll, recode]
    by_cases hb : b.data.toList.all fun x => decide (x < 128)
    · rw [if_pos hb]
      simp only
      have hb' : ∀ x ∈ b.data.toList, x < 128 := fun x hx => by simpa using List.all_eq_true.1 hb x hx
      rcases ih with ⟨h1, h2⟩ | ⟨h1, b', h2, h3⟩
      · left
        rw [h1]
        refine ⟨rfl, fun b' hb'' => ?_⟩
        rcases List.mem_cons.1 hb'' with rfl | h
        · exact hb'
        · exact h2 b' h
      · right
        rw [h1]
        exact ⟨rfl, b', by simp [h2], h3⟩
    · right
      rw [if_neg hb]
      refine ⟨rfl, b, by simp, ?_⟩
      by_contra hne
      apply hb
      rw [List.all_eq_true]
      intro x hx
      by_contra hx'
      exact hne ⟨x, hx, by simpa using hx'⟩

private theorem mem_flatten (a : Nd α) (x : α) : x ∈ a.flatten ↔ ∃ ix, Within a.shape ix ∧ a.entry ix = x := by
  have hmem : ∀ (s : List ℕ) (ix : List ℕ), ix ∈ indices s ↔ Within s ix := by
    intro s
    induction s with
    | nil =>
      intro ix
      simp only [indices, List.mem_singleton, Within]
      exact ⟨fun h => by subst h; exact .nil, fun h => by cases h; rfl⟩
    | cons n s ih =>
      intro ix
      simp only [indices, List.mem_flatMap, List.mem_range, List.mem_map]
      constructor
      · rintro ⟨i, hi, ix', h1, rfl⟩
        exact .cons hi ((ih ix').1 h1)
      · intro h
        cases h with
        | cons h1 h2 => exact ⟨_, h1, _, (ih _).2 h2, rfl⟩
  simp only [Nd.flatten, List.mem_map, hmem]

/-! ### C158 -/

/-- A written array is in the message as it is: type, shape and each entry at its place; arrays of other types as the texts of their
entries. -/
theorem C158_array (x : NArray) (m : Msg) (h : convertArray x = .ok m) : Faithful x m := by
  cases x with
  | int32 a => simp only [convertArray, Except.ok.injEq] at h; exact ⟨_, flatten_holds a, h.symm⟩
  | int64 a => simp only [convertArray, Except.ok.injEq] at h; exact ⟨_, flatten_holds a, h.symm⟩
  | float32 a => simp only [convertArray, Except.ok.injEq] at h; exact ⟨_, flatten_holds a, h.symm⟩
  | float64 a => simp only [convertArray, Except.ok.injEq] at h; exact ⟨_, flatten_holds a, h.symm⟩
  | bytes a =>
    simp only [convertArray] at h
    cases hr : recodeAll a.flatten with
    | error e => simp [hr] at h
    | ok vs =>
      simp only [hr, Except.ok.injEq] at h
      exact ⟨vs, by rw [recodeAll_ok _ _ hr]; exact flatten_holds a, h.symm⟩
  | other d a =>
    simp only [convertArray, Except.ok.injEq] at h
    refine ⟨_, ?_, h.symm⟩
    have := flatten_holds (⟨a.shape, fun ix => (a.entry ix).toUTF8⟩ : Nd ByteArray)
    simpa [Nd.flatten, Function.comp_def] using this

/-- Every array is written, unless it has bytes that are not ASCII. -/
theorem C158_accepted (x : NArray) :
    (∃ m, convertArray x = .ok m) ↔
      ∀ a, x = .bytes a → ∀ ix, Within a.shape ix → ∀ b ∈ (a.entry ix).data.toList, b < 128 := by
  cases x with
  | bytes a =>
    simp only [convertArray]
    rcases recodeAll_iff a.flatten with ⟨h1, h2⟩ | ⟨h1, b, h2, x, h3, h4⟩
    · rw [h1]
      refine ⟨fun _ a' e ix hix => ?_, fun _ => ⟨_, rfl⟩⟩
      cases e
      exact h2 _ ((mem_flatten a _).2 ⟨ix, hix, rfl⟩)
    · rw [h1]
      refine ⟨fun ⟨m, hm⟩ => by simp at hm, fun h => ?_⟩
      obtain ⟨ix, hix, rfl⟩ := (mem_flatten a b).1 h2
      exact absurd (h a rfl ix hix x h3) h4
  | _ => simp [convertArray]

/-- Arrays of numbers with the same message are equal. -/
theorem C158_apart (x y : NArray) (m : Msg) (hx : Numeric x) (hy : Numeric y) (h : convertArray x = .ok m) (h' : convertArray y = .ok m) :
    SameNumbers x y := by
  have fx := C158_array x m h
  have fy := C158_array y m h'
  cases x <;> cases y <;> simp only [Numeric] at hx hy <;>
    (obtain ⟨vs, hv, e⟩ := fx
     obtain ⟨ws, hw, e'⟩ := fy
     rw [e] at e'
     simp only [Msg.mk.injEq, reduceCtorEq, false_and] at e'
     try
       (obtain ⟨-, hs, e'⟩ := e'
        simp only [true_and, and_true] at e'
        subst e'
        exact holds_same _ _ _ hv hw hs))

/-- A value is written as what it is: structured values as they say, arrays as arrays of any size, texts in UTF-8, numbers as numbers;
what is no number keeps its text. -/
theorem C158_value {P : Type} (v : Value P) (w : Written P) (h : convertValue v = .ok w) :
    match v with
    | .structured p => w = .structured p
    | .bytes b => w = .bytesValue b
    | .text s => w = .bytesValue s.toUTF8
    | .array a => ∃ m, w = .arrayValue m ∧ Faithful a m
    | .number x => w = .doubleValue x
    | .noNumber s => w = .unknownType s.toUTF8 := by
  cases v with
  | array a =>
    simp only [convertValue] at h
    cases hc : convertArray a with
    | error e => simp [hc] at h
    | ok m =>
      simp only [hc, Except.ok.injEq] at h
      exact ⟨m, h.symm, C158_array a m hc⟩
  | _ => simp only [convertValue, Except.ok.injEq] at h; exact h.symm

/-- No value but an array of bytes that are not ASCII stops the writer. -/
theorem C158_value_accepted {P : Type} (v : Value P) (h : ∀ a, v ≠ .array (.bytes a)) : ∃ w, convertValue v = .ok w := by
  cases v with
  | array a =>
    obtain ⟨m, hm⟩ := (C158_accepted a).2 (fun b e => absurd (by rw [e]) (h b))
    exact ⟨.arrayValue m, by simp [convertValue, hm]⟩
  | _ => exact ⟨_, rfl⟩

/-! ### what is lost -/

/-- The types of other arrays are lost: integers of one byte are written as texts, like an array of texts. -/
theorem C158_type_fails (a : Nd String) : convertArray (.other "uint8" a) = convertArray (.other "str" a) ∧
    (NArray.other "uint8" a) ≠ .other "str" a := by
  refine ⟨rfl, fun h => ?_⟩
  simp only [NArray.other.injEq] at h
  exact absurd h.1 (by decide)

/-- A text and its bytes are written alike. -/
theorem C158_text_fails {P : Type} (s : String) : convertValue (P := P) (.text s) = convertValue (.bytes s.toUTF8) ∧
    (Value.text s : Value P) ≠ .bytes s.toUTF8 := ⟨rfl, by simp⟩

/-- One entry that is not ASCII and nothing is written at all. -/
theorem C158_bytes_fails : convertArray (.bytes ⟨[2], fun ix => if ix = [0] then ⟨#[97]⟩ else ⟨#[200]⟩⟩) = .error .unicodeError := by
  decide +kernel

/-- A matrix of two rows and three columns. -/
example : convertArray (.int32 ⟨[2, 3], fun ix => ix.foldl (fun n i => 10 * n + i) 0⟩) =
    .ok ⟨.int32, [2, 3], [], [0, 1, 2, 10, 11, 12], [], [], []⟩ := by decide +kernel
example : Within [2, 3] [1, 2] ∧ position [2, 3] [1, 2] = 5 := ⟨.cons (by decide) (.cons (by decide) .nil), rfl⟩
/-- An array without dimensions has one entry. -/
example : convertArray (.float64 ⟨[], fun _ => .nan⟩) = .ok ⟨.float64, [], [], [], [], [], [.nan]⟩ := by decide +kernel

end ArrayValues
end TFMA
