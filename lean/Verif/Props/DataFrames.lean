import Verif.Model.DataFrames
import Verif.Lemmas.SlicerGen
import Verif.Py.DictLemmas

/-!
# C96: what the data frames of metrics and plots contain
-/

namespace TFMA
namespace DataFrames

/-! ### Specification -/

mutual
/-- The primitive values inside a field, with the names of their innermost fields. -/
def leaves (includeEmpty : Bool) (name : String) : Field → List (String × Option Prim)
  | .scalar v => [(name, some v)]
  | .wrapper v => [(name, some v)]
  | .absent => if includeEmpty then [(name, none)] else []
  | .message fs => leavesOf includeEmpty fs
  | .scalars _ => []
  | .messages _ => []

/-- The primitive values inside a message. -/
def leavesOf (includeEmpty : Bool) : Fields → List (String × Option Prim)
  | .nil => []
  | .cons n f rest => leaves includeEmpty n f ++ leavesOf includeEmpty rest
end

mutual
/-- There is no repeated field inside. -/
def Single : Field → Prop
  | .message fs => SingleIn fs
  | .scalars _ => False
  | .messages _ => False
  | _ => True

/-- There is no repeated field inside. -/
def SingleIn : Fields → Prop
  | .nil => True
  | .cons _ f rest => Single f ∧ SingleIn rest
end

/-- Repeated messages as a list. -/
def Msgs.list : Msgs → List Fields
  | .nil => []
  | .cons m rest => m :: rest.list

/-- A list of named cells that fits in a row. -/
def FitsRow (l : List (String × Option Prim)) : Prop := l ≠ [] ∧ (l.map Prod.fst).Nodup

/-- The rows of a value: one for every message of a table, otherwise one. -/
def valueRows (type : String) : Field → List (List (String × Option Prim))
  | .message (.cons _ (.messages ms) .nil) => ms.list.map (leavesOf false)
  | f => [leaves false type f]

/-- The value is a table, that is a message with nothing but a repeated message without further repeated fields, or it has no
repeated fields at all; no name occurs twice in a row. -/
def Table (type : String) : Field → Prop
  | .message (.cons _ (.messages ms) .nil) => ∀ m ∈ ms.list, SingleIn m ∧ FitsRow (leavesOf false m)
  | f => Single f ∧ FitsRow (leaves false type f)

/-- The field has a value: a message that is set, a primitive other than zero and empty. -/
def HasValue : Field → Prop
  | .absent => False
  | .scalar v => v ≠ .int 0 ∧ v ≠ .num 0 ∧ v ≠ .bool false ∧ v ≠ .bytes [] ∧ v ≠ .text ""
  | .scalars vs => vs ≠ []
  | .messages ms => ms.list ≠ []
  | .wrapper _ => True
  | .message _ => True

/-- A value to be shown: slice, key, type, value. -/
structure Item where
  slice : List (String × Prim)
  key : Field
  type : String
  value : Field

/-- A row: the type of the value, and the named cells of every group. -/
structure Row where
  type : String
  cells : Group → List (String × Option Prim)

/-- The cells that name a slice. -/
def sliceCells (slice : List (String × Prim)) : List (String × Option Prim) :=
  if slice = [] then [("Overall", some (.text ""))] else slice.map fun s => (s.1, some s.2)

/-- The rows of a value to be shown. -/
def Item.rows (includeEmpty : Bool) (x : Item) : List Row :=
  (valueRows x.type x.value).map fun l => ⟨x.type, fun
    | .slices => sliceCells x.slice
    | .keys => leaves includeEmpty "key" x.key
    | .values => l⟩

/-- The value of a slice key. -/
inductive SliceCell : Slicer.SingleSliceKeyProto → String × Prim → Prop
  | float (c : String) (q : ℚ) : SliceCell ⟨c, some (.floatValue q)⟩ (c, .num q)
  | int (c : String) (i : ℤ) : SliceCell ⟨c, some (.int64Value i)⟩ (c, .int i)
  | bytes (c : String) (b : ByteArray) : SliceCell ⟨c, some (.bytesValue b)⟩ (c, .bytes b.toList)

/-- The items of a record with a slice key: in order the fields of its values that have a value. -/
def recordItems (slice : List (String × Prim)) (r : Record) [DecidablePred HasValue] : List Item :=
  r.keysAndValues.flatMap fun kv => (kv.2.toList.filter fun nf => HasValue nf.2).map fun nf => ⟨slice, kv.1, nf.1, nf.2⟩

/-- The record has the given slice as its key, not a cross slice. -/
def HasSlice (r : Record) (slice : List (String × Prim)) : Prop :=
  ∃ ks, r.key = .slice ks ∧ List.Forall₂ SliceCell ks slice

/-- The item fits in rows: different columns of its slice, one name for every part of its key, and a value that is a table. -/
structure Item.Fits (includeEmpty : Bool) (x : Item) : Prop where
  slice : (x.slice.map Prod.fst).Nodup
  single : Single x.key
  key : ((leaves includeEmpty "key" x.key).map Prod.fst).Nodup
  value : Table x.type x.value

instance : DecidablePred HasValue := fun f => by
  cases f with
  | scalars vs => cases vs <;> simp only [HasValue] <;> infer_instance
  | messages ms => cases ms <;> simp only [HasValue, Msgs.list] <;> infer_instance
  | _ => simp only [HasValue] <;> infer_instance

/-! ### Flattening -/

mutual
private theorem flatten_single (e : Bool) (n : String) (f : Field) (h : Single f) (i : ℕ) :
    flatten e n f i = .ok ((leaves e n f).map fun l => (l.1, l.2, i)) := by
  cases f with
  | scalar v => rfl
  | wrapper v => rfl
  | absent => cases e <;> rfl
  | message fs => simpa [flatten, leaves] using flattenFields_single e fs h i
  | scalars vs => exact h.elim
  | messages ms => exact h.elim

private theorem flattenFields_single (e : Bool) (fs : Fields) (h : SingleIn fs) (i : ℕ) :
    flattenFields e fs i = .ok ((leavesOf e fs).map fun l => (l.1, l.2, i)) := by
  cases fs with
  | nil => rfl
  | cons n f rest =>
    simp only [flattenFields, leavesOf, flatten_single e n f h.1 i, flattenFields_single e rest h.2 i, Except.map, List.map_append]
end

/-- The cells of consecutive rows. -/
private def numbered (i : ℕ) : List (List (String × Option Prim)) → List Leaf
  | [] => []
  | r :: rest => (r.map fun l => (l.1, l.2, i)) ++ numbered (i + 1) rest

private theorem flattenMsgs_table (ms : Msgs) (h : ∀ m ∈ ms.list, SingleIn m) (i : ℕ) :
    flattenMsgs false ms i = .ok (numbered i (ms.list.map (leavesOf false))) := by
  match ms with
  | .nil => rfl
  | .cons m rest =>
    simp only [flattenMsgs, flattenFields_single false m (h m (by simp [Msgs.list])) i,
      flattenMsgs_table rest (fun m' hm' => h m' (by simp [Msgs.list, hm'])) (i + 1), Except.map, Msgs.list, List.map_cons, numbered]

private theorem table_cases (type : String) (f : Field) :
    (∃ n ms, f = .message (.cons n (.messages ms) .nil)) ∨
    (valueRows type f = [leaves false type f] ∧ (Table type f ↔ Single f ∧ FitsRow (leaves false type f))) := by
  match f with
  | .message (.cons n (.messages ms) .nil) => exact Or.inl ⟨n, ms, rfl⟩
  | .scalar _ => exact Or.inr ⟨rfl, Iff.rfl⟩
  | .wrapper _ => exact Or.inr ⟨rfl, Iff.rfl⟩
  | .absent => exact Or.inr ⟨rfl, Iff.rfl⟩
  | .scalars _ => exact Or.inr ⟨rfl, Iff.rfl⟩
  | .messages _ => exact Or.inr ⟨rfl, Iff.rfl⟩
  | .message .nil => exact Or.inr ⟨rfl, Iff.rfl⟩
  | .message (.cons _ (.scalar _) _) => exact Or.inr ⟨rfl, Iff.rfl⟩
  | .message (.cons _ (.wrapper _) _) => exact Or.inr ⟨rfl, Iff.rfl⟩
  | .message (.cons _ .absent _) => exact Or.inr ⟨rfl, Iff.rfl⟩
  | .message (.cons _ (.scalars _) _) => exact Or.inr ⟨rfl, Iff.rfl⟩
  | .message (.cons _ (.message _) _) => exact Or.inr ⟨rfl, Iff.rfl⟩
  | .message (.cons _ (.messages _) (.cons _ _ _)) => exact Or.inr ⟨rfl, Iff.rfl⟩

private theorem flatten_table (type : String) (f : Field) (h : Table type f) (i : ℕ) :
    flatten false type f i = .ok (numbered i (valueRows type f)) ∧ ∀ r ∈ valueRows type f, FitsRow r := by
  rcases table_cases type f with ⟨n, ms, rfl⟩ | ⟨h1, h2⟩
  · refine ⟨?_, ?_⟩
    · simp only [flatten, flattenFields, flattenMsgs_table ms (fun m hm => (h m hm).1) i, Except.map, valueRows, List.append_nil]
    · intro r hr
      obtain ⟨m, hm, rfl⟩ := List.mem_map.mp hr
      exact (h m hm).2
  · rw [h2] at h
    rw [h1]
    refine ⟨?_, by simpa using h.2⟩
    rw [flatten_single _ _ _ h.1]
    simp [numbered]

private theorem numbered_last (rows : List (List (String × Option Prim))) (h : ∀ r ∈ rows, r ≠ []) (i : ℕ) :
    rowsEnd i (numbered i rows) = i + rows.length := by
  induction rows generalizing i with
  | nil => rfl
  | cons r rest ih =>
    have hrest := ih (fun r' hr' => h r' (by simp [hr'])) (i + 1)
    simp only [rowsEnd, numbered, List.getLast?_append, List.length_cons] at hrest ⊢
    cases hl : (numbered (i + 1) rest).getLast? with
    | some l =>
      simp only [hl] at hrest
      simp only [Option.some_or]
      omega
    | none =>
      simp only [hl] at hrest
      have hr : rest.length = 0 := by omega
      have hne := h r (by simp)
      obtain ⟨x, hx⟩ : ∃ x, r.getLast? = some x := by
        cases hg : r.getLast? with
        | none => exact absurd (List.getLast?_eq_none_iff.mp hg) hne
        | some x => exact ⟨x, rfl⟩
      simp [List.getLast?_map, hx, hr]

/-! ### Columns -/

/-- The columns of a group. -/
private def Columns.group (c : Columns) : Group → Dict String Cells
  | .slices => c.slices
  | .keys => c.keys
  | .values => c.values

private theorem foldl_push {α : Type} (f : α → String) (g : α → Cells) (l : List α) (d : Dict String Cells) (n : String) :
    (Dict.get? (l.foldl (fun d x => push d (f x) (g x)) d) n).getD [] =
      (Dict.get? d n).getD [] ++ (l.filter fun x => f x = n).flatMap g := by
  induction l generalizing d with
  | nil => simp
  | cons x l ih =>
    rw [List.foldl_cons, ih, push, Dict.get?_set]
    by_cases h : f x = n
    · simp [h]
    · simp [h]

private theorem foldl_push_wf {α : Type} (f : α → String) (g : α → Cells) (l : List α) (d : Dict String Cells) (h : Dict.WF d) :
    Dict.WF (l.foldl (fun d x => push d (f x) (g x)) d) := by
  induction l generalizing d with
  | nil => exact h
  | cons x l ih => exact ih _ (Dict.WF_set h _ _)

/-- The cells of a column, row by row. -/
private def column (T : String) (g : Group) (n : String) : ℕ → List Row → Cells
  | _, [] => []
  | i, r :: rest => (if r.type = T then ((r.cells g).filter fun c => c.1 = n).map fun c => (c.2, i) else []) ++
      column T g n (i + 1) rest

private theorem column_append (T : String) (g : Group) (n : String) (i : ℕ) (a b : List Row) :
    column T g n i (a ++ b) = column T g n i a ++ column T g n (i + a.length) b := by
  induction a generalizing i with
  | nil => simp [column]
  | cons r a ih =>
    simp only [List.cons_append, column, ih, List.length_cons, List.append_assoc]
    congr 3
    omega

private theorem column_other (T : String) (g : Group) (n : String) (i : ℕ) (rows : List Row) (h : ∀ r ∈ rows, r.type ≠ T) :
    column T g n i rows = [] := by
  induction rows generalizing i with
  | nil => rfl
  | cons r rest ih =>
    simp only [column, if_neg (h r (by simp)), List.nil_append]
    exact ih _ (fun r' hr' => h r' (by simp [hr']))

private theorem filter_le_one {l : List (String × Option Prim)} (h : (l.map Prod.fst).Nodup) (n : String) :
    (l.filter fun c => c.1 = n) = [] ∨ ∃ c, (l.filter fun c => c.1 = n) = [c] := by
  induction l with
  | nil => exact Or.inl rfl
  | cons x l ih =>
    rw [List.map_cons, List.nodup_cons] at h
    by_cases hx : x.1 = n
    · refine Or.inr ⟨x, ?_⟩
      rw [List.filter_cons_of_pos (by simp [hx])]
      congr 1
      rw [List.filter_eq_nil_iff]
      intro y hy hyn
      apply h.1
      rw [hx]
      exact List.mem_map.mpr ⟨y, hy, by simpa using hyn⟩
    · rw [List.filter_cons_of_neg (by simp [hx])]
      exact ih h.2

private theorem range_flatMap (c : Option Prim) (i k : ℕ) :
    (List.range k).map (fun j => (c, i + j)) = (List.range k).flatMap fun j => [(c, i + j)] := by
  induction k with
  | zero => rfl
  | succ k ih => simp [List.range_succ, ih]

private theorem column_same (T : String) (g : Group) (n : String) (i : ℕ) (cells : List (String × Option Prim))
    (h : (cells.map Prod.fst).Nodup) (rows : List Row) (hr : ∀ r ∈ rows, r.type = T ∧ r.cells g = cells) :
    column T g n i rows = (cells.filter fun c => c.1 = n).flatMap fun c => repeated c.2 i (i + rows.length) := by
  rcases filter_le_one h n with h0 | ⟨c, h0⟩
  · rw [h0]
    induction rows generalizing i with
    | nil => rfl
    | cons r rest ih =>
      have := hr r (by simp)
      simp only [column, this.1, this.2, h0, if_true, List.map_nil, List.nil_append]
      exact ih _ (fun r' hr' => hr r' (by simp [hr']))
  · rw [h0]
    simp only [List.flatMap_cons, List.flatMap_nil, List.append_nil]
    induction rows generalizing i with
    | nil => simp [column, repeated]
    | cons r rest ih =>
      have := hr r (by simp)
      simp only [column, this.1, this.2, h0, if_true, List.map_cons, List.map_nil]
      rw [ih _ (fun r' hr' => hr r' (by simp [hr']))]
      have e1 : i + 1 + rest.length - (i + 1) = rest.length := by omega
      have e2 : i + (r :: rest).length - i = rest.length + 1 := by simp
      simp only [repeated, e1, e2, List.range_succ_eq_map, List.map_cons, List.map_map, Nat.add_zero]
      simp only [List.cons_append, List.nil_append]
      congr 1
      apply List.map_congr_left
      intro j _
      simp only [Function.comp_apply]
      congr 1
      omega

private theorem column_values (T : String) (n : String) (i : ℕ) (rows : List Row) (hr : ∀ r ∈ rows, r.type = T) :
    column T .values n i rows =
      ((numbered i (rows.map fun r => r.cells .values)).filter fun l => l.1 = n).flatMap fun l => [(l.2.1, l.2.2)] := by
  induction rows generalizing i with
  | nil => rfl
  | cons r rest ih =>
    simp only [column, hr r (by simp), if_true, List.map_cons, numbered, List.filter_append, List.flatMap_append]
    rw [ih _ (fun r' hr' => hr r' (by simp [hr']))]
    congr 1
    generalize r.cells .values = cells
    induction cells with
    | nil => rfl
    | cons c cells ih2 =>
      by_cases hc : c.1 = n
      · simp [hc, ih2]
      · simp [hc, ih2]

/-- The state after the rows: row numbers, and columns with the cells of the rows. -/
private structure Holds (includeEmpty : Bool) (items : List Item) (st : ColumnData × ℕ) : Prop where
  index : st.2 = (items.flatMap (Item.rows includeEmpty)).length
  wf : Dict.WF st.1
  groups : ∀ T c g, Dict.get? st.1 T = some c → Dict.WF (c.group g)
  types : ∀ T, T ∈ Dict.keys st.1 ↔ ∃ x ∈ items, x.type = T
  cells : ∀ T g n, (Dict.get? (((Dict.get? st.1 T).getD {}).group g) n).getD [] =
    column T g n 0 (items.flatMap (Item.rows includeEmpty))

private theorem skipped_iff (f : Field) : skipped f = false ↔ HasValue f := by
  cases f with
  | scalar v => cases v <;> simp [skipped, HasValue]
  | scalars vs => simp [skipped, HasValue]
  | absent => simp [skipped, HasValue]
  | wrapper v => simp [skipped, HasValue]
  | message fs => simp [skipped, HasValue]
  | messages ms => cases ms <;> simp [skipped, HasValue, Msgs.list]

private theorem sliceCells_eq (slice : List (String × Prim)) :
    ((if slice = [] then [("Overall", Prim.text "")] else slice).map fun s => (s.1, some s.2)) = sliceCells slice := by
  unfold sliceCells
  by_cases h : slice = [] <;> simp [h]

private theorem addField_holds (e : Bool) (items : List Item) (st : ColumnData × ℕ) (h : Holds e items st) (x : Item) (hx : x.Fits e)
    (hv : HasValue x.value) :
    ∃ st', addField e x.slice x.key st (x.type, x.value) = .ok st' ∧ Holds e (items ++ [x]) st' := by
  obtain ⟨hf, hfits⟩ := flatten_table x.type x.value hx.value st.2
  have hlast := numbered_last (valueRows x.type x.value) (fun r hr => (hfits r hr).1) st.2
  have hkey := flatten_single e "key" x.key hx.single st.2
  unfold addField
  simp only [(skipped_iff _).mpr hv, Bool.false_eq_true, if_false, hf, hkey, hlast]
  refine ⟨_, rfl, ?_⟩
  have hlen : (x.rows e).length = (valueRows x.type x.value).length := by simp [Item.rows]
  have htype : ∀ r ∈ x.rows e, r.type = x.type := by
    intro r hr
    obtain ⟨l, _, rfl⟩ := List.mem_map.mp hr
    rfl
  refine ⟨?_, Dict.WF_set h.wf _ _, ?_, ?_, ?_⟩
  · rw [List.flatMap_append, List.length_append, ← h.index]
    simp [hlen]
  · intro T c g hc
    rw [Dict.get?_set] at hc
    by_cases hT : x.type = T
    · rw [if_pos hT] at hc
      cases hc
      have hold : ∀ g, Dict.WF (((Dict.get? st.1 x.type).getD {}).group g) := by
        intro g
        cases hg : Dict.get? st.1 x.type with
        | none => cases g <;> exact Dict.WF_nil
        | some c => exact h.groups _ _ _ hg
      cases g
      · exact foldl_push_wf _ _ _ _ (hold .slices)
      · exact foldl_push_wf _ _ _ _ (hold .keys)
      · exact foldl_push_wf _ _ _ _ (hold .values)
    · rw [if_neg hT] at hc
      exact h.groups T c g hc
  · intro T
    rw [Dict.mem_keys_iff]
    simp only [Dict.get?_set]
    by_cases hT : x.type = T
    · simp [hT]
    · rw [if_neg hT, ← Dict.mem_keys_iff, h.types]
      simp [hT]
  · intro T g n
    rw [List.flatMap_append, column_append, Nat.zero_add, ← h.index, ← h.cells, Dict.get?_set]
    simp only [List.flatMap_cons, List.flatMap_nil, List.append_nil]
    by_cases hT : x.type = T
    · subst hT
      rw [if_pos rfl]
      simp only [Option.getD_some]
      cases g with
      | slices =>
        have hcells : ∀ r ∈ x.rows e, r.type = x.type ∧ r.cells .slices = sliceCells x.slice := by
          intro r hr
          obtain ⟨l, _, rfl⟩ := List.mem_map.mp hr
          exact ⟨rfl, rfl⟩
        have hnodup : ((sliceCells x.slice).map Prod.fst).Nodup := by
          unfold sliceCells
          by_cases hs : x.slice = []
          · simp [hs]
          · rw [if_neg hs, List.map_map]; exact hx.slice
        rw [column_same x.type .slices n st.2 _ hnodup _ hcells, hlen]
        simp only [Columns.group]
        rw [foldl_push]
        congr 1
        rw [← sliceCells_eq, List.filter_map, List.flatMap_map]
        rfl
      | keys =>
        have hcells : ∀ r ∈ x.rows e, r.type = x.type ∧ r.cells .keys = leaves e "key" x.key := by
          intro r hr
          obtain ⟨l, _, rfl⟩ := List.mem_map.mp hr
          exact ⟨rfl, rfl⟩
        rw [column_same x.type .keys n st.2 _ hx.key _ hcells, hlen]
        simp only [Columns.group]
        rw [foldl_push]
        congr 1
        rw [List.filter_map, List.flatMap_map]
        rfl
      | values =>
        rw [column_values x.type n st.2 _ htype]
        simp only [Columns.group]
        rw [foldl_push]
        congr 1
        have : (x.rows e).map (fun r => r.cells .values) = valueRows x.type x.value := by
          simp [Item.rows, Function.comp_def]
        rw [this]
    · rw [if_neg hT]
      have : ∀ r ∈ x.rows e, r.type ≠ T := fun r hr => by rw [htype r hr]; exact hT
      rw [column_other T g n _ _ this, List.append_nil]

/-! ### Loops -/

private theorem loop_append {α β : Type} (f : β → α → Except Err β) (b : β) (l l' : List α) :
    loop f b (l ++ l') = match loop f b l with
      | .error e => .error e
      | .ok b' => loop f b' l' := by
  induction l generalizing b with
  | nil => rfl
  | cons a l ih =>
    simp only [List.cons_append, loop]
    cases f b a with
    | error e => rfl
    | ok b' => exact ih b'

private theorem loop_fields (e : Bool) (slice : List (String × Prim)) (key : Field) (fields : List (String × Field))
    (items : List Item) (st : ColumnData × ℕ) (h : Holds e items st)
    (hfit : ∀ nf ∈ fields, HasValue nf.2 → (⟨slice, key, nf.1, nf.2⟩ : Item).Fits e) :
    ∃ st', loop (addField e slice key) st fields = .ok st' ∧
      Holds e (items ++ (fields.filter fun nf => HasValue nf.2).map fun nf => ⟨slice, key, nf.1, nf.2⟩) st' := by
  induction fields generalizing items st with
  | nil => exact ⟨st, rfl, by simpa using h⟩
  | cons nf fields ih =>
    by_cases hv : HasValue nf.2
    · obtain ⟨st1, h1, h2⟩ := addField_holds e items st h ⟨slice, key, nf.1, nf.2⟩ (hfit nf (by simp) hv) hv
      obtain ⟨st2, h3, h4⟩ := ih _ st1 h2 (fun nf' hnf' => hfit nf' (by simp [hnf']))
      refine ⟨st2, ?_, ?_⟩
      · simp only [loop]
        simp only at h1
        rw [h1]
        exact h3
      · rw [List.filter_cons_of_pos (by simpa using hv)]
        simpa using h4
    · have hs : skipped nf.2 = true := by
        cases hs : skipped nf.2 with
        | true => rfl
        | false => exact absurd ((skipped_iff _).mp hs) hv
      obtain ⟨st2, h3, h4⟩ := ih items st h (fun nf' hnf' => hfit nf' (by simp [hnf']))
      refine ⟨st2, ?_, ?_⟩
      · simp only [loop, addField, hs, if_true]
        exact h3
      · rw [List.filter_cons_of_neg (by simpa using hv)]
        exact h4

private theorem loop_pairs (e : Bool) (slice : List (String × Prim)) (kvs : List (Field × Fields))
    (items : List Item) (st : ColumnData × ℕ) (h : Holds e items st)
    (hfit : ∀ kv ∈ kvs, ∀ nf ∈ kv.2.toList, HasValue nf.2 → (⟨slice, kv.1, nf.1, nf.2⟩ : Item).Fits e) :
    ∃ st', loop (fun st kv => loop (addField e slice kv.1) st kv.2.toList) st kvs = .ok st' ∧
      Holds e (items ++ kvs.flatMap fun kv => (kv.2.toList.filter fun nf => HasValue nf.2).map fun nf =>
        ⟨slice, kv.1, nf.1, nf.2⟩) st' := by
  induction kvs generalizing items st with
  | nil => exact ⟨st, rfl, by simpa using h⟩
  | cons kv kvs ih =>
    obtain ⟨st1, h1, h2⟩ := loop_fields e slice kv.1 kv.2.toList items st h (hfit kv (by simp))
    obtain ⟨st2, h3, h4⟩ := ih _ st1 h2 (fun kv' hkv' => hfit kv' (by simp [hkv']))
    refine ⟨st2, ?_, ?_⟩
    · simp only [loop, h1]
      exact h3
    · rw [List.flatMap_cons, ← List.append_assoc]
      exact h4

private theorem sliceColumns_of (r : Record) (slice : List (String × Prim)) (h : HasSlice r slice) :
    sliceColumns r.key = .ok slice := by
  obtain ⟨ks, hk, h⟩ := h
  rw [hk]
  unfold sliceColumns
  clear hk
  induction h with
  | nil => rfl
  | cons h1 _ ih =>
    simp only at ih
    simp only [Slicer.mapE, ih]
    cases h1 <;> rfl

/-- The items of all the records. -/
def allItems : List (Record × List (String × Prim)) → List Item
  | [] => []
  | (r, slice) :: rest => recordItems slice r ++ allItems rest

private theorem loop_records (e : Bool) (rs : List (Record × List (String × Prim))) (items : List Item) (st : ColumnData × ℕ)
    (h : Holds e items st) (hs : ∀ r ∈ rs, HasSlice r.1 r.2) (hfit : ∀ x ∈ allItems rs, x.Fits e) :
    ∃ st', loop (addRecord e) st (rs.map Prod.fst) = .ok st' ∧ Holds e (items ++ allItems rs) st' := by
  induction rs generalizing items st with
  | nil => exact ⟨st, rfl, by simpa [allItems] using h⟩
  | cons rs' rest ih =>
    obtain ⟨r, slice⟩ := rs'
    have hrec := sliceColumns_of r slice (hs (r, slice) (by simp))
    obtain ⟨st1, h1, h2⟩ := loop_pairs e slice r.keysAndValues items st h (by
      intro kv hkv nf hnf hv
      apply hfit
      simp only [allItems, recordItems, List.mem_append, List.mem_flatMap, List.mem_map, List.mem_filter, decide_eq_true_eq]
      exact Or.inl ⟨kv, hkv, nf, ⟨hnf, hv⟩, rfl⟩)
    obtain ⟨st2, h3, h4⟩ := ih _ st1 h2 (fun r' hr' => hs r' (by simp [hr'])) (fun x hx => hfit x (by simp [allItems, hx]))
    refine ⟨st2, ?_, ?_⟩
    · simp only [List.map_cons, loop, addRecord, hrec, h1]
      exact h3
    · simp only [allItems]
      rw [← List.append_assoc]
      exact h4

private theorem mem_column (T : String) (g : Group) (n : String) (i : ℕ) (rows : List Row) (c : Option Prim) (p : ℕ) :
    (c, p) ∈ column T g n i rows ↔ ∃ j r, p = i + j ∧ rows[j]? = some r ∧ r.type = T ∧ (n, c) ∈ r.cells g := by
  induction rows generalizing i with
  | nil => simp [column]
  | cons r rest ih =>
    simp only [column, List.mem_append, ih]
    constructor
    · rintro (h | ⟨j, r', h1, h2, h3⟩)
      · by_cases hT : r.type = T
        · simp only [hT, if_true, List.mem_map, List.mem_filter, decide_eq_true_eq, Prod.mk.injEq] at h
          obtain ⟨x, ⟨h1, h2⟩, h3, h4⟩ := h
          refine ⟨0, r, by omega, rfl, hT, ?_⟩
          rw [← h2, ← h3]
          exact h1
        · simp [hT] at h
      · exact ⟨j + 1, r', by omega, by simpa using h2, h3⟩
    · rintro ⟨j, r', h1, h2, h3, h4⟩
      cases j with
      | zero =>
        simp only [List.getElem?_cons_zero, Option.some.injEq] at h2
        subst h2
        left
        simp only [h3, if_true, List.mem_map, List.mem_filter, decide_eq_true_eq, Prod.mk.injEq]
        exact ⟨(n, c), ⟨h4, rfl⟩, rfl, by omega⟩
      | succ j =>
        right
        exact ⟨j, r', by omega, by simpa using h2, h3, h4⟩

private theorem column_nodup (T : String) (g : Group) (n : String) (i : ℕ) (rows : List Row)
    (h : ∀ r ∈ rows, ((r.cells g).map Prod.fst).Nodup) : ((column T g n i rows).map Prod.snd).Nodup := by
  induction rows generalizing i with
  | nil => simp [column]
  | cons r rest ih =>
    simp only [column, List.map_append]
    refine List.Nodup.append ?_ (ih _ (fun r' hr' => h r' (by simp [hr']))) ?_
    · by_cases hT : r.type = T
      · rcases filter_le_one (h r (by simp)) n with h0 | ⟨c, h0⟩ <;> simp [hT, h0]
      · simp [hT]
    · intro x hx hx'
      have h1 : x = i := by
        by_cases hT : r.type = T
        · simp only [hT, if_true, List.map_map, List.mem_map] at hx
          obtain ⟨y, _, hy⟩ := hx
          exact hy.symm
        · simp [hT] at hx
      obtain ⟨⟨c, p⟩, hc, rfl⟩ := List.mem_map.mp hx'
      obtain ⟨j, _, hj, _⟩ := (mem_column T g n (i + 1) rest c p).mp hc
      simp only at h1
      omega

private theorem find_group (d : Dict String Cells) (g : Group) (n : String) :
    (d.map fun x => (((g, x.1), x.2) : (Group × String) × Cells)).find? (fun c => c.1 = (g, n)) =
      (Dict.get? d n).map fun x => ((g, n), x) := by
  induction d with
  | nil => rfl
  | cons x d ih =>
    obtain ⟨k, v⟩ := x
    rw [Dict.get?_cons, List.map_cons, List.find?_cons]
    by_cases h : k = n
    · subst h; simp
    · simp only [h, Prod.mk.injEq, and_false, decide_false, if_false]
      exact ih

private theorem find_other (d : Dict String Cells) {g g' : Group} (n : String) (hg : g' ≠ g) :
    (d.map fun x => (((g', x.1), x.2) : (Group × String) × Cells)).find? (fun c => c.1 = (g, n)) = none := by
  rw [List.find?_eq_none]
  intro c hc
  obtain ⟨x, _, rfl⟩ := List.mem_map.mp hc
  simp [hg]

private theorem frame_spec (c : Columns) (hwf : ∀ g, Dict.WF (c.group g))
    (hn : ∀ g n, (((Dict.get? (c.group g) n).getD []).map Prod.snd).Nodup) :
    ∃ f, frame c = .ok f ∧ ∀ p g n cell, Frame.cell f p (g, n) = some cell ↔ (cell, p) ∈ (Dict.get? (c.group g) n).getD [] := by
  have hcells : ∀ (g : Group) x, x ∈ c.group g → (x.2.map Prod.snd).Nodup := by
    intro g x hx
    have := hn g x.1
    rw [Dict.get?_of_mem (hwf g) hx] at this
    exact this
  unfold frame
  simp only
  rw [if_pos]
  · refine ⟨_, rfl, ?_⟩
    intro p g n cell
    have hfind : (((c.slices.map fun x => (((Group.slices, x.1), x.2) : (Group × String) × Cells)) ++
        (c.keys.map fun x => ((Group.keys, x.1), x.2)) ++ (c.values.map fun x => ((Group.values, x.1), x.2))).find?
        fun x => x.1 = (g, n)) = (Dict.get? (c.group g) n).map fun x => ((g, n), x) := by
      rw [List.find?_append, List.find?_append]
      cases g with
      | slices => rw [find_group, find_other _ _ (by decide), find_other _ _ (by decide)]; simp [Columns.group]
      | keys => rw [find_group, find_other _ _ (by decide), find_other _ _ (by decide)]; simp [Columns.group]
      | values => rw [find_group, find_other _ _ (by decide), find_other _ _ (by decide)]; simp [Columns.group]
    unfold Frame.cell
    rw [hfind]
    cases hg : Dict.get? (c.group g) n with
    | none => simp
    | some cells =>
      have hnd := hn g n
      rw [hg] at hnd
      simp only [Option.map_some, Option.getD_some] at hnd ⊢
      clear hg hfind
      induction cells with
      | nil => simp
      | cons x cells ih =>
        rw [List.map_cons, List.nodup_cons] at hnd
        rw [List.find?_cons]
        by_cases hx : x.2 = p
        · subst hx
          simp only [decide_true, Option.map_some, Option.some.injEq, List.mem_cons]
          constructor
          · rintro rfl; exact Or.inl rfl
          · rintro (h | h)
            · rw [← h]
            · exact absurd (List.mem_map.mpr ⟨_, h, rfl⟩) hnd.1
        · simp only [hx, decide_false, List.mem_cons]
          refine (ih hnd.2).trans ?_
          constructor
          · exact Or.inr
          · rintro (h | h)
            · exact absurd (by rw [← h]) hx
            · exact h
  · left
    simp only [List.map_append, List.map_map, List.all_append, List.all_map, Bool.and_eq_true, List.all_eq_true, Function.comp_apply,
      decide_eq_true_eq]
    exact ⟨⟨hcells .slices, hcells .keys⟩, hcells .values⟩

private theorem mapE_frames (d : ColumnData) (F : Columns → Frame) (h : ∀ x ∈ d, frame x.2 = .ok (F x.2)) :
    Slicer.mapE (fun x => (frame x.2).map (x.1, ·)) d = .ok (d.map fun x => (x.1, F x.2)) := by
  induction d with
  | nil => rfl
  | cons x d ih =>
    simp only [Slicer.mapE, ih (fun y hy => h y (by simp [hy])), List.map_cons]
    simp only [h x (by simp), Except.map]

private theorem get?_map (d : ColumnData) (F : Columns → Frame) (T : String) :
    Dict.get? (d.map fun x => (x.1, F x.2)) T = (Dict.get? d T).map F := by
  induction d with
  | nil => rfl
  | cons x d ih =>
    obtain ⟨k, v⟩ := x
    rw [List.map_cons, Dict.get?_cons, Dict.get?_cons, ih]
    by_cases h : k = T <;> simp [h]

/-! ### Theorems -/

/-- **C96**: the data frames of records that fit in rows exist, one for every type of value, and together they contain exactly the
rows of the values, numbered in the order of the records: the cell of a row and a column is the part of the slice, of the key or of
the value with the name of the column. -/
theorem C96_cells (includeEmpty : Bool) (rs : List (Record × List (String × Prim))) (hs : ∀ r ∈ rs, HasSlice r.1 r.2)
    (hfit : ∀ x ∈ allItems rs, x.Fits includeEmpty) :
    ∃ dfs, toDataframes includeEmpty (rs.map Prod.fst) = .ok dfs ∧
      (∀ T, T ∈ Dict.keys dfs ↔ ∃ x ∈ allItems rs, x.type = T) ∧
      ∀ T p g n cell, (∃ f, Dict.get? dfs T = some f ∧ Frame.cell f p (g, n) = some cell) ↔
        ∃ row, ((allItems rs).flatMap (Item.rows includeEmpty))[p]? = some row ∧ row.type = T ∧ (n, cell) ∈ row.cells g := by
  have h0 : Holds includeEmpty [] (([] : ColumnData), 0) := by
    refine ⟨rfl, Dict.WF_nil, ?_, ?_, ?_⟩
    · intro T c g h; simp [Dict.get?] at h
    · intro T; simp [Dict.keys]
    · intro T g n; cases g <;> rfl
  obtain ⟨st, h1, h2⟩ := loop_records includeEmpty rs [] _ h0 hs hfit
  rw [List.nil_append] at h2
  have hrows : ∀ r ∈ (allItems rs).flatMap (Item.rows includeEmpty), ∀ g, ((r.cells g).map Prod.fst).Nodup := by
    intro r hr g
    obtain ⟨x, hx, hr⟩ := List.mem_flatMap.mp hr
    have hf := hfit x hx
    obtain ⟨l, hl, rfl⟩ := List.mem_map.mp hr
    cases g with
    | slices =>
      show ((sliceCells x.slice).map Prod.fst).Nodup
      unfold sliceCells
      by_cases hsl : x.slice = []
      · simp [hsl]
      · rw [if_neg hsl, List.map_map]; exact hf.slice
    | keys => exact hf.key
    | values => exact ((flatten_table x.type x.value hf.value 0).2 l hl).2
  have hspec : ∀ T c, Dict.get? st.1 T = some c → ∃ f, frame c = .ok f ∧
      ∀ p g n cell, Frame.cell f p (g, n) = some cell ↔ (cell, p) ∈ column T g n 0 ((allItems rs).flatMap (Item.rows includeEmpty)) := by
    intro T c hc
    have hcells := h2.cells T
    rw [hc] at hcells
    simp only [Option.getD_some] at hcells
    obtain ⟨f, hf1, hf2⟩ := frame_spec c (fun g => h2.groups T c g hc) (by
      intro g n
      rw [hcells]
      exact column_nodup T g n 0 _ (fun r hr => hrows r hr g))
    refine ⟨f, hf1, ?_⟩
    intro p g n cell
    rw [hf2, hcells]
  let F : Columns → Frame := fun c => match frame c with
    | .ok f => f
    | .error _ => []
  have hF : ∀ x ∈ st.1, frame x.2 = .ok (F x.2) := by
    intro x hx
    obtain ⟨f, hf, _⟩ := hspec x.1 x.2 (Dict.get?_of_mem h2.wf hx)
    simp only [F, hf]
  refine ⟨st.1.map fun x => (x.1, F x.2), ?_, ?_, ?_⟩
  · unfold toDataframes
    rw [h1]
    exact mapE_frames st.1 F hF
  · intro T
    rw [← h2.types]
    simp [Dict.keys]
  · intro T p g n cell
    rw [get?_map]
    have hmem := mem_column T g n 0 ((allItems rs).flatMap (Item.rows includeEmpty)) cell p
    constructor
    · rintro ⟨f, hf, hc⟩
      cases hg : Dict.get? st.1 T with
      | none => simp [hg] at hf
      | some c =>
        obtain ⟨f', hf1, hf2⟩ := hspec T c hg
        simp only [hg, Option.map_some, Option.some.injEq, F, hf1] at hf
        subst hf
        obtain ⟨j, r, e1, e2, e3⟩ := hmem.mp ((hf2 p g n cell).mp hc)
        refine ⟨r, ?_, e3⟩
        rw [e1, Nat.zero_add]
        exact e2
    · rintro ⟨r, e1, e2, e3⟩
      have hc := hmem.mpr ⟨p, r, by omega, e1, e2, e3⟩
      cases hg : Dict.get? st.1 T with
      | none =>
        have := h2.cells T g n
        rw [hg] at this
        rw [← this] at hc
        cases g <;> simp [Columns.group, Dict.get?] at hc
      | some c =>
        obtain ⟨f', hf1, hf2⟩ := hspec T c hg
        exact ⟨f', by simp [F, hf1], (hf2 p g n cell).mpr hc⟩

/-- **C96**: data frames are returned exactly if all the types of the values are fields of the result. -/
theorem C96_types (types : List String) (includeEmpty : Bool) (rs : List (Record × List (String × Prim)))
    (hs : ∀ r ∈ rs, HasSlice r.1 r.2) (hfit : ∀ x ∈ allItems rs, x.Fits includeEmpty) :
    ((∀ x ∈ allItems rs, x.type ∈ types) →
      asDataframes types includeEmpty (rs.map Prod.fst) = toDataframes includeEmpty (rs.map Prod.fst)) ∧
    ((∃ x ∈ allItems rs, x.type ∉ types) → asDataframes types includeEmpty (rs.map Prod.fst) = .error .typeError) := by
  obtain ⟨dfs, h1, h2, _⟩ := C96_cells includeEmpty rs hs hfit
  unfold asDataframes
  rw [h1]
  simp only
  constructor
  · intro h
    rw [if_pos]
    rw [List.all_eq_true]
    intro x hx
    obtain ⟨y, hy, hxy⟩ := (h2 x.1).mp (List.mem_map.mpr ⟨x, hx, rfl⟩)
    simpa [← hxy] using h y hy
  · rintro ⟨x, hx, hnot⟩
    rw [if_neg]
    rw [List.all_eq_true]
    intro hall
    obtain ⟨y, hy, hxy⟩ := List.mem_map.mp ((h2 x.type).mpr ⟨x, hx, rfl⟩)
    have := hall y hy
    rw [hxy] at this
    exact hnot (by simpa using this)

/-- The cells of a metric key. -/
private theorem keyField_leaves (k : MetricKeys.MetricKeyPb) (e : Bool) : Single (keyField k) ∧
    ((leaves e "key" (keyField k)).map Prod.fst).Nodup := by
  obtain ⟨n, m, o, s, a, w, d⟩ := k
  constructor
  · rcases s with _ | ⟨_ | _, _ | _, _ | _⟩ <;> rcases a with _ | _ <;> rcases w with _ | _ <;>
      simp [keyField, subKeyField, aggregationField, Fields.ofList, Single, SingleIn]
  · rcases s with _ | ⟨_ | _, _ | _, _ | _⟩ <;> rcases a with _ | _ <;> rcases w with _ | _ <;> cases e <;>
      simp [keyField, subKeyField, aggregationField, Fields.ofList, leaves, leavesOf]

/-- Numbers under metric keys, as they are stored for a slice. -/
def numberRecord (ks : Slicer.SliceKeyProto) (kvs : List (MetricKeys.MetricKeyPb × ℚ)) : Record :=
  ⟨.slice ks, kvs.map fun kv => (keyField kv.1, .ofList [("double_value", .wrapper (.num kv.2)), ("bounded_value", .absent)])⟩

/-- The cells of a row for a number: the slice, the parts of the key, the number. -/
def numberCells (includeEmpty : Bool) (slice : List (String × Prim)) (k : MetricKeys.MetricKeyPb) (v : ℚ) :
    Group → List (String × Option Prim)
  | .slices => sliceCells slice
  | .keys =>
    let int (n : String) (x : Option ℤ) : List (String × Option Prim) := match x with
      | none => if includeEmpty then [(n, none)] else []
      | some i => [(n, some (.int i))]
    [("name", some (.text k.name)), ("model_name", some (.text k.modelName)), ("output_name", some (.text k.outputName))] ++
    (match k.subKey with
      | none => if includeEmpty then [("sub_key", none)] else []
      | some s => int "class_id" s.classId ++ int "k" s.k ++ int "top_k" s.topK) ++
    (match k.aggregationType with
      | none => if includeEmpty then [("aggregation_type", none)] else []
      | some a => [("micro_average", some (.bool (a == .microAvg true))), ("macro_average", some (.bool (a == .macroAvg true))),
        ("weighted_macro_average", some (.bool (a == .weightedMacro true)))]) ++
    (match k.exampleWeighted with
      | none => if includeEmpty then [("example_weighted", none)] else []
      | some b => [("example_weighted", some (.bool b))]) ++ [("is_diff", some (.bool k.isDiff))]
  | .values => [("double_value", some (.num v))]

private theorem number_keys (e : Bool) (k : MetricKeys.MetricKeyPb) (slice : List (String × Prim)) (v : ℚ) :
    leaves e "key" (keyField k) = numberCells e slice k v .keys := by
  obtain ⟨n, m, o, s, a, w, d⟩ := k
  rcases s with _ | ⟨_ | _, _ | _, _ | _⟩ <;> rcases a with _ | _ | (_ | _) | (_ | _) | (_ | _) <;> rcases w with _ | _ <;>
    cases e <;> rfl

/-- **C96** for numbers: row `p` of the frame of numbers is the p-th number of all the records in order, with its slice and the
parts of its key in the columns; there are no further rows and no further cells. -/
theorem C96_numbers (includeEmpty : Bool)
    (rs : List (Slicer.SliceKeyProto × List (String × Prim) × List (MetricKeys.MetricKeyPb × ℚ)))
    (hs : ∀ r ∈ rs, List.Forall₂ SliceCell r.1 r.2.1 ∧ (r.2.1.map Prod.fst).Nodup) :
    ∃ dfs, asDataframes metricTypes includeEmpty (rs.map fun r => numberRecord r.1 r.2.2) = .ok dfs ∧
      (∀ T ∈ Dict.keys dfs, T = "double_value") ∧
      ∀ p g n cell, (∃ f, Dict.get? dfs "double_value" = some f ∧ Frame.cell f p (g, n) = some cell) ↔
        ∃ x, (rs.flatMap fun r => r.2.2.map fun kv => (r.2.1, kv.1, kv.2))[p]? = some x ∧
          (n, cell) ∈ numberCells includeEmpty x.1 x.2.1 x.2.2 g := by
  let rs' : List (Record × List (String × Prim)) := rs.map fun r => (numberRecord r.1 r.2.2, r.2.1)
  have hmap : rs'.map Prod.fst = rs.map fun r => numberRecord r.1 r.2.2 := by simp [rs', Function.comp_def]
  have hitems : allItems rs' = (rs.flatMap fun r => r.2.2.map fun kv => (r.2.1, kv.1, kv.2)).map
      fun x => ⟨x.1, keyField x.2.1, "double_value", .wrapper (.num x.2.2)⟩ := by
    simp only [rs']
    clear hs hmap
    induction rs with
    | nil => rfl
    | cons r rs ih =>
      simp only [List.map_cons, allItems, ih, List.flatMap_cons, List.map_append]
      congr 1
      simp only [recordItems, numberRecord, List.flatMap_map, List.map_map]
      generalize r.2.2 = kvs
      induction kvs with
      | nil => rfl
      | cons kv kvs ih2 =>
        rw [List.flatMap_cons, ih2, List.map_cons]
        simp only [Fields.ofList, Fields.toList]
        have e1 : decide (HasValue (.wrapper (.num kv.2))) = true := decide_eq_true trivial
        have e2 : decide (HasValue .absent) = false := decide_eq_false id
        simp only [List.filter, e1, e2, List.map_cons, List.map_nil, List.cons_append, List.nil_append, Function.comp_apply]
  have hs' : ∀ r ∈ rs', HasSlice r.1 r.2 := by
    intro r hr
    obtain ⟨x, hx, rfl⟩ := List.mem_map.mp hr
    exact ⟨x.1, rfl, (hs x hx).1⟩
  have hfit : ∀ x ∈ allItems rs', x.Fits includeEmpty := by
    intro x hx
    rw [hitems] at hx
    obtain ⟨y, hy, rfl⟩ := List.mem_map.mp hx
    obtain ⟨r, hr, hy⟩ := List.mem_flatMap.mp hy
    obtain ⟨kv, _, rfl⟩ := List.mem_map.mp hy
    exact ⟨(hs r hr).2, (keyField_leaves kv.1 includeEmpty).1, (keyField_leaves kv.1 includeEmpty).2, by
      simp [Table, Single, FitsRow, leaves]⟩
  have htype : ∀ x ∈ allItems rs', x.type = "double_value" := by
    intro x hx
    rw [hitems] at hx
    obtain ⟨y, _, rfl⟩ := List.mem_map.mp hx
    rfl
  obtain ⟨dfs, h1, h2, h3⟩ := C96_cells includeEmpty rs' hs' hfit
  have h4 := (C96_types metricTypes includeEmpty rs' hs' hfit).1 (by
    intro x hx
    rw [htype x hx]
    decide)
  refine ⟨dfs, by rw [← hmap, h4, h1], ?_, ?_⟩
  · intro T hT
    obtain ⟨x, hx, rfl⟩ := (h2 T).mp hT
    exact htype x hx
  · intro p g n cell
    rw [h3]
    have hrows : (allItems rs').flatMap (Item.rows includeEmpty) =
        (rs.flatMap fun r => r.2.2.map fun kv => (r.2.1, kv.1, kv.2)).map
          fun x => (⟨"double_value", numberCells includeEmpty x.1 x.2.1 x.2.2⟩ : Row) := by
      rw [hitems]
      generalize (rs.flatMap fun r => r.2.2.map fun kv => (r.2.1, kv.1, kv.2)) = xs
      induction xs with
      | nil => rfl
      | cons x xs ih =>
        rw [List.map_cons, List.flatMap_cons, ih, List.map_cons]
        simp only [Item.rows, valueRows, List.map_cons, List.map_nil, List.cons_append, List.nil_append, List.cons.injEq, and_true]
        congr 1
        funext g
        cases g
        · rfl
        · exact number_keys includeEmpty x.2.1 x.1 x.2.2
        · rfl
    rw [hrows]
    simp only [List.getElem?_map, Option.map_eq_some_iff]
    constructor
    · rintro ⟨row, ⟨x, hx, rfl⟩, _, hc⟩
      exact ⟨x, hx, hc⟩
    · rintro ⟨x, hx, hc⟩
      exact ⟨_, ⟨x, hx, rfl⟩, rfl, hc⟩

/-- The keys made for metrics: a sub key or aggregation type that is set is not empty. -/
def ProperKey (k : MetricKeys.MetricKeyPb) : Prop :=
  k.subKey ≠ some {} ∧ (∀ a, k.aggregationType = some a → a = .microAvg true ∨ a = .macroAvg true ∨ a = .weightedMacro true)

private theorem key_cells (e : Bool) (k : MetricKeys.MetricKeyPb) (slice : List (String × Prim)) (v : ℚ) :
    let cells := numberCells e slice k v .keys
    (∀ x, ("name", some (Prim.text x)) ∈ cells ↔ x = k.name) ∧
    (∀ x, ("model_name", some (Prim.text x)) ∈ cells ↔ x = k.modelName) ∧
    (∀ x, ("output_name", some (Prim.text x)) ∈ cells ↔ x = k.outputName) ∧
    (∀ x, ("class_id", some (Prim.int x)) ∈ cells ↔ ∃ s, k.subKey = some s ∧ some x = s.classId) ∧
    (∀ x, ("k", some (Prim.int x)) ∈ cells ↔ ∃ s, k.subKey = some s ∧ some x = s.k) ∧
    (∀ x, ("top_k", some (Prim.int x)) ∈ cells ↔ ∃ s, k.subKey = some s ∧ some x = s.topK) ∧
    (("micro_average", some (Prim.bool true)) ∈ cells ↔ k.aggregationType = some (.microAvg true)) ∧
    (("macro_average", some (Prim.bool true)) ∈ cells ↔ k.aggregationType = some (.macroAvg true)) ∧
    (("weighted_macro_average", some (Prim.bool true)) ∈ cells ↔ k.aggregationType = some (.weightedMacro true)) ∧
    (∀ x, ("example_weighted", some (Prim.bool x)) ∈ cells ↔ some x = k.exampleWeighted) ∧
    (∀ x, ("is_diff", some (Prim.bool x)) ∈ cells ↔ x = k.isDiff) := by
  obtain ⟨n, m, o, s, a, w, d⟩ := k
  rcases s with _ | ⟨_ | _, _ | _, _ | _⟩ <;> rcases a with _ | a <;> rcases w with _ | _ <;>
    cases e <;> simp [numberCells]

/-- **C96**: different metric keys differ in the cells of their rows. -/
theorem C96_keys_differ (includeEmpty : Bool) (k k' : MetricKeys.MetricKeyPb) (hk : ProperKey k) (hk' : ProperKey k')
    (slice slice' : List (String × Prim)) (v v' : ℚ)
    (h : ∀ n (cell : Prim), (n, some cell) ∈ numberCells includeEmpty slice k v .keys ↔
      (n, some cell) ∈ numberCells includeEmpty slice' k' v' .keys) :
    k = k' := by
  obtain ⟨a1, a2, a3, a4, a5, a6, a7, a8, a9, a10, a11⟩ := key_cells includeEmpty k slice v
  obtain ⟨b1, b2, b3, b4, b5, b6, b7, b8, b9, b10, b11⟩ := key_cells includeEmpty k' slice' v'
  have c1 := (b1 _).mp ((h _ _).mp ((a1 _).mpr rfl))
  have c2 := (b2 _).mp ((h _ _).mp ((a2 _).mpr rfl))
  have c3 := (b3 _).mp ((h _ _).mp ((a3 _).mpr rfl))
  have c11 := (b11 _).mp ((h _ _).mp ((a11 _).mpr rfl))
  have d4 := fun x => ((a4 x).symm.trans (h _ _)).trans (b4 x)
  have d5 := fun x => ((a5 x).symm.trans (h _ _)).trans (b5 x)
  have d6 := fun x => ((a6 x).symm.trans (h _ _)).trans (b6 x)
  have d7 := (a7.symm.trans (h _ _)).trans b7
  have d8 := (a8.symm.trans (h _ _)).trans b8
  have d9 := (a9.symm.trans (h _ _)).trans b9
  have d10 := fun x => ((a10 x).symm.trans (h _ _)).trans (b10 x)
  have opt : ∀ {α : Type} {x y : Option α}, (∀ a, some a = x ↔ some a = y) → x = y := by
    intro α x y hxy
    cases x with
    | some a => exact (hxy a).mp rfl
    | none => cases y with
      | none => rfl
      | some b => exact ((hxy b).mpr rfl).symm
  have e10 := opt d10
  have e7 : k.aggregationType = k'.aggregationType := by
    cases ha : k.aggregationType with
    | some a =>
      rcases hk.2 a ha with rfl | rfl | rfl
      · exact (d7.mp ha).symm
      · exact (d8.mp ha).symm
      · exact (d9.mp ha).symm
    | none => cases ha' : k'.aggregationType with
      | none => rfl
      | some a =>
        rw [← ha]
        rcases hk'.2 a ha' with rfl | rfl | rfl
        · exact d7.mpr ha'
        · exact d8.mpr ha'
        · exact d9.mpr ha'
  have e4 : k.subKey = k'.subKey := by
    have empty : ∀ s : MetricKeys.SubKeyPb, s.classId = none → s.k = none → s.topK = none → s = {} := by
      rintro ⟨_, _, _⟩ rfl rfl rfl; rfl
    have noneOf : ∀ {x : Option ℤ}, (∀ a, ¬ some a = x) → x = none := by
      intro x hx
      cases x with
      | none => rfl
      | some a => exact absurd rfl (hx a)
    cases hs : k.subKey with
    | none => cases hs' : k'.subKey with
      | none => rfl
      | some s' =>
        exfalso
        apply hk'.1
        rw [hs', empty s' (noneOf fun a ha => ?_) (noneOf fun a ha => ?_) (noneOf fun a ha => ?_)]
        · obtain ⟨s, h1, _⟩ := (d4 a).mpr ⟨s', hs', ha⟩; rw [hs] at h1; cases h1
        · obtain ⟨s, h1, _⟩ := (d5 a).mpr ⟨s', hs', ha⟩; rw [hs] at h1; cases h1
        · obtain ⟨s, h1, _⟩ := (d6 a).mpr ⟨s', hs', ha⟩; rw [hs] at h1; cases h1
    | some s => cases hs' : k'.subKey with
      | none =>
        exfalso
        apply hk.1
        rw [hs, empty s (noneOf fun a ha => ?_) (noneOf fun a ha => ?_) (noneOf fun a ha => ?_)]
        · obtain ⟨s', h1, _⟩ := (d4 a).mp ⟨s, hs, ha⟩; rw [hs'] at h1; cases h1
        · obtain ⟨s', h1, _⟩ := (d5 a).mp ⟨s, hs, ha⟩; rw [hs'] at h1; cases h1
        · obtain ⟨s', h1, _⟩ := (d6 a).mp ⟨s, hs, ha⟩; rw [hs'] at h1; cases h1
      | some s' =>
        simp only [hs, hs', Option.some.injEq, exists_eq_left'] at d4 d5 d6
        obtain ⟨x1, x2, x3⟩ := s
        obtain ⟨y1, y2, y3⟩ := s'
        simp only at d4 d5 d6
        rw [opt d4, opt d5, opt d6]
  obtain ⟨n, m, o, s, a, w, d⟩ := k
  obtain ⟨n', m', o', s', a', w', d'⟩ := k'
  simp only at c1 c2 c3 c11 e10 e7 e4
  rw [c1, c2, c3, c11, e10, e7, e4]

/-- Two slices, several keys. -/
example : (asDataframes metricTypes false [
      numberRecord [⟨"age", some (.int64Value 38)⟩] [({ name := "auc", subKey := some { classId := some 3 } }, 1/2)],
      numberRecord [] [({ name := "auc" }, 1/3), ({ name := "loss", exampleWeighted := some true }, 2)]]).toOption.map (fun dfs =>
    (Dict.get? dfs "double_value").map fun f => [f.cell 0 (.slices, "age"), f.cell 0 (.keys, "class_id"), f.cell 0 (.values, "double_value"),
      f.cell 1 (.slices, "age"), f.cell 1 (.slices, "Overall"), f.cell 2 (.keys, "name"), f.cell 2 (.keys, "example_weighted")]) =
    some (some [some (some (.int 38)), some (some (.int 3)), some (some (.num (1/2))), none, some (some (.text "")),
      some (some (.text "loss")), some (some (.bool true))]) := by
  decide +kernel

/-! ### Values that do not fit -/

/-- A metric whose value is an array. -/
def arrayRecord (shape : List ℤ) (xs : List ℚ) : Record :=
  ⟨.slice [], [(keyField { name := "embedding" }, .ofList [("array_value", .message (.ofList
    [("data_type", .scalar (.int 5)), ("shape", .scalars (shape.map .int)), ("float64_values", .scalars (xs.map .num))]))])]⟩

/-- **C96**: a repeated field of plain values makes no cells, and is accepted only if it is empty or has only empty texts and
bytes. -/
theorem C96_repeated (includeEmpty : Bool) (name : String) (vs : List Prim) (index : ℕ) :
    (∀ l, flatten includeEmpty name (.scalars vs) index = .ok l → l = []) ∧
    ((∃ l, flatten includeEmpty name (.scalars vs) index = .ok l) ↔ ∀ v ∈ vs, v = .text "" ∨ v = .bytes []) := by
  have hone : ∀ v, (∃ u, enumerate v = .ok u) ↔ v = .text "" ∨ v = .bytes [] := by
    intro v
    cases v with
    | text s =>
      by_cases hs : s = ""
      · simp [enumerate, hs]
      · simp [enumerate, hs]
    | bytes b => cases b <;> simp [enumerate]
    | _ => simp [enumerate]
  have hall : (∃ u, enumerateAll vs = .ok u) ↔ ∀ v ∈ vs, v = .text "" ∨ v = .bytes [] := by
    induction vs with
    | nil => simp [enumerateAll]
    | cons v vs ih =>
      rw [List.forall_mem_cons, ← hone, ← ih, enumerateAll]
      cases enumerate v with
      | error e => simp
      | ok u => simp
  rw [← hall]
  unfold flatten
  cases enumerateAll vs with
  | error e => simp [Except.map]
  | ok u => simp [Except.map]

/-- **C96** fails for arrays: the elements of repeated numbers are enumerated themselves, so every array of at least one dimension is a
TypeError, whatever other records there are. -/
theorem C96_arrays_fail (includeEmpty : Bool) (shape : List ℤ) (xs : List ℚ) (h : shape ≠ []) (rest : List Record) :
    asDataframes metricTypes includeEmpty (arrayRecord shape xs :: rest) = .error .typeError := by
  obtain ⟨n, ns, rfl⟩ := List.exists_cons_of_ne_nil h
  rfl

/-- A metric whose value is a list of multi class confusion matrices, given by thresholds and entries. -/
def multiClassRecord (ms : List (ℚ × List (ℤ × ℤ × ℚ))) : Record :=
  ⟨.slice [], [(keyField { name := "multi" }, .ofList [("multi_class_confusion_matrix_at_thresholds", .message (.ofList
    [("matrices", .messages (.ofList (ms.map fun m => .ofList [("threshold", .scalar (.num m.1)),
      ("entries", .messages (.ofList (m.2.map fun x => .ofList [("actual_class_id", .scalar (.int x.1)),
        ("predicted_class_id", .scalar (.int x.2.1)), ("num_weighted_examples", .scalar (.num x.2.2))])))])))]))])]⟩

/-- **C96** fails for multi class confusion matrices: the entries of one matrix and those of the next get the same row numbers. With two
thresholds the data frame cannot be built. -/
theorem C96_multi_class_fails :
    (match asDataframes metricTypes false [multiClassRecord [(1/4, [(0, 0, 1), (0, 1, 2)]), (1/2, [(0, 0, 3)])]] with
      | .error e => some e
      | .ok _ => none) = some .valueError := by
  decide +kernel

/-- Even for one threshold, the threshold is only in the row of the first entry. -/
theorem C96_multi_class_threshold :
    ((asDataframes metricTypes false [multiClassRecord [(1/4, [(0, 0, 1), (0, 1, 2)])]]).toOption.map fun dfs =>
      (Dict.get? dfs "multi_class_confusion_matrix_at_thresholds").map fun f =>
        (f.cell 0 (.values, "threshold"), f.cell 1 (.values, "threshold"), f.cell 1 (.values, "num_weighted_examples"))) =
      some (some (some (some (.num (1/4))), none, some (some (.num 2)))) := by
  decide +kernel

/-- **C96** fails for cross slice keys: the comparison of two slices is shown as a value of the overall slice. -/
theorem C96_cross_slice_as_overall (b c : Slicer.SliceKeyProto) :
    sliceColumns (.cross ⟨b, c⟩) = .ok [] ∧
    ((asDataframes metricTypes false [⟨.cross ⟨[], [⟨"age", some (.int64Value 38)⟩]⟩,
      [(keyField { name := "auc" }, .ofList [("double_value", .wrapper (.num 1))])]⟩]).toOption.map fun dfs =>
      (Dict.get? dfs "double_value").map fun f => (f.cell 0 (.slices, "Overall"), f.cell 0 (.slices, "age"))) =
      some (some (some (some (.text "")), none)) := by
  refine ⟨rfl, ?_⟩
  decide +kernel

/-- A metric whose value is of no known type is stored with an error message; with it no metric can be converted. -/
theorem C96_unknown_type_fails :
    (match asDataframes metricTypes false [numberRecord [] [({ name := "auc" }, 1)],
      ⟨.slice [], [(keyField { name := "custom" }, .ofList [("unknown_type", .message (.ofList
        [("error", .scalar (.text "unknown type")), ("value", .scalar (.bytes []))]))])]⟩] with
      | .error e => some e
      | .ok _ => none) = some .typeError := by
  decide +kernel

end DataFrames
end TFMA
