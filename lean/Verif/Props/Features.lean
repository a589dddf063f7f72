import Verif.Model.Features
import Verif.Py.DictLemmas
import Verif.Props.VarLen
import Verif.Props.EvaluationDicts
import Mathlib.Tactic.Common
import Mathlib.Data.List.Basic

/-!
# C134: features out of record batches
-/

namespace TFMA
namespace Features

open VarLen (VarLenTensorValue)

variable {α G X : Type}

/-! ### specification -/

/-- The column holds features TFMA can read: lists of numbers or texts, other than the serialized input. -/
def Readable (c : Column α) : Prop :=
  c.listLike = true ∧ c.valueType ≠ .other ∧ c.name ≠ "__raw_record__"

instance (c : Column α) : Decidable (Readable c) := by unfold Readable; infer_instance

/-- A representation given under a name no column has is used if it describes a sparse tensor all columns of which are
there. -/
def Complete (cs : List (Column α)) (g : Given G) : Prop :=
  g.kind = .sparse ∧ ∀ n, n = g.valueColumn ∨ n ∈ g.indexColumns → ∃ c ∈ cs, c.name = n

/-- How a tensor of a given representation is stored: sparse tensors as such if the representation says so, and as
variable length rows if it says that; other tensors unchanged. -/
inductive Stored (kind : Kind) : Adapted α → Value α → Prop
  | ragged (v : List α) (s : List (List ℕ)) : Stored kind (.ragged v s) (.ragged v s)
  | dense (r : List (List α)) : Stored kind (.dense r) (.dense r)
  | sparse (v : List α) (i : List (List ℕ)) (s : List ℕ) : kind = .sparse → Stored kind (.sparse v i s) (.sparse v i s)
  | varlen (v : List α) (i : List (List ℕ)) (s : List ℕ) (t : VarLenTensorValue α) : kind = .varlen → t.values = v →
      t.indices.map (fun p => [p.1, p.2]) = i → t.denseShape = s → Stored kind (.sparse v i s) (.varlen t)

/-- All rows are there and have `k` values. -/
def Uniform (rows : List (Option (List α))) (k : ℕ) : Prop := ∀ r ∈ rows, ∃ l, r = some l ∧ l.length = k

/-- `w` is the size of the longest row. -/
def Width (rows : List (Option (List α))) (w : ℕ) : Prop :=
  (∀ r ∈ rows, (r.getD []).length ≤ w) ∧ (w = 0 ∨ ∃ r ∈ rows, (r.getD []).length = w)

/-- What a user expects to find for a column no representation was given for. -/
inductive Holds (rows : List (Option (List α))) : Value α → Prop
  /-- rows of one size: a dense array of them -/
  | dense (l : List (List α)) : rows = l.map some → l ≠ [] → (∃ k, ∀ r ∈ l, r.length = k) → Holds rows (.dense l)
  /-- no row is there: as many None -/
  | missing : rows ≠ [] → (∀ r ∈ rows, r = none) → Holds rows (.objects rows)
  /-- rows of several sizes, some missing: read row by row they come back, a missing one without values -/
  | varlen (t : VarLenTensorValue α) : ¬ (rows ≠ [] ∧ ∀ r ∈ rows, r = none) → ¬ (rows ≠ [] ∧ ∃ k, Uniform rows k) →
      (∃ w, t.denseShape = [rows.length, w] ∧ Width rows w) → t.values = rows.flatMap (fun r => r.getD []) →
      ((∃ r ∈ rows, r.getD [] ≠ []) → VarLen.denseRows t = .ok (rows.map fun r => r.getD [])) →
      Holds rows (.varlen t)

/-! ### lemmas -/

theorem dropLoop_ok (cs : List (Column α)) (kept : List (Column α)) (raw : Option (List α))
    (out : List (Column α) × Option (List α)) (h : dropLoop cs kept raw = .ok out) :
    out.1 = kept ++ cs.filter (fun c => decide (c.name ≠ "__raw_record__") && c.listLike && decide (c.valueType ≠ .other)) := by
  induction cs generalizing kept raw with
  | nil => simp only [dropLoop, Except.ok.injEq] at h; rw [← h]; simp
  | cons c cs ih =>
    unfold dropLoop at h
    by_cases hn : c.name = inputColumn
    · rw [if_pos hn] at h
      split at h
      · rw [ih _ _ h]
        have : decide (c.name ≠ "__raw_record__") = false := by simpa [inputColumn] using hn
        rw [List.filter_cons, this]
        rfl
      · cases h
    · rw [if_neg hn] at h
      have hd : decide (c.name ≠ "__raw_record__") = true := by simpa [inputColumn] using hn
      have hs : isSupported c.valueType = decide (c.valueType ≠ .other) := by
        cases c.valueType <;> decide
      rw [hs] at h
      split at h
      · rename_i hc
        rw [ih _ _ h, List.filter_cons, hd, Bool.true_and, if_pos hc]
        simp
      · rename_i hc
        rw [ih _ _ h, List.filter_cons, hd, Bool.true_and, if_neg hc]

theorem unique_length_one (l : List (Option ℕ)) :
    (unique l).length = 1 ↔ ∃ x, l ≠ [] ∧ ∀ y ∈ l, y = x := by
  constructor
  · intro h
    cases l with
    | nil => simp [unique] at h
    | cons x xs =>
      refine ⟨x, by simp, ?_⟩
      simp only [unique, List.length_cons, Nat.add_eq_right, List.length_eq_zero_iff] at h
      have key : ∀ (zs : List (Option ℕ)) z, z ∈ zs → z ∈ unique zs := by
        intro zs
        induction zs with
        | nil => simp
        | cons a as ih =>
          intro z hz
          simp only [unique, List.mem_cons, List.mem_filter, decide_eq_true_eq]
          by_cases hza : z = a
          · exact Or.inl hza
          · exact Or.inr ⟨ih z (by simpa [hza] using hz), hza⟩
      intro y hy
      rw [List.mem_cons] at hy
      rcases hy with hy | hy
      · exact hy
      · by_contra hne
        have : y ∈ (unique xs).filter (· ≠ x) := by
          rw [List.mem_filter]; exact ⟨key xs y hy, by simpa using hne⟩
        rw [h] at this; simp at this
  · rintro ⟨x, hne, hall⟩
    have key : ∀ (zs : List (Option ℕ)) z, z ∈ unique zs → z ∈ zs := by
      intro zs
      induction zs with
      | nil => simp [unique]
      | cons a as ih =>
        intro z hz
        simp only [unique, List.mem_cons, List.mem_filter] at hz ⊢
        rcases hz with hz | hz
        · exact Or.inl hz
        · exact Or.inr (ih z hz.1)
    cases l with
    | nil => exact absurd rfl hne
    | cons a as =>
      have ha : a = x := hall a (by simp)
      have : (unique as).filter (· ≠ a) = [] := by
        rw [List.filter_eq_nil_iff]
        intro z hz
        have := hall z (by simp [key as z hz])
        simp [this, ha]
      rw [unique, List.length_cons, this]
      rfl

theorem flatten_eq (rows : List (Option (List α))) :
    flatten rows = (rows.map fun r => r.getD []).flatten := by
  simp [flatten, List.flatMap_def]

theorem pairs_positions (rows : List (Option (List α))) (i : ℕ) :
    pairs (positions i rows) = .ok (VarLen.specIndices i (rows.map fun r => r.getD [])) := by
  have app : ∀ (a : List (ℕ × ℕ)) (b : List (List ℕ)) (c : List (ℕ × ℕ)), pairs b = .ok c →
      pairs (a.map (fun p => [p.1, p.2]) ++ b) = .ok (a ++ c) := by
    intro a b c hb
    induction a with
    | nil => simpa using hb
    | cons p a ih => simp only [List.map_cons, List.cons_append, pairs, ih]
  induction rows generalizing i with
  | nil => rfl
  | cons r rows ih =>
    simp only [positions, List.map_cons, VarLen.specIndices]
    have := app (VarLen.rowIndices i (r.getD []).length) _ _ (ih (i + 1))
    simp only [VarLen.rowIndices, List.map_map] at this ⊢
    exact this

theorem longest_width (rows : List (Option (List α))) : Width rows (longest rows) := by
  induction rows with
  | nil => exact ⟨by simp, .inl rfl⟩
  | cons r rs ih =>
    unfold longest
    refine ⟨fun x hx => ?_, ?_⟩
    · rcases List.mem_cons.1 hx with rfl | hx
      · exact Nat.le_max_left _ _
      · exact Nat.le_trans (ih.1 x hx) (Nat.le_max_right _ _)
    · rcases Nat.le_total (longest rs) (r.getD []).length with h | h
      · rw [Nat.max_eq_left h]
        exact .inr ⟨r, by simp, rfl⟩
      · rw [Nat.max_eq_right h]
        rcases ih.2 with h0 | ⟨x, hx, h0⟩
        · exact .inl h0
        · exact .inr ⟨x, by simp [hx], h0⟩

/-- the variable length representation TFMA picks yields the tensor of the rows. -/
theorem varlen_value (rows : List (Option (List α))) :
    ∃ t, toVarlen (flatten rows) (positions 0 rows) [rows.length, longest rows] = .ok (.varlen t) ∧
      (∃ w, t.denseShape = [rows.length, w] ∧ Width rows w) ∧ t.values = rows.flatMap (fun r => r.getD []) ∧
      ((∃ r ∈ rows, r.getD [] ≠ []) → VarLen.denseRows t = .ok (rows.map fun r => r.getD [])) := by
  obtain ⟨t, m, h1, h2, h3, _, _, h4⟩ :=
    VarLen.C14_encode (rows.map fun r => (⟨1, r.getD []⟩ : VarLen.Row α)) (by simp)
  have hdata : (rows.map fun r => (⟨1, r.getD []⟩ : VarLen.Row α)).map VarLen.Row.data = rows.map fun r => r.getD [] := by
    simp
  rw [hdata] at h2 h4
  have hgood : VarLen.anyBad (VarLen.specIndices 0 (rows.map fun r => r.getD [])) = false :=
    VarLen.anyBad_of_pairwise _ (VarLen.specIndices_pairwise 0 _)
  refine ⟨⟨flatten rows, VarLen.specIndices 0 (rows.map fun r => r.getD []), [rows.length, longest rows]⟩, ?_,
    ⟨_, rfl, longest_width rows⟩, rfl, ?_⟩
  · unfold toVarlen
    rw [if_neg (by simp), pairs_positions]
    simp [VarLen.new, hgood]
  · rintro ⟨r, hr, hne⟩
    obtain ⟨t', e1, e2⟩ := VarLen.C14_round_trip_partial
      (rows.map fun r => (⟨1, r.getD []⟩ : VarLen.Row α)) (by simp) ⟨⟨1, r.getD []⟩, by simp; exact ⟨r, hr, rfl⟩, hne⟩
    rw [h1] at e1
    obtain rfl := Except.ok.inj e1
    rw [hdata] at e2
    rw [← e2]
    simp only [VarLen.denseRows, h4, h3, List.headD_cons, List.length_map]
    have step : ∀ n o, VarLen.denseRowsFrom (⟨flatten rows, VarLen.specIndices 0 (rows.map fun r => r.getD []),
        [rows.length, longest rows]⟩ : VarLenTensorValue α) o n = VarLen.denseRowsFrom t o n := by
      intro n
      induction n with
      | zero => intro o; rfl
      | succ n ih =>
        intro o
        have : VarLen.denseRow (⟨flatten rows, VarLen.specIndices 0 (rows.map fun r => r.getD []),
          [rows.length, longest rows]⟩ : VarLenTensorValue α) o = VarLen.denseRow t o := by
          unfold VarLen.denseRow
          rw [h4, h2, flatten_eq]
        unfold VarLen.denseRowsFrom
        rw [this]
        simp only [ih]
    rw [step]

theorem default_cases (c : Column α) :
    (∃ v, (defaultFor c : Value α ⊕ Rep G) = .inl v ∧ Holds c.rows v) ∨
    (∃ r, (defaultFor c : Value α ⊕ Rep G) = .inr r ∧ ∀ (a : Adapter G α) (batch : List (Column α)),
      column? batch c.name = some c → build a batch r = .ok () ∧
        ∃ t v, convert a batch r = .ok t ∧ toValue r.kind t = .ok v ∧ Holds c.rows v) := by
  unfold defaultFor
  by_cases hu : (unique (lengths c)).length = 1
  · rw [if_neg (by simpa using hu)]
    rw [unique_length_one] at hu
    obtain ⟨x, hne, hall⟩ := hu
    have hrows : c.rows ≠ [] := by
      intro e; apply hne; simp [lengths, e]
    have hx : ∀ r ∈ c.rows, r.map List.length = x := fun r hr => hall _ (by
      simp only [lengths, List.mem_map]; exact ⟨r, hr, rfl⟩)
    by_cases hs : c.rows.all Option.isSome
    · rw [if_pos hs]
      refine Or.inr ⟨_, rfl, fun a batch hb => ⟨rfl, .dense (c.rows.map fun r => r.getD []),
        .dense (c.rows.map fun r => r.getD []), ?_, rfl, ?_⟩⟩
      · simp [convert, hb]
      · rw [List.all_eq_true] at hs
        refine .dense _ ?_ (by simpa using hrows) ?_
        · rw [List.map_map]
          conv_lhs => rw [← List.map_id c.rows]
          refine List.map_congr_left fun r hr => ?_
          have := hs r hr
          cases r with
          | none => simp at this
          | some l => rfl
        · obtain ⟨r0, hr0⟩ := List.exists_mem_of_ne_nil _ hrows
          cases x with
          | none =>
            have h1 := hx r0 hr0
            have h2 := hs r0 hr0
            cases r0 with
            | none => simp at h2
            | some l => simp at h1
          | some k =>
            refine ⟨k, fun l hl => ?_⟩
            rw [List.mem_map] at hl
            obtain ⟨r, hr, rfl⟩ := hl
            have h1 := hx r hr
            cases r with
            | none => simp at h1
            | some l => simpa using h1
    · rw [if_neg hs]
      refine Or.inl ⟨_, rfl, .missing hrows ?_⟩
      rw [List.all_eq_true] at hs
      push Not at hs
      obtain ⟨r0, hr0, hn0⟩ := hs
      have hn : r0 = none := by cases r0 with
        | none => rfl
        | some l => simp at hn0
      have hx0 : x = none := by rw [← hx r0 hr0, hn]; rfl
      intro r hr
      have := hx r hr
      rw [hx0] at this
      cases r with
      | none => rfl
      | some l => simp at this
  · rw [if_pos (by simpa using hu)]
    rw [unique_length_one] at hu
    push Not at hu
    obtain ⟨t, h1, h2, h3, h4⟩ := varlen_value c.rows
    refine Or.inr ⟨_, rfl, fun a batch hb => ⟨rfl,
      .sparse (flatten c.rows) (positions 0 c.rows) [c.rows.length, longest c.rows], .varlen t, ?_, ?_, ?_⟩⟩
    · simp [convert, hb]
    · exact h1
    · refine .varlen t ?_ ?_ h2 h3 h4
      · rintro ⟨hne, hall⟩
        obtain ⟨y, hy, hyn⟩ := hu none (by simpa [lengths] using hne)
        simp only [lengths, List.mem_map] at hy
        obtain ⟨r, hr, rfl⟩ := hy
        exact hyn (by rw [hall r hr]; rfl)
      · rintro ⟨hne, k, hall⟩
        obtain ⟨y, hy, hyn⟩ := hu (some k) (by simpa [lengths] using hne)
        simp only [lengths, List.mem_map] at hy
        obtain ⟨r, hr, rfl⟩ := hy
        obtain ⟨l, rfl, hl⟩ := hall r hr
        exact hyn (by simp [hl])

/-- what the loops decide about a name. -/
def planOf (batch : List (Column α)) (reps : Dict String (Given G)) (k : String) : Option (Value α ⊕ Rep G) :=
  match column? batch k with
  | some c => match Dict.get? reps k with
    | some g => some (.inr (.given g))
    | none => some (defaultFor c)
  | none => match Dict.get? reps k with
    | some g => if complete batch g then some (.inr (.given g)) else none
    | none => none

theorem column?_cons (c : Column α) (cs : List (Column α)) (k : String) :
    column? (c :: cs) k = if c.name = k then some c else column? cs k := by
  unfold column?
  rw [List.find?_cons]
  by_cases h : c.name = k <;> simp [h]

theorem column?_none_of (cs : List (Column α)) (k : String) (h : k ∉ cs.map Column.name) : column? cs k = none := by
  unfold column?
  rw [List.find?_eq_none]
  intro c hc
  simp only [decide_eq_true_eq]
  rintro rfl
  exact h (List.mem_map_of_mem hc)

theorem column?_mem (cs : List (Column α)) (hn : (cs.map Column.name).Nodup) (c : Column α) (hc : c ∈ cs) :
    column? cs c.name = some c := by
  induction cs with
  | nil => cases hc
  | cons a cs ih =>
    rw [column?_cons]
    rw [List.map_cons, List.nodup_cons] at hn
    rw [List.mem_cons] at hc
    rcases hc with rfl | hc
    · rw [if_pos rfl]
    · rw [if_neg, ih hn.2 hc]
      intro e
      exact hn.1 (by rw [e]; exact List.mem_map_of_mem hc)

theorem column?_some (cs : List (Column α)) (k : String) (c : Column α) (h : column? cs k = some c) :
    c ∈ cs ∧ c.name = k := by
  unfold column? at h
  exact ⟨List.mem_of_find?_eq_some h, by simpa using List.find?_some h⟩

theorem columnLoop_spec (cs : List (Column α)) (hn : (cs.map Column.name).Nodup) (f : Dict String (Value α))
    (u : Dict String (Rep G)) (l : Dict String (Given G)) (k : String) :
    Dict.get? (columnLoop cs f u l).1 k = (match column? cs k with
      | some c => (match Dict.get? l k with
        | some _ => Dict.get? f k
        | none => match (defaultFor c : Value α ⊕ Rep G) with
          | .inl v => some v
          | .inr _ => Dict.get? f k)
      | none => Dict.get? f k) ∧
    Dict.get? (columnLoop cs f u l).2.1 k = (match column? cs k with
      | some c => (match Dict.get? l k with
        | some g => some (.given g)
        | none => match (defaultFor c : Value α ⊕ Rep G) with
          | .inl _ => Dict.get? u k
          | .inr r => some r)
      | none => Dict.get? u k) ∧
    Dict.get? (columnLoop cs f u l).2.2 k = (match column? cs k with
      | some _ => none
      | none => Dict.get? l k) := by
  induction cs generalizing f u l with
  | nil => exact ⟨rfl, rfl, rfl⟩
  | cons c cs ih =>
    rw [List.map_cons, List.nodup_cons] at hn
    rw [column?_cons]
    by_cases hk : c.name = k
    · subst hk
      have hcol : column? cs c.name = none := column?_none_of cs _ hn.1
      simp only [if_true]
      unfold columnLoop
      cases hg : Dict.get? l c.name with
      | some g =>
        obtain ⟨h1, h2, h3⟩ := ih hn.2 f (Dict.set u c.name (.given g)) (Dict.del l c.name)
        rw [hcol] at h1 h2 h3
        refine ⟨h1, ?_, ?_⟩
        · simp only [h2, Dict.get?_set_self]
        · simp only [h3, Dict.get?_del, if_true]
      | none =>
        cases hd : (defaultFor c : Value α ⊕ Rep G) with
        | inl v =>
          obtain ⟨h1, h2, h3⟩ := ih hn.2 (Dict.set f c.name v) u l
          rw [hcol] at h1 h2 h3
          refine ⟨?_, h2, ?_⟩
          · simp only [h1, Dict.get?_set_self]
          · simp only [h3, hg]
        | inr r =>
          obtain ⟨h1, h2, h3⟩ := ih hn.2 f (Dict.set u c.name r) l
          rw [hcol] at h1 h2 h3
          refine ⟨h1, ?_, ?_⟩
          · simp only [h2, Dict.get?_set_self]
          · simp only [h3, hg]
    · rw [if_neg hk]
      unfold columnLoop
      cases hg : Dict.get? l c.name with
      | some g =>
        have := ih hn.2 f (Dict.set u c.name (.given g)) (Dict.del l c.name)
        rw [Dict.get?_set_ne _ _ hk, Dict.get?_del, if_neg hk] at this
        exact this
      | none =>
        cases hd : (defaultFor c : Value α ⊕ Rep G) with
        | inl v =>
          have := ih hn.2 (Dict.set f c.name v) u l
          rw [Dict.get?_set_ne _ _ hk] at this
          exact this
        | inr r =>
          have := ih hn.2 f (Dict.set u c.name r) l
          rw [Dict.get?_set_ne _ _ hk] at this
          exact this

theorem columnLoop_WF (cs : List (Column α)) (f : Dict String (Value α)) (u : Dict String (Rep G))
    (l : Dict String (Given G)) (hf : Dict.WF f) (hu : Dict.WF u) (hl : Dict.WF l) :
    Dict.WF (columnLoop cs f u l).1 ∧ Dict.WF (columnLoop cs f u l).2.1 ∧ Dict.WF (columnLoop cs f u l).2.2 := by
  induction cs generalizing f u l with
  | nil => exact ⟨hf, hu, hl⟩
  | cons c cs ih =>
    unfold columnLoop
    split
    · exact ih _ _ _ hf (Dict.WF_set hu _ _) (Dict.WF_del hl _)
    · split
      · exact ih _ _ _ (Dict.WF_set hf _ _) hu hl
      · exact ih _ _ _ hf (Dict.WF_set hu _ _) hl

theorem sparseLoop_spec (batch : List (Column α)) (l : Dict String (Given G)) (hl : Dict.WF l)
    (u : Dict String (Rep G)) (k : String) :
    Dict.get? (sparseLoop batch l u) k = match Dict.get? l k with
      | some g => if complete batch g then some (.given g) else Dict.get? u k
      | none => Dict.get? u k := by
  induction l generalizing u with
  | nil => rfl
  | cons p l ih =>
    obtain ⟨n, g⟩ := p
    have hnot : n ∉ Dict.keys l := (List.nodup_cons.1 hl).1
    unfold sparseLoop
    rw [ih (List.nodup_cons.1 hl).2, Dict.get?_cons]
    by_cases hk : n = k
    · subst hk
      rw [(Dict.get?_eq_none_iff l n).2 hnot, if_pos rfl]
      by_cases hc : complete batch g <;> simp [hc]
    · rw [if_neg hk]
      have : Dict.get? (if complete batch g then Dict.set u n (.given g) else u) k = Dict.get? u k := by
        split
        · rw [Dict.get?_set_ne _ _ hk]
        · rfl
      rw [this]

theorem sparseLoop_WF (batch : List (Column α)) (l : Dict String (Given G)) (u : Dict String (Rep G))
    (hu : Dict.WF u) : Dict.WF (sparseLoop batch l u) := by
  induction l generalizing u with
  | nil => exact hu
  | cons p l ih =>
    obtain ⟨n, g⟩ := p
    unfold sparseLoop
    apply ih
    split
    · exact Dict.WF_set hu _ _
    · exact hu

theorem convertAll_spec (a : Adapter G α) (batch : List (Column α)) (u : Dict String (Rep G)) (hu : Dict.WF u)
    (f out : Dict String (Value α)) (h : convertAll a batch u f = .ok out) (k : String) :
    match Dict.get? u k with
    | some r => ∃ t v, convert a batch r = .ok t ∧ toValue r.kind t = .ok v ∧ Dict.get? out k = some v
    | none => Dict.get? out k = Dict.get? f k := by
  induction u generalizing f with
  | nil => simp only [convertAll, Except.ok.injEq] at h; rw [h]; rfl
  | cons p u ih =>
    obtain ⟨n, r⟩ := p
    have hnot : n ∉ Dict.keys u := (List.nodup_cons.1 hu).1
    unfold convertAll at h
    cases hc : convert a batch r with
    | error e => rw [hc] at h; cases h
    | ok t =>
      simp only [hc] at h
      cases hv : toValue r.kind t with
      | error e => rw [hv] at h; cases h
      | ok v =>
        simp only [hv] at h
        have := ih (List.nodup_cons.1 hu).2 _ h
        rw [Dict.get?_cons]
        by_cases hk : n = k
        · subst hk
          rw [(Dict.get?_eq_none_iff u n).2 hnot] at this
          rw [if_pos rfl]
          exact ⟨t, v, hc, hv, by rw [this, Dict.get?_set_self]⟩
        · rw [if_neg hk]
          rw [Dict.get?_set_ne _ _ hk] at this
          exact this

theorem convertAll_WF (a : Adapter G α) (batch : List (Column α)) (u : Dict String (Rep G))
    (f out : Dict String (Value α)) (hf : Dict.WF f) (h : convertAll a batch u f = .ok out) : Dict.WF out := by
  induction u generalizing f with
  | nil => simp only [convertAll, Except.ok.injEq] at h; rw [← h]; exact hf
  | cons p u ih =>
    obtain ⟨n, r⟩ := p
    unfold convertAll at h
    split at h
    · cases h
    · split at h
      · cases h
      · exact ih _ (Dict.WF_set hf _ _) h

theorem buildAll_ok (a : Adapter G α) (batch : List (Column α)) (u : Dict String (Rep G))
    (h : ∀ p ∈ u, build a batch p.2 = .ok ()) : buildAll a batch u = .ok () := by
  induction u with
  | nil => rfl
  | cons p u ih =>
    obtain ⟨n, r⟩ := p
    unfold buildAll
    rw [h (n, r) (by simp)]
    exact ih fun q hq => h q (by simp [hq])

theorem convertAll_ok (a : Adapter G α) (batch : List (Column α)) (u : Dict String (Rep G))
    (h : ∀ p ∈ u, ∃ t v, convert a batch p.2 = .ok t ∧ toValue p.2.kind t = .ok v) (f : Dict String (Value α)) :
    ∃ out, convertAll a batch u f = .ok out := by
  induction u generalizing f with
  | nil => exact ⟨f, rfl⟩
  | cons p u ih =>
    obtain ⟨n, r⟩ := p
    obtain ⟨t, v, h1, h2⟩ := h (n, r) (by simp)
    unfold convertAll
    simp only at h1 h2
    simp only [h1, h2]
    exact ih (fun q hq => h q (by simp [hq])) _

/-- the representations handed to the adapter. -/
theorem updated_spec (batch : List (Column α)) (hn : (batch.map Column.name).Nodup) (reps : Dict String (Given G))
    (hr : Dict.WF reps) (k : String) :
    Dict.get? (columnLoop batch [] [] reps).1 k = (match planOf batch reps k with
      | some (.inl v) => some v
      | _ => none) ∧
    Dict.get? (sparseLoop batch (columnLoop batch [] [] reps).2.2 (columnLoop batch [] [] reps).2.1) k =
      match planOf batch reps k with
      | some (.inr r) => some r
      | _ => none := by
  obtain ⟨h1, h2, h3⟩ := columnLoop_spec batch hn [] [] reps k
  have hwf := (columnLoop_WF batch [] [] reps Dict.WF_nil Dict.WF_nil hr).2.2
  rw [sparseLoop_spec batch _ hwf, h1, h2, h3]
  unfold planOf
  cases hc : column? batch k with
  | none =>
    simp only [Dict.get?_nil]
    cases hg : Dict.get? reps k with
    | none => simp
    | some g =>
      by_cases hcomp : complete batch g <;> simp [hcomp]
  | some c =>
    cases hg : Dict.get? reps k with
    | some g => simp
    | none =>
      cases hd : (defaultFor c : Value α ⊕ Rep G) <;> simp [hd]

/-- the result by name. -/
theorem tensorValues_spec (a : Adapter G α) (batch : List (Column α)) (hn : (batch.map Column.name).Nodup)
    (reps : Dict String (Given G)) (hr : Dict.WF reps) (out : Dict String (Value α))
    (h : tensorValues a batch reps = .ok out) (k : String) :
    Dict.WF out ∧ match planOf batch reps k with
    | none => Dict.get? out k = none
    | some (.inl v) => Dict.get? out k = some v
    | some (.inr r) => ∃ t v, convert a batch r = .ok t ∧ toValue r.kind t = .ok v ∧ Dict.get? out k = some v := by
  obtain ⟨h1, h2⟩ := updated_spec batch hn reps hr k
  have hwf := columnLoop_WF batch [] [] reps Dict.WF_nil Dict.WF_nil hr
  have hu := sparseLoop_WF batch (columnLoop batch [] [] reps).2.2 _ hwf.2.1
  unfold tensorValues at h
  simp only at h
  split at h
  · rename_i hempty
    obtain rfl := Except.ok.inj h
    refine ⟨hwf.1, ?_⟩
    rw [List.isEmpty_iff] at hempty
    rw [hempty] at h2
    cases hp : planOf batch reps k with
    | none => rw [hp] at h1; exact h1
    | some x =>
      cases x with
      | inl v => rw [hp] at h1; exact h1
      | inr r => rw [hp] at h2; simp at h2
  · split at h
    · cases h
    · split at h
      · cases h
      · rename_i f hconv
        obtain rfl := Except.ok.inj h
        refine ⟨convertAll_WF _ _ _ _ _ hwf.1 hconv, ?_⟩
        have h3 := convertAll_spec a batch _ hu _ _ hconv k
        rw [h2, h1] at h3
        cases hp : planOf batch reps k with
        | none => rw [hp] at h3; exact h3
        | some x =>
          cases x with
          | inl v => rw [hp] at h3; exact h3
          | inr r => rw [hp] at h3; exact h3

theorem stored_of (kind : Kind) (t : Adapted α) (v : Value α) (h : toValue kind t = .ok v) : Stored kind t v := by
  cases t with
  | ragged vs s => obtain rfl := Except.ok.inj h; exact .ragged _ _
  | dense r => obtain rfl := Except.ok.inj h; exact .dense _
  | sparse vs i s =>
    cases kind with
    | sparse => obtain rfl := Except.ok.inj h; exact .sparse _ _ _ rfl
    | dense => cases h
    | ragged => cases h
    | varlen =>
      simp only [toValue, toVarlen] at h
      split at h
      · cases h
      · cases hp : pairs i with
        | error e => rw [hp] at h; cases h
        | ok ps =>
          simp only [hp] at h
          unfold VarLen.new at h
          have hps : ps.map (fun p => [p.1, p.2]) = i := by
            have key : ∀ (i : List (List ℕ)) (ps : List (ℕ × ℕ)), pairs i = .ok ps →
                ps.map (fun p => [p.1, p.2]) = i := by
              intro i
              induction i with
              | nil => intro ps h; obtain rfl := Except.ok.inj h; rfl
              | cons x i ih =>
                intro ps h
                match x, h with
                | [], h => simp [pairs] at h
                | [_], h => simp [pairs] at h
                | [a, b], h =>
                  simp only [pairs] at h
                  cases hq : pairs i with
                  | error e => rw [hq] at h; cases h
                  | ok qs =>
                    simp only [hq] at h
                    obtain rfl := Except.ok.inj h
                    simp [ih qs hq]
                | _ :: _ :: _ :: _, h => simp [pairs] at h
            exact key i ps hp
          split at h
          · cases h
          · rename_i hnew
            split at hnew
            · cases hnew
            · split at hnew
              · cases hnew
              · obtain rfl := Except.ok.inj hnew
                obtain rfl := Except.ok.inj h
                exact .varlen _ _ _ _ rfl rfl hps rfl

theorem complete_iff (cs : List (Column α)) (g : Given G) : complete cs g = true ↔ Complete cs g := by
  unfold complete Complete
  rw [Bool.and_eq_true, decide_eq_true_eq, List.all_eq_true]
  refine and_congr Iff.rfl ?_
  constructor
  · intro h n hn
    have := h n (by simp only [List.mem_append, List.mem_singleton]; tauto)
    simpa using this
  · intro h n hn
    simp only [List.mem_append, List.mem_singleton] at hn
    have := h n (by tauto)
    simpa using this

theorem drop_ok (b : List (Column α)) (kept : List (Column α)) (raw : Option (List α))
    (h : dropUnsupported b = .ok (kept, raw)) : kept = b.filter fun c => decide (Readable c) := by
  have := dropLoop_ok b [] none _ h
  simp only [List.nil_append] at this
  rw [this]
  refine List.filter_congr fun c _ => ?_
  by_cases hn : c.name = "__raw_record__"
  · simp [Readable, hn]
  · by_cases hl : c.listLike = true
    · by_cases ht : c.valueType = .other <;> simp [Readable, hn, hl, ht]
    · simp [Readable, hl]

/-- what a successful run did with a record batch. -/
theorem extract_ok (a : Adapter G α) (reps : Dict String (Given G)) (e r e' : Extracts α X) (b : List (Column α))
    (hb : e.batch = some b) (h : extractFeatures a reps e = .ok (r, e')) :
    ∃ raw new, dropUnsupported b = .ok (b.filter fun c => decide (Readable c), raw) ∧
      tensorValues a (b.filter fun c => decide (Readable c)) reps = .ok new ∧
      r = ⟨none, some (Dict.update (e.features.getD []) new), some raw, e.others⟩ ∧
      e' = { e with features := e.features.map fun _ => Dict.update (e.features.getD []) new } := by
  unfold extractFeatures at h
  rw [hb] at h
  simp only at h
  cases hd : dropUnsupported b with
  | error er => rw [hd] at h; cases h
  | ok p =>
    obtain ⟨kept, raw⟩ := p
    simp only [hd] at h
    have hk := drop_ok b kept raw hd
    subst hk
    cases ht : tensorValues a (b.filter fun c => decide (Readable c)) reps with
    | error er => rw [ht] at h; cases h
    | ok new =>
      simp only [ht, Except.ok.injEq, Prod.mk.injEq] at h
      exact ⟨raw, new, rfl, rfl, h.1.symm, by rw [hb]; exact h.2.symm⟩

theorem kept_nodup (b : List (Column α)) (hn : (b.map Column.name).Nodup) :
    ((b.filter fun c => decide (Readable c)).map Column.name).Nodup :=
  hn.sublist (List.filter_sublist.map _)

/-! ### theorems -/

/-- **C134** (columns): every column of numbers or texts becomes a feature holding its rows, if no representation was
given for it: as a dense array if the rows have one size, as variable length rows otherwise; whatever was there under
that name before is replaced. -/
theorem C134_columns (a : Adapter G α) (reps : Dict String (Given G)) (hr : Dict.WF reps) (e r e' : Extracts α X)
    (b : List (Column α)) (hb : e.batch = some b) (hn : (b.map Column.name).Nodup)
    (h : extractFeatures a reps e = .ok (r, e')) (c : Column α) (hc : c ∈ b) (hread : Readable c)
    (hnone : Dict.get? reps c.name = none) :
    ∃ f v, r.features = some f ∧ Dict.get? f c.name = some v ∧ Holds c.rows v := by
  obtain ⟨raw, new, _, ht, rfl, _⟩ := extract_ok a reps e r e' b hb h
  have hmem : c ∈ b.filter fun c => decide (Readable c) := by simp [hc, hread]
  have hcol := column?_mem _ (kept_nodup b hn) c hmem
  obtain ⟨hwf, hs⟩ := tensorValues_spec a _ (kept_nodup b hn) reps hr new ht c.name
  unfold planOf at hs
  rw [hcol, hnone] at hs
  refine ⟨Dict.update (e.features.getD []) new, ?_⟩
  rcases default_cases (G := G) c with ⟨v, hd, hv⟩ | ⟨rep, hd, hv⟩
  · simp only [hd] at hs
    exact ⟨v, rfl, by rw [EvaluationDicts.get?_update _ _ hwf, hs]; rfl, hv⟩
  · simp only [hd] at hs
    obtain ⟨t, v, h1, h2, h3⟩ := hs
    obtain ⟨_, t', v', g1, g2, g3⟩ := hv a _ hcol
    rw [h1] at g1; obtain rfl := Except.ok.inj g1
    rw [h2] at g2; obtain rfl := Except.ok.inj g2
    exact ⟨v, rfl, by rw [EvaluationDicts.get?_update _ _ hwf, h3]; rfl, g3⟩

/-- **C134** (representations): a representation given under the name of a column, or one of a sparse tensor all columns
of which are there, decides what the feature of that name is. -/
theorem C134_representations (a : Adapter G α) (reps : Dict String (Given G)) (hr : Dict.WF reps)
    (e r e' : Extracts α X) (b : List (Column α)) (hb : e.batch = some b) (hn : (b.map Column.name).Nodup)
    (h : extractFeatures a reps e = .ok (r, e')) (k : String) (g : Given G) (hg : Dict.get? reps k = some g)
    (huse : (∃ c ∈ b, Readable c ∧ c.name = k) ∨ Complete (b.filter fun c => decide (Readable c)) g) :
    ∃ f v t, r.features = some f ∧ Dict.get? f k = some v ∧
      a.convert g (b.filter fun c => decide (Readable c)) = .ok t ∧ Stored g.kind t v := by
  obtain ⟨raw, new, _, ht, rfl, _⟩ := extract_ok a reps e r e' b hb h
  obtain ⟨hwf, hs⟩ := tensorValues_spec a _ (kept_nodup b hn) reps hr new ht k
  have hp : planOf (b.filter fun c => decide (Readable c)) reps k = some (.inr (.given g)) := by
    unfold planOf
    cases hcol : column? (b.filter fun c => decide (Readable c)) k with
    | some c => simp only [hg]
    | none =>
      simp only [hg]
      rcases huse with ⟨c, hc, hread, rfl⟩ | hcomp
      · rw [column?_mem _ (kept_nodup b hn) c (by simp [hc, hread])] at hcol; cases hcol
      · rw [if_pos ((complete_iff _ g).2 hcomp)]
  rw [hp] at hs
  obtain ⟨t, v, h1, h2, h3⟩ := hs
  exact ⟨_, v, t, rfl, by rw [EvaluationDicts.get?_update _ _ hwf, h3]; rfl, h1, stored_of _ _ _ h2⟩

/-- **C134** (nothing else): under any other name the features are those that came in; columns of other types, and the
serialized input, are not features. -/
theorem C134_nothing_else (a : Adapter G α) (reps : Dict String (Given G)) (hr : Dict.WF reps)
    (e r e' : Extracts α X) (b : List (Column α)) (hb : e.batch = some b) (hn : (b.map Column.name).Nodup)
    (h : extractFeatures a reps e = .ok (r, e')) (k : String) (hcol : ¬ ∃ c ∈ b, Readable c ∧ c.name = k)
    (hrep : ∀ g, Dict.get? reps k = some g → ¬ Complete (b.filter fun c => decide (Readable c)) g) :
    ∃ f, r.features = some f ∧ Dict.get? f k = Dict.get? (e.features.getD []) k := by
  obtain ⟨raw, new, _, ht, rfl, _⟩ := extract_ok a reps e r e' b hb h
  obtain ⟨hwf, hs⟩ := tensorValues_spec a _ (kept_nodup b hn) reps hr new ht k
  have hp : planOf (b.filter fun c => decide (Readable c)) reps k = none := by
    unfold planOf
    cases hc : column? (b.filter fun c => decide (Readable c)) k with
    | some c =>
      obtain ⟨h1, h2⟩ := column?_some _ _ _ hc
      simp only [List.mem_filter, decide_eq_true_eq] at h1
      exact absurd ⟨c, h1.1, h1.2, h2⟩ hcol
    | none =>
      cases hg : Dict.get? reps k with
      | none => rfl
      | some g =>
        simp only
        rw [if_neg]
        rw [complete_iff]; exact hrep g hg
  rw [hp] at hs
  exact ⟨_, rfl, by rw [EvaluationDicts.get?_update _ _ hwf, hs]; rfl⟩

/-- **C134** (the rest): the record batch is gone, all other extracts are as before, and the input is what the raw column
holds, flattened: None if there is no raw column, whatever the input was before. -/
theorem C134_rest (a : Adapter G α) (reps : Dict String (Given G)) (e r e' : Extracts α X) (b : List (Column α))
    (hb : e.batch = some b) (hn : (b.map Column.name).Nodup) (h : extractFeatures a reps e = .ok (r, e')) :
    r.batch = none ∧ r.others = e.others ∧
      (∀ c ∈ b, c.name = "__raw_record__" → r.input = some (some (c.rows.flatMap fun x => x.getD []))) ∧
      ((∀ c ∈ b, c.name ≠ "__raw_record__") → r.input = some none) := by
  obtain ⟨raw, new, hd, ht, rfl, _⟩ := extract_ok a reps e r e' b hb h
  refine ⟨rfl, rfl, ?_⟩
  clear h hb ht
  simp only [Option.some.injEq]
  unfold dropUnsupported at hd
  have key : ∀ (cs : List (Column α)) (hn : (cs.map Column.name).Nodup) (kept out : List (Column α))
      (raw0 raw : Option (List α)), dropLoop cs kept raw0 = .ok (out, raw) →
      (∀ c ∈ cs, c.name = "__raw_record__" → raw = some (c.rows.flatMap fun x => x.getD [])) ∧
      ((∀ c ∈ cs, c.name ≠ "__raw_record__") → raw = raw0) := by
    intro cs
    induction cs with
    | nil =>
      intro _ kept out raw0 raw h
      simp only [dropLoop, Except.ok.injEq, Prod.mk.injEq] at h
      exact ⟨by simp, fun _ => h.2.symm⟩
    | cons c cs ih =>
      intro hn kept out raw0 raw h
      rw [List.map_cons, List.nodup_cons] at hn
      unfold dropLoop at h
      by_cases hname : c.name = inputColumn
      · rw [if_pos hname] at h
        split at h
        · obtain ⟨_, h2⟩ := ih hn.2 _ _ _ _ h
          have hno : ∀ d ∈ cs, d.name ≠ "__raw_record__" := by
            intro d hd e
            apply hn.1
            rw [hname, show inputColumn = "__raw_record__" from rfl, ← e]
            exact List.mem_map_of_mem hd
          have h3 := h2 hno
          refine ⟨fun d hd hdn => ?_, fun hall => absurd hname (hall c (by simp))⟩
          rw [List.mem_cons] at hd
          rcases hd with rfl | hd
          · exact h3
          · exact absurd hdn (hno d hd)
        · cases h
      · rw [if_neg hname] at h
        have hrec : ∃ kept', dropLoop cs kept' raw0 = .ok (out, raw) := by
          split at h
          · exact ⟨_, h⟩
          · exact ⟨_, h⟩
        obtain ⟨kept', h'⟩ := hrec
        obtain ⟨h1, h2⟩ := ih hn.2 _ _ _ _ h'
        refine ⟨fun d hd hdn => ?_, fun hall => h2 fun d hd => hall d (by simp [hd])⟩
        rw [List.mem_cons] at hd
        rcases hd with rfl | hd
        · exact absurd hdn hname
        · exact h1 d hd hdn
  exact key b hn [] _ none raw hd

/-- **C134** (inputs of their rows): if every row of the raw column holds one serialized example, the inputs are these,
row by row. -/
theorem C134_inputs (a : Adapter G α) (reps : Dict String (Given G)) (e r e' : Extracts α X) (b : List (Column α))
    (hb : e.batch = some b) (hn : (b.map Column.name).Nodup) (h : extractFeatures a reps e = .ok (r, e'))
    (c : Column α) (hc : c ∈ b) (hname : c.name = "__raw_record__") (l : List α) (hl : c.rows = l.map fun x => some [x]) :
    r.input = some (some l) := by
  rw [(C134_rest a reps e r e' b hb hn h).2.2.1 c hc hname, hl]
  simp [List.flatMap_map]

/-- **C134** (without record batch): extracts with features but no record batch pass unchanged; with neither the
extractor fails with ValueError. -/
theorem C134_no_batch (a : Adapter G α) (reps : Dict String (Given G)) (e : Extracts α X) (hb : e.batch = none) :
    (e.features.isSome → extractFeatures a reps e = .ok (e, e)) ∧
      (e.features = none → extractFeatures a reps e = .error .valueError) := by
  unfold extractFeatures
  rw [hb]
  constructor
  · intro hf
    obtain ⟨f, hf⟩ := Option.isSome_iff_exists.1 hf
    rw [hf]
  · intro hf; rw [hf]

/-- **C134** (succeeds): without representations every record batch with distinct column names is accepted, unless its
raw column is not a list of bytes or texts (AssertionError). -/
theorem C134_accepted (a : Adapter G α) (e : Extracts α X) (b : List (Column α)) (hb : e.batch = some b)
    (hn : (b.map Column.name).Nodup) :
    ((∀ c ∈ b, c.name = "__raw_record__" → c.listLike = true ∧ c.valueType = .binaryLike) →
      ∃ out, extractFeatures a [] e = .ok out) ∧
    ((∃ c ∈ b, c.name = "__raw_record__" ∧ ¬ (c.listLike = true ∧ c.valueType = .binaryLike)) →
      extractFeatures a [] e = .error .assertionError) := by
  have hbin : ∀ t, isBinaryLike t = true ↔ t = .binaryLike := by intro t; cases t <;> decide
  constructor
  · intro hraw
    have key : ∀ (cs : List (Column α)) (kept : List (Column α)) (raw : Option (List α)),
        (∀ c ∈ cs, c.name = "__raw_record__" → c.listLike = true ∧ c.valueType = .binaryLike) →
        ∃ out, dropLoop cs kept raw = .ok out := by
      intro cs
      induction cs with
      | nil => intro kept raw _; exact ⟨_, rfl⟩
      | cons c cs ih =>
        intro kept raw hh
        have ih' := fun k r => ih k r fun d hd => hh d (by simp [hd])
        unfold dropLoop
        split
        · rename_i hname
          obtain ⟨h1, h2⟩ := hh c (by simp) hname
          rw [if_pos (by rw [h1, (hbin _).2 h2]; rfl)]
          exact ih' _ _
        · split
          · exact ih' _ _
          · exact ih' _ _
    obtain ⟨⟨kept, raw⟩, hd⟩ := key b [] none hraw
    have hk := drop_ok b kept raw hd
    subst hk
    have hkn := kept_nodup b hn
    have htv : ∃ new, tensorValues a (b.filter fun c => decide (Readable c)) [] = .ok new := by
      unfold tensorValues
      simp only
      split
      · exact ⟨_, rfl⟩
      · have hwf := columnLoop_WF (G := G) (b.filter fun c => decide (Readable c)) [] [] [] Dict.WF_nil Dict.WF_nil
          Dict.WF_nil
        have hu := sparseLoop_WF (b.filter fun c => decide (Readable c))
          (columnLoop (G := G) (b.filter fun c => decide (Readable c)) [] [] []).2.2 _ hwf.2.1
        have hall : ∀ p ∈ sparseLoop (b.filter fun c => decide (Readable c))
            (columnLoop (G := G) (b.filter fun c => decide (Readable c)) [] [] []).2.2
            (columnLoop (G := G) (b.filter fun c => decide (Readable c)) [] [] []).2.1,
            build a (b.filter fun c => decide (Readable c)) p.2 = .ok () ∧
            ∃ t v, convert a (b.filter fun c => decide (Readable c)) p.2 = .ok t ∧ toValue p.2.kind t = .ok v := by
          rintro ⟨k, rep⟩ hp
          have hget := Dict.get?_of_mem hu hp
          rw [(updated_spec _ hkn [] Dict.WF_nil k).2] at hget
          unfold planOf at hget
          cases hcol : column? (b.filter fun c => decide (Readable c)) k with
          | none => simp [hcol] at hget
          | some c =>
            obtain ⟨hcm, rfl⟩ := column?_some _ _ _ hcol
            simp only [hcol, Dict.get?_nil] at hget
            rcases default_cases (G := G) c with ⟨v, hdv, _⟩ | ⟨rep', hdr, hv⟩
            · rw [hdv] at hget; cases hget
            · rw [hdr] at hget
              obtain rfl := Option.some.inj hget
              obtain ⟨h1, t, v, h2, h3, _⟩ := hv a _ hcol
              exact ⟨h1, t, v, h2, h3⟩
        rw [buildAll_ok a _ _ fun p hp => (hall p hp).1]
        obtain ⟨out, ho⟩ := convertAll_ok a _ _ (fun p hp => (hall p hp).2)
          (columnLoop (G := G) (b.filter fun c => decide (Readable c)) [] [] []).1
        simp only [ho]
        exact ⟨_, rfl⟩
    obtain ⟨new, ht⟩ := htv
    unfold extractFeatures
    rw [hb]
    simp only
    rw [show dropUnsupported b = _ from hd]
    simp only [ht]
    exact ⟨_, rfl⟩
  · rintro ⟨c, hc, hname, hbad⟩
    have key : ∀ (cs : List (Column α)) (kept : List (Column α)) (raw : Option (List α)), c ∈ cs →
        dropLoop cs kept raw = .error .assertionError := by
      intro cs
      induction cs with
      | nil => intro _ _ h; cases h
      | cons d cs ih =>
        intro kept raw hm
        rw [List.mem_cons] at hm
        unfold dropLoop
        rcases hm with rfl | hm
        · rw [if_pos (show c.name = inputColumn from hname), if_neg]
          rw [Bool.and_eq_true, hbin]; exact hbad
        · split
          · split
            · exact ih _ _ hm
            · rfl
          · split
            · exact ih _ _ hm
            · exact ih _ _ hm
    unfold extractFeatures
    rw [hb]
    simp only
    rw [show dropUnsupported b = _ from key b [] none hc]

/-- The representation given under the name `k` is used: a column has this name, or it is complete. -/
def Used (b : List (Column α)) (reps : Dict String (Given G)) (k : String) (g : Given G) : Prop :=
  Dict.get? reps k = some g ∧ ((∃ c ∈ b, Readable c ∧ c.name = k) ∨ Complete (b.filter fun c => decide (Readable c)) g)

private theorem plan_used (b : List (Column α)) (hn : (b.map Column.name).Nodup) (reps : Dict String (Given G)) (k : String) (g : Given G) :
    planOf (b.filter fun c => decide (Readable c)) reps k = some (.inr (.given g)) ↔ Used b reps k g := by
  unfold planOf Used
  cases hcol : column? (b.filter fun c => decide (Readable c)) k with
  | some c =>
    obtain ⟨h1, h2⟩ := column?_some _ _ _ hcol
    simp only [List.mem_filter, decide_eq_true_eq] at h1
    cases hg : Dict.get? reps k with
    | some g' =>
      simp only [Option.some.injEq, Sum.inr.injEq, Rep.given.injEq]
      exact ⟨fun h => ⟨h, .inl ⟨c, h1.1, h1.2, h2⟩⟩, fun h => h.1⟩
    | none =>
      simp only [reduceCtorEq, false_and, iff_false]
      unfold defaultFor
      split_ifs <;> simp
  | none =>
    cases hg : Dict.get? reps k with
    | none => simp
    | some g' =>
      by_cases hc : complete (b.filter fun c => decide (Readable c)) g' = true
      · simp only [hc, if_true, Option.some.injEq, Sum.inr.injEq, Rep.given.injEq]
        constructor
        · rintro rfl
          exact ⟨rfl, .inr ((complete_iff _ _).1 hc)⟩
        · exact fun h => h.1
      · simp only [hc, Bool.false_eq_true, if_false, reduceCtorEq, false_iff, not_and, not_or]
        rintro h
        obtain rfl := Option.some.inj h
        refine ⟨?_, fun h' => hc ((complete_iff _ _).2 h')⟩
        rintro ⟨c, hcm, hread, rfl⟩
        have := column?_mem _ (kept_nodup b hn) c (by simp [hcm, hread])
        rw [this] at hcol
        cases hcol

/-- **C134** (errors of representations): an error TFX-BSL raises when it is set up for the representations comes through as it is; an
error raised by the conversion is reported as ValueError. -/
theorem C134_errors (a : Adapter G α) (reps : Dict String (Given G)) (hr : Dict.WF reps) (e : Extracts α X) (b : List (Column α))
    (hb : e.batch = some b) (hn : (b.map Column.name).Nodup)
    (hraw : ∀ c ∈ b, c.name = "__raw_record__" → c.listLike = true ∧ c.valueType = .binaryLike) :
    ((∃ k g er, Used b reps k g ∧ a.build g (b.filter fun c => decide (Readable c)) = .error er) →
      ∃ k g er, Used b reps k g ∧ a.build g (b.filter fun c => decide (Readable c)) = .error er ∧ extractFeatures a reps e = .error er) ∧
    ((∀ k g, Used b reps k g → a.build g (b.filter fun c => decide (Readable c)) = .ok ()) →
      (∃ k g er, Used b reps k g ∧ a.convert g (b.filter fun c => decide (Readable c)) = .error er) →
      extractFeatures a reps e = .error .valueError) := by
  obtain ⟨kept, raw, hd⟩ : ∃ kept raw, dropUnsupported b = .ok (kept, raw) := by
    obtain ⟨out, h⟩ := (C134_accepted a e b hb hn).1 hraw
    obtain ⟨raw, new, h1, -⟩ := extract_ok a [] e out.1 out.2 b hb h
    exact ⟨_, _, h1⟩
  have hk := drop_ok b kept raw hd
  subst hk
  have hkn := kept_nodup b hn
  generalize hkept : (b.filter fun c => decide (Readable c)) = kept at *
  have hwf := columnLoop_WF (G := G) kept [] [] reps Dict.WF_nil Dict.WF_nil hr
  have hu := sparseLoop_WF kept (columnLoop (G := G) kept [] [] reps).2.2 _ hwf.2.1
  generalize hup : sparseLoop kept (columnLoop (G := G) kept [] [] reps).2.2 (columnLoop (G := G) kept [] [] reps).2.1 = u at *
  have hspec : ∀ k, Dict.get? u k = match planOf kept reps k with
      | some (.inr r) => some r
      | _ => none := fun k => hup ▸ (updated_spec kept hkn reps hr k).2
  have hmem : ∀ k g, Used b reps k g → (k, Rep.given g) ∈ u := by
    intro k g h
    have hp := (plan_used b hn reps k g).2 h
    rw [hkept] at hp
    apply Dict.mem_of_get?
    rw [hspec, hp]
  have hrep : ∀ p ∈ u, (∃ g, p.2 = .given g ∧ Used b reps p.1 g) ∨ build a kept p.2 = .ok () := by
    rintro ⟨k, r⟩ hp
    cases r with
    | given g =>
      left
      refine ⟨g, rfl, (plan_used b hn reps k g).1 ?_⟩
      rw [hkept]
      have := Dict.get?_of_mem hu hp
      rw [hspec] at this
      split at this
      · rename_i r hr; cases this; exact hr
      · cases this
    | varlen _ => exact .inr rfl
    | dense _ _ => exact .inr rfl
  have hbuild : ∀ v : Dict String (Rep G), (∀ p ∈ v, p ∈ u) →
      (buildAll a kept v = .ok () ∧ (∀ k g, (k, Rep.given g) ∈ v → a.build g kept = .ok ())) ∨
      ∃ k g er, Used b reps k g ∧ a.build g kept = .error er ∧ buildAll a kept v = .error er := by
    intro v
    induction v with
    | nil => exact fun _ => .inl ⟨rfl, fun _ _ h => by cases h⟩
    | cons p v ih =>
      obtain ⟨k, r⟩ := p
      intro hv
      unfold buildAll
      cases hbr : build a kept r with
      | error er =>
        right
        rcases hrep (k, r) (hv _ (by simp)) with ⟨g, hg, hused⟩ | h
        · simp only at hg
          subst hg
          exact ⟨k, g, er, hused, hbr, rfl⟩
        · simp only at h
          rw [hbr] at h; cases h
      | ok x =>
        rcases ih fun q hq => hv q (by simp [hq]) with ⟨h1, h2⟩ | h
        · refine .inl ⟨h1, fun k' g' hm => ?_⟩
          rcases List.mem_cons.1 hm with hm | hm
          · cases hm; exact hbr
          · exact h2 k' g' hm
        · exact .inr h
  have hrun : ∀ w, tensorValues a kept reps = .error w → extractFeatures a reps e = .error w := by
    intro w hw
    unfold extractFeatures
    rw [hb]
    simp only
    rw [hd]
    simp only [hw]
  have hne : (∃ k g, Used b reps k g) → u.isEmpty = false := by
    rintro ⟨k, g, h⟩
    have := hmem k g h
    cases u with
    | nil => cases this
    | cons _ _ => rfl
  have htv : u.isEmpty = false → tensorValues a kept reps = match buildAll a kept u with
      | .error e => .error e
      | .ok () => match convertAll a kept u (columnLoop kept [] [] reps).1 with
        | .error _ => .error .valueError
        | .ok f => .ok f := by
    intro he
    unfold tensorValues
    simp only [hup, he, Bool.false_eq_true, if_false]
    rfl
  constructor
  · rintro ⟨k, g, er, h1, h2⟩
    rcases hbuild u fun _ h => h with ⟨_, h⟩ | ⟨k', g', er', h3, h4, h5⟩
    · rw [h k g (hmem k g h1)] at h2; cases h2
    · exact ⟨k', g', er', h3, h4, hrun _ (by rw [htv (hne ⟨k, g, h1⟩), h5])⟩
  · rintro hall ⟨k, g, er, h1, h2⟩
    refine hrun _ ?_
    rw [htv (hne ⟨k, g, h1⟩)]
    rcases hbuild u fun _ h => h with ⟨h, hbl⟩ | ⟨k', g', er', h3, h4, _⟩
    · clear hbl
      rw [h]
      have hc : ∀ f, ∃ w, convertAll a kept u f = .error w := by
        have hm := hmem k g h1
        clear hbuild hrep hspec hmem hne htv hup hu h hwf
        revert hm
        induction u with
        | nil => intro hm; cases hm
        | cons p u ih =>
          obtain ⟨k', r'⟩ := p
          intro hm f
          unfold convertAll
          cases hcv : convert a kept r' with
          | error w => exact ⟨w, rfl⟩
          | ok t =>
            simp only
            cases htw : toValue r'.kind t with
            | error w => exact ⟨w, rfl⟩
            | ok v =>
              rcases List.mem_cons.1 hm with hm | hm
              · cases hm
                simp only [convert] at hcv
                rw [h2] at hcv; cases hcv
              · exact ih hm _
      obtain ⟨w, hw⟩ := hc (columnLoop kept [] [] reps).1
      rw [hw]
    · rw [hall k' g' h3] at h4; cases h4

/-- **C134** (incoming extracts, partial): the extracts that came in are unchanged if they had no features.  Missing: if
they had features beside the record batch, the very dictionary they hold is updated (`C134_incoming_changed`), although
the outer dictionary is copied to avoid just this. -/
theorem C134_incoming_partial (a : Adapter G α) (reps : Dict String (Given G)) (e r e' : Extracts α X)
    (h : extractFeatures a reps e = .ok (r, e')) (hf : e.features = none ∨ e.batch = none) : e' = e := by
  cases hb : e.batch with
  | none =>
    unfold extractFeatures at h
    rw [hb] at h
    simp only at h
    split at h
    · simp only [Except.ok.injEq, Prod.mk.injEq] at h; exact h.2.symm
    · cases h
  | some b =>
    obtain ⟨raw, new, _, _, _, rfl⟩ := extract_ok a reps e r e' b hb h
    rcases hf with hf | hf
    · obtain ⟨eb, ef, ei, eo⟩ := e
      simp only at hf
      rw [hf]; rfl
    · rw [hb] at hf; cases hf

/-- **C134** (incoming extracts changed): with features beside the record batch the features of the incoming extracts
are those of the result afterwards. -/
theorem C134_incoming_changed (a : Adapter G α) (reps : Dict String (Given G)) (e r e' : Extracts α X)
    (b : List (Column α)) (hb : e.batch = some b) (hf : e.features.isSome)
    (h : extractFeatures a reps e = .ok (r, e')) : e'.features = r.features ∧ e'.batch = some b := by
  obtain ⟨raw, new, _, _, rfl, rfl⟩ := extract_ok a reps e r e' b hb h
  obtain ⟨f, hf⟩ := Option.isSome_iff_exists.1 hf
  simp [hf, hb]

/-! ### examples -/

/-- no representations are known. -/
private def none' : Adapter Unit String := ⟨fun _ _ => .error .valueError, fun _ _ => .error .valueError⟩

private def batch1 : List (Column String) :=
  [⟨"age", true, .integer, [some ["31"], some ["47"], some ["8"]]⟩,
   ⟨"tags", true, .binaryLike, [some ["a", "b"], none, some ["c"]]⟩,
   ⟨"gone", true, .floating, [none, none, none]⟩,
   ⟨"struct", true, .other, []⟩,
   ⟨"flag", false, .integer, []⟩,
   ⟨"__raw_record__", true, .binaryLike, [some ["x"], some ["y"], some ["z"]]⟩]

private def in1 : Extracts String String :=
  ⟨some batch1, some [("age", .dense [["0"]]), ("mine", .dense [["7"]])], some (some ["old"]), [("metadata", "m")]⟩

/-- the hypotheses of `C134_columns`, `C134_nothing_else`, `C134_rest`, `C134_inputs`, `C134_accepted` and
`C134_incoming_changed` hold together: columns of one size, of several sizes and without any row. -/
example : ∃ r e', extractFeatures none' [] in1 = .ok (r, e') ∧ Dict.WF ([] : Dict String (Given Unit)) ∧
    in1.batch = some batch1 ∧ (batch1.map Column.name).Nodup ∧ in1.features.isSome ∧
    (∀ c ∈ batch1.take 3, Readable c) ∧ (∀ c ∈ batch1.drop 3, ¬ Readable c) ∧
    r.features = some [("age", .dense [["31"], ["47"], ["8"]]), ("mine", .dense [["7"]]),
      ("gone", .objects [none, none, none]),
      ("tags", .varlen ⟨["a", "b", "c"], [(0, 0), (0, 1), (2, 0)], [3, 2]⟩)] ∧
    r.input = some (some ["x", "y", "z"]) := by
  refine ⟨_, _, rfl, Dict.WF_nil, rfl, by decide, rfl, by decide, by decide, rfl, rfl⟩

private def batch2 : List (Column String) := [⟨"a", true, .integer, [some ["1"], some ["2"]]⟩]

/-- a batch without raw column takes the input away. -/
example : ∃ r e', extractFeatures none' [] (⟨some batch2, none, some (some ["p", "q"]), []⟩ : Extracts String Unit) =
    .ok (r, e') ∧ r.input = some none ∧ e'.input = some (some ["p", "q"]) := ⟨_, _, rfl, rfl, rfl⟩

private def batch3 : List (Column String) :=
  [⟨"a", true, .integer, [some ["1"], some ["2"]]⟩, ⟨"__raw_record__", true, .binaryLike, [none, some ["y"]]⟩]

/-- with a missing serialized example the inputs no longer belong to the rows: there is one for two rows, so the
hypothesis of `C134_inputs` is needed. -/
example : ∃ r e', extractFeatures none' [] (⟨some batch3, none, none, []⟩ : Extracts String Unit) =
    .ok (r, e') ∧ r.input = some (some ["y"]) ∧ r.features = some [("a", .dense [["1"], ["2"]])] := ⟨_, _, rfl, rfl, rfl⟩

private def taking : Adapter Unit String :=
  ⟨fun _ _ => .ok (), fun _ _ => .ok (.sparse ["1", "2"] [[0, 5], [1, 9]] [2, 10])⟩

private def sparseRep : Given Unit := ⟨.sparse, ["i"], "v", ()⟩

private def batch4 : List (Column String) :=
  [⟨"i", true, .integer, [some ["5"], some ["9"]]⟩, ⟨"v", true, .integer, [some ["1"], some ["2"]]⟩]

/-- the hypotheses of `C134_representations` for a sparse tensor of two columns. -/
example : ∃ r e', extractFeatures taking [("s", sparseRep), ("t", ⟨.dense, [], "", ()⟩)]
      (⟨some batch4, none, none, []⟩ : Extracts String Unit) = .ok (r, e') ∧
    Complete (batch4.filter fun c => decide (Readable c)) sparseRep ∧
    r.features = some [("i", .dense [["5"], ["9"]]), ("v", .dense [["1"], ["2"]]),
      ("s", .sparse ["1", "2"] [[0, 5], [1, 9]] [2, 10])] := by
  refine ⟨_, _, rfl, ⟨rfl, ?_⟩, rfl⟩
  intro n hn
  rcases hn with rfl | hn
  · exact ⟨batch4[1], by decide +kernel, rfl⟩
  · have hn' : n = "i" := by simpa [sparseRep] using hn
    subst hn'
    exact ⟨batch4[0], by decide +kernel, rfl⟩

/-- both cases of `C134_errors`: a representation TFX-BSL refuses, and one it cannot convert. -/
example : Used batch4 [("i", sparseRep)] "i" sparseRep ∧
    extractFeatures (⟨fun _ _ => .error .runtimeError, fun _ _ => .error .keyError⟩ : Adapter Unit String) [("i", sparseRep)]
      (⟨some batch4, none, none, []⟩ : Extracts String Unit) = .error .runtimeError ∧
    extractFeatures (⟨fun _ _ => .ok (), fun _ _ => .error .keyError⟩ : Adapter Unit String) [("i", sparseRep)]
      (⟨some batch4, none, none, []⟩ : Extracts String Unit) = .error .valueError :=
  ⟨⟨rfl, .inl ⟨batch4[0], by decide +kernel, by decide +kernel, rfl⟩⟩, rfl, rfl⟩

/-- the hypotheses of `C134_no_batch` and `C134_incoming_partial`. -/
example : extractFeatures none' [] (⟨none, some [("a", .dense [["1"]])], none, []⟩ : Extracts String Unit) =
      .ok (⟨none, some [("a", .dense [["1"]])], none, []⟩, ⟨none, some [("a", .dense [["1"]])], none, []⟩) ∧
    extractFeatures none' [] (⟨none, none, none, []⟩ : Extracts String Unit) = .error .valueError := ⟨rfl, rfl⟩

end Features
end TFMA
