import Verif.Model.ConfusionMatrices
import Verif.Lemmas.DictCombine
import Verif.Props.Combiners

/-!
# C17: binary confusion matrices
-/

namespace TFMA
namespace Bcm

open Beam Combiners

/-! ### Specification -/

/-- The label counts as positive: equal to one (fractional labels have been split beforehand) or above the
threshold. -/
def LabelPos (fractional : Bool) (t label : Fl) : Prop :=
  if fractional = true then label = .fin 1 else Fl.lt t label = true

instance (f : Bool) (t l : Fl) : Decidable (LabelPos f t l) := by unfold LabelPos; infer_instance

/-- Total weight of the rows with the given property. -/
def weightWhere (p : Row → Prop) [DecidablePred p] (rows : List Row) : ℚ :=
  ((rows.filter fun r => decide (p r)).map Row.weight).sum

/-- The confusion matrix of a list of rows at a threshold. -/
def matrixOf (fractional : Bool) (t : Fl) (rows : List Row) : Matrix where
  tp := weightWhere (fun r => LabelPos fractional t r.label ∧ Fl.lt t r.pred = true) rows
  fn := weightWhere (fun r => LabelPos fractional t r.label ∧ ¬ Fl.lt t r.pred = true) rows
  fp := weightWhere (fun r => ¬ LabelPos fractional t r.label ∧ Fl.lt t r.pred = true) rows
  tn := weightWhere (fun r => ¬ LabelPos fractional t r.label ∧ ¬ Fl.lt t r.pred = true) rows

/-- All examples, or none if the extraction of one of them failed. -/
def allOk {ε : Type} (data : List (Except Err ε)) : Option (List ε) := collect Except.toOption data

/-! ### Helpers -/

private theorem weightWhere_cons (p : Row → Prop) [DecidablePred p] (r : Row) (rows : List Row) :
    weightWhere p (r :: rows) = (if p r then r.weight else 0) + weightWhere p rows := by
  unfold weightWhere
  by_cases h : p r <;> simp [h]

private theorem weightWhere_append (p : Row → Prop) [DecidablePred p] (a b : List Row) :
    weightWhere p (a ++ b) = weightWhere p a + weightWhere p b := by
  unfold weightWhere; simp

theorem matrixOf_append (f : Bool) (t : Fl) (a b : List Row) :
    matrixOf f t (a ++ b) = (matrixOf f t a).add (matrixOf f t b) := by
  simp only [matrixOf, Matrix.add, weightWhere_append]

private theorem isPos_iff (c : Config) (t l : Fl) : isPos c t l = true ↔ LabelPos c.fractional t l := by
  unfold isPos LabelPos
  cases c.fractional <;> simp

private theorem cells_matrix (c : Config) (t : Fl) (id : Option String) (rows : List Row) (s : Cells) :
    (rows.foldl (cellStep c t id) s).m = s.m.add (matrixOf c.fractional t rows) := by
  induction rows generalizing s with
  | nil => simp [matrixOf, Matrix.add, weightWhere]
  | cons r rows ih =>
    rw [List.foldl_cons, ih]
    simp only [matrixOf, weightWhere_cons]
    unfold cellStep
    by_cases h1 : isPos c t r.label = true
    · have h1' := (isPos_iff c t r.label).1 h1
      by_cases h2 : Fl.lt t r.pred = true
      · simp [h1, h1', h2, Matrix.add, add_assoc]
      · simp [h1, h1', h2, Matrix.add, add_assoc]
    · have h1' := mt (isPos_iff c t r.label).2 h1
      by_cases h2 : Fl.lt t r.pred = true
      · simp [h1, h1', h2, Matrix.add, add_assoc]
      · simp [h1, h1', h2, Matrix.add, add_assoc]

theorem Matrix.zero_add' (m : Matrix) : (⟨0, 0, 0, 0⟩ : Matrix).add m = m := by
  simp [Matrix.add]

private theorem entry_matrix (c : Config) (x : Example) (t : Fl) :
    (entryOf c x t).matrix = matrixOf c.fractional t x.rows := by
  unfold entryOf
  simp only [cells_matrix, Matrix.zero_add']

private theorem get_fold_set {ts : List Fl} (hn : ts.Nodup) (g : Option Entry → Fl → Entry) (acc : Acc) (t : Fl) :
    Dict.get? (ts.foldl (fun acc t => Dict.set acc t (g (Dict.get? acc t) t)) acc) t =
      if t ∈ ts then some (g (Dict.get? acc t) t) else Dict.get? acc t := by
  induction ts generalizing acc with
  | nil => simp
  | cons u ts ih =>
    rw [List.nodup_cons] at hn
    rw [List.foldl_cons, ih hn.2, Dict.get?_set]
    by_cases hut : u = t
    · subst hut; simp [hn.1]
    · have : t ≠ u := fun h => hut h.symm
      simp [hut, this]

private theorem get_mergeTwo {c : Config} (hn : c.thresholds.Nodup) (r a : Acc) (t : Fl) :
    Dict.get? (mergeTwo c r a) t =
      if t ∈ c.thresholds then
        (match Dict.get? a t with
          | some e => some (mergeEntry c.idsCount (Dict.get? r t) e)
          | none => Dict.get? r t)
      else Dict.get? r t := by
  unfold mergeTwo
  generalize c.thresholds = ts at hn ⊢
  induction ts generalizing r with
  | nil => simp
  | cons u ts ih =>
    rw [List.nodup_cons] at hn
    rw [List.foldl_cons, ih _ hn.2]
    by_cases hut : u = t
    · subst hut
      simp only [hn.1, if_false, List.mem_cons, true_or, if_true]
      cases Dict.get? a u <;> simp
    · have : t ≠ u := fun h => hut h.symm
      cases hau : Dict.get? a u with
      | none => simp [this]
      | some e => simp [this, Dict.get?_set_ne _ _ hut]

private def view (a : Acc) : Fl → Matrix := fun t => match Dict.get? a t with
  | some e => e.matrix
  | none => ⟨0, 0, 0, 0⟩

private def Inv (c : Config) (a : Acc) : Prop := ∀ t, t ∉ c.thresholds → Dict.get? a t = none

private def mop (f g : Fl → Matrix) : Fl → Matrix := fun t => (f t).add (g t)

private def contrib (c : Config) (rows : List Row) : Fl → Matrix := fun t =>
  if t ∈ c.thresholds then matrixOf c.fractional t rows else ⟨0, 0, 0, 0⟩

private theorem madd_assoc (a b d : Matrix) : (a.add b).add d = a.add (b.add d) := by
  simp [Matrix.add, add_assoc]

private theorem madd_comm (a b : Matrix) : a.add b = b.add a := by
  simp only [Matrix.add]
  rw [add_comm a.tp, add_comm a.tn, add_comm a.fp, add_comm a.fn]

private theorem add_zero' (m : Matrix) : m.add ⟨0, 0, 0, 0⟩ = m := by rw [madd_comm, Matrix.zero_add']

private theorem mergeEntry_matrix (n : ℕ) (o : Option Entry) (e : Entry) :
    (mergeEntry n o e).matrix = (match o with | some o => o.matrix | none => ⟨0, 0, 0, 0⟩).add e.matrix := by
  cases o with
  | none => simp [mergeEntry, Matrix.zero_add']
  | some o => rfl

private theorem bcm_hom (c : Config) (hn : c.thresholds.Nodup) :
    OHom (combiner c) mop (fun _ => ⟨0, 0, 0, 0⟩)
      (fun x => x.toOption.map fun x => contrib c x.rows) view (Inv c) where
  assoc a b d := by funext t; exact madd_assoc _ _ _
  comm a b := by funext t; exact madd_comm _ _
  left a := by funext t; exact Matrix.zero_add' _
  inv_create := fun t _ => rfl
  inv_add a x b ha hb := by
    cases x with
    | error e => cases hb
    | ok x =>
      simp only [combiner, Except.bind, Except.ok.injEq] at hb
      subst hb
      intro t ht
      unfold addInput
      rw [get_fold_set hn (fun o t => mergeEntry c.idsCount o (entryOf c x t)), if_neg ht]
      exact ha t ht
  create := rfl
  add a x ha := by
    cases x with
    | error e => rfl
    | ok x =>
      simp only [combiner, Except.bind, Except.toOption, Option.map_some, Option.some.injEq]
      funext t
      simp only [view, mop, contrib, addInput]
      rw [get_fold_set hn (fun o t => mergeEntry c.idsCount o (entryOf c x t))]
      by_cases ht : t ∈ c.thresholds
      · simp only [ht, if_true, mergeEntry_matrix, entry_matrix]
      · simp only [ht, if_false, add_zero']
  merge a as hy := by
    refine ⟨_, rfl, ?_⟩
    induction as generalizing a with
    | nil => exact ⟨hy a (by simp), rfl⟩
    | cons b as ih =>
      have ha := hy a (by simp)
      have hb := hy b (by simp)
      have h1 : Inv c (mergeTwo c a b) := by
        intro t ht
        rw [get_mergeTwo hn, if_neg ht]; exact ha t ht
      have h2 : view (mergeTwo c a b) = mop (view a) (view b) := by
        funext t
        simp only [view, mop]
        rw [get_mergeTwo hn]
        by_cases ht : t ∈ c.thresholds
        · simp only [ht, if_true]
          cases hbt : Dict.get? b t with
          | none => simp only [add_zero']
          | some e => simp only [mergeEntry_matrix]
        · simp only [ht, if_false, hb t ht, add_zero']
      have := ih (mergeTwo c a b) (by
        intro y hyy
        rcases List.mem_cons.1 hyy with rfl | hyy
        · exact h1
        · exact hy y (by simp [hyy]))
      refine ⟨this.1, ?_⟩
      rw [List.foldl_cons, this.2, List.map_cons, List.foldl_cons, h2]

private theorem get_extract (c : Config) (a : Acc) (t : Fl) :
    Dict.get? (extract c a) t =
      if t ∈ c.thresholds then some ((Dict.get? a t).getD ⟨⟨0, 0, 0, 0⟩, [], [], [], []⟩) else Dict.get? a t := by
  unfold extract
  generalize c.thresholds = ts
  induction ts generalizing a with
  | nil => simp
  | cons u ts ih =>
    rw [List.foldl_cons, ih]
    by_cases hut : u = t
    · subst hut
      by_cases hh : Dict.has a u = true
      · rw [if_pos hh]
        have : ∃ e, Dict.get? a u = some e := Option.isSome_iff_exists.1 hh
        obtain ⟨e, he⟩ := this
        by_cases hm : u ∈ ts <;> simp [hm, he]
      · rw [if_neg hh]
        have hnone : Dict.get? a u = none := by
          cases hg : Dict.get? a u with
          | none => rfl
          | some e => exact absurd (by simp [Dict.has, hg]) hh
        by_cases hm : u ∈ ts <;> simp [hm, hnone]
    · have hne : t ≠ u := fun h => hut h.symm
      by_cases hh : Dict.has a u = true
      · simp [hh, hne]
      · simp [hh, hne, Dict.get?_set_ne _ _ hut]

private theorem contrib_total (c : Config) (xs : List Example) :
    (xs.map fun x => contrib c x.rows).foldr mop (fun _ => ⟨0, 0, 0, 0⟩) =
      contrib c (xs.map Example.rows).flatten := by
  induction xs with
  | nil => funext t; simp [contrib, matrixOf, weightWhere]
  | cons x xs ih =>
    rw [List.map_cons, List.foldr_cons, ih]
    funext t
    simp only [mop, contrib, List.map_cons, List.flatten_cons, matrixOf_append]
    by_cases ht : t ∈ c.thresholds
    · simp [ht]
    · simp [ht, Matrix.add]

private theorem toMatrices_ok (a : Acc) (ts : List Fl) (h : ∀ t ∈ ts, ∃ e, Dict.get? a t = some e) :
    ∃ rows, toMatrices a ts = .ok rows ∧ rows.map Prod.fst = ts.map fun t => (t, view a t) := by
  induction ts with
  | nil => exact ⟨[], rfl, rfl⟩
  | cons t ts ih =>
    obtain ⟨e, he⟩ := h t (by simp)
    obtain ⟨rows, h1, h2⟩ := ih (fun t ht => h t (by simp [ht]))
    refine ⟨_, by simp only [toMatrices, item, he, h1, bind, Except.bind, pure, Except.pure]; rfl, ?_⟩
    simp [h2, view, he]

private theorem toOption_ok {β : Type} {x : Except Err β} {b : β} (h : x.toOption = some b) : x = .ok b := by
  cases x with
  | error e => cases h
  | ok a => simp only [Except.toOption, Option.some.injEq] at h; rw [h]

/-! ### Theorems -/

/-- C17 (and C15): for distinct thresholds and every bundling of the data, the reported matrices are, for every
threshold in the configured order, the total weights of the rows in the four cells. -/
theorem C17_matrices (c : Config) (hn : c.thresholds.Nodup) (data : List (Except Err Example)) (s : Sched _)
    (p : s.inputs.Perm data) :
    (((combiner c).run s).bind fun a => toMatrices (extract c a) c.thresholds).toOption.map (·.map Prod.fst) =
      (allOk data).map fun xs =>
        c.thresholds.map fun t => (t, matrixOf c.fractional t (xs.map Example.rows).flatten) := by
  have h := orun_eq (bcm_hom c hn) p
  rw [total_collect mop _ Except.toOption (fun x : Example => contrib c x.rows)] at h
  unfold allOk
  cases hd : collect Except.toOption data with
  | none =>
    rw [hd] at h
    cases hr : (combiner c).run s with
    | error e => rfl
    | ok a => rw [hr] at h; cases h
  | some xs =>
    rw [hd, Option.map_some] at h
    cases hr : (combiner c).run s with
    | error e => rw [hr] at h; cases h
    | ok a =>
      rw [hr] at h
      simp only [Except.toOption, Option.map_some, Option.some.injEq] at h
      rw [contrib_total] at h
      obtain ⟨rows, h1, h2⟩ := toMatrices_ok (extract c a) c.thresholds (by
        intro t ht; rw [get_extract, if_pos ht]; exact ⟨_, rfl⟩)
      simp only [Except.bind, h1, Except.toOption, Option.map_some, Option.some.injEq, h2]
      apply List.map_congr_left
      intro t ht
      congr 1
      have : view (extract c a) t = view a t := by
        simp only [view, get_extract, if_pos ht]
        cases Dict.get? a t <;> rfl
      rw [this, h]
      simp [contrib, ht]

/-- C15 for binary confusion matrices. -/
theorem C15_binary_confusion_matrices (c : Config) (hn : c.thresholds.Nodup) (data : List (Except Err Example))
    (s : Sched _) (p : s.inputs.Perm data) :
    (((combiner c).run s).bind fun a => toMatrices (extract c a) c.thresholds).toOption.map (·.map Prod.fst) =
    (((combiner c).run (.bundle data)).bind fun a =>
      toMatrices (extract c a) c.thresholds).toOption.map (·.map Prod.fst) := by
  rw [C17_matrices c hn data s p, C17_matrices c hn data (.bundle data) (List.Perm.refl _)]

/-- Non-vacuous: two thresholds, three rows in two bundles. -/
example : (((combiner ⟨[.fin (1 / 4), .fin (3 / 4)], 2, true⟩).run (.merge (.cons
      (.bundle [.ok ⟨[⟨.fin 1, .fin (1 / 2), 2⟩, ⟨.fin 0, .fin (1 / 5), 1⟩], some "a"⟩])
      (.one (.bundle [.ok ⟨[⟨.fin 0, .fin 1, 3⟩], some "b"⟩]))))).bind fun a =>
        toMatrices (extract ⟨[.fin (1 / 4), .fin (3 / 4)], 2, true⟩ a) [.fin (1 / 4), .fin (3 / 4)]).toOption.map
        (·.map Prod.fst) =
    some [(.fin (1 / 4), ⟨2, 1, 3, 0⟩), (.fin (3 / 4), ⟨0, 1, 3, 2⟩)] := by decide +kernel

/-- C17: the four cells add up to the total weight. -/
theorem C17_cells_sum (f : Bool) (t : Fl) (rows : List Row) :
    (matrixOf f t rows).tp + (matrixOf f t rows).fn + (matrixOf f t rows).fp + (matrixOf f t rows).tn =
      (rows.map Row.weight).sum := by
  induction rows with
  | nil => simp [matrixOf, weightWhere]
  | cons r rows ih =>
    rw [List.map_cons, List.sum_cons, ← ih]
    simp only [matrixOf, weightWhere_cons]
    by_cases h1 : LabelPos f t r.label <;> by_cases h2 : Fl.lt t r.pred = true <;> simp [h1, h2] <;> ring

private theorem lt_of_le_of_lt {a b c : Fl} (h1 : Fl.le a b = true) (h2 : Fl.lt b c = true) : Fl.lt a c = true := by
  unfold Fl.lt at h2 ⊢
  cases a <;> cases b <;> cases c <;> simp [Fl.le] at h1 h2 ⊢
  constructor
  · exact le_trans h1 h2.1
  · exact _root_.lt_of_le_of_lt h1 h2.2

/-- C17: as the threshold increases the predicted positive weight never increases. -/
theorem C17_monotone (f : Bool) (t t' : Fl) (htt : Fl.le t t' = true) (rows : List Row) (hw : ∀ r ∈ rows, 0 ≤ r.weight) :
    (matrixOf f t' rows).tp + (matrixOf f t' rows).fp ≤ (matrixOf f t rows).tp + (matrixOf f t rows).fp := by
  have key : ∀ t, (matrixOf f t rows).tp + (matrixOf f t rows).fp = weightWhere (fun r => Fl.lt t r.pred = true) rows := by
    intro t
    clear hw
    induction rows with
    | nil => simp [matrixOf, weightWhere]
    | cons r rows ih =>
      rw [weightWhere_cons, ← ih]
      simp only [matrixOf, weightWhere_cons]
      by_cases h1 : LabelPos f t r.label <;> by_cases h2 : Fl.lt t r.pred = true <;> simp [h1, h2] <;> ring
  rw [key, key]
  clear key
  induction rows with
  | nil => simp [weightWhere]
  | cons r rows ih =>
    rw [weightWhere_cons, weightWhere_cons]
    have hr := hw r (by simp)
    have := ih (fun r hr => hw r (by simp [hr]))
    by_cases h2 : Fl.lt t' r.pred = true
    · have h3 := lt_of_le_of_lt htt h2
      simp [h2, h3, this]
    · by_cases h3 : Fl.lt t r.pred = true
      · simp only [h2, h3, if_true, if_false, Bool.false_eq_true]; linarith
      · simp only [h2, h3, if_false, Bool.false_eq_true]; linarith

/-- Non-vacuous. -/
example : (matrixOf true (.fin (3 / 4)) [⟨.fin 1, .fin (1 / 2), 2⟩, ⟨.fin 0, .fin 1, 3⟩]).fp = 3 := by decide +kernel

/-- C17 needs distinct thresholds: a threshold listed twice counts every example twice. -/
theorem C17_duplicate_threshold_doubles :
    (((combiner ⟨[.fin 0, .fin 0], 2, true⟩).run (.bundle [.ok ⟨[⟨.fin 1, .fin 1, 1⟩], none⟩])).bind fun a =>
      toMatrices (extract ⟨[.fin 0, .fin 0], 2, true⟩ a) [.fin 0, .fin 0]).toOption.map (·.map Prod.fst) =
    some [(.fin 0, ⟨2, 0, 0, 0⟩), (.fin 0, ⟨2, 0, 0, 0⟩)] := by decide +kernel

/-! ### C53: sampled example ids -/

/-- The four cells of a confusion matrix. -/
inductive Cell where
  | tp | tn | fp | fn

/-- A row falls in the cell. -/
def Cell.holds (f : Bool) (t : Fl) (r : Row) : Cell → Prop
  | .tp => LabelPos f t r.label ∧ Fl.lt t r.pred = true
  | .fn => LabelPos f t r.label ∧ ¬ Fl.lt t r.pred = true
  | .fp => ¬ LabelPos f t r.label ∧ Fl.lt t r.pred = true
  | .tn => ¬ LabelPos f t r.label ∧ ¬ Fl.lt t r.pred = true

instance (f : Bool) (t : Fl) (r : Row) (k : Cell) : Decidable (k.holds f t r) := by
  cases k <;> unfold Cell.holds <;> infer_instance

/-- Sampled ids of a row of `Examples`. -/
def Cell.sampled (e : ERow) : Cell → List String
  | .tp => e.tp
  | .tn => e.tn
  | .fp => e.fp
  | .fn => e.fn

/-- Ids of the examples with at least one row in the cell, in the order of the examples. -/
def cellIds (f : Bool) (t : Fl) (k : Cell) (xs : List Example) : List String :=
  (xs.filter fun x => x.rows.any fun r => decide (k.holds f t r)).filterMap Example.id

private def Cell.ofEntry (e : Entry) : Cell → List String
  | .tp => e.tpEx
  | .tn => e.tnEx
  | .fp => e.fpEx
  | .fn => e.fnEx

private def Cell.ofCells (s : Cells) : Cell → Option String
  | .tp => s.tp
  | .tn => s.tn
  | .fp => s.fp
  | .fn => s.fn

private theorem cells_ids (c : Config) (t : Fl) (id : Option String) (rows : List Row) (s : Cells) (k : Cell) :
    k.ofCells (rows.foldl (cellStep c t id) s) =
      if rows.any (fun r => decide (k.holds c.fractional t r)) then id else k.ofCells s := by
  induction rows generalizing s with
  | nil => simp
  | cons r rows ih =>
    rw [List.foldl_cons, ih, List.any_cons]
    by_cases hany : (rows.any fun r => decide (k.holds c.fractional t r)) = true
    · simp [hany]
    · simp only [hany, if_false, Bool.or_false, decide_eq_true_eq, Bool.false_eq_true]
      unfold cellStep
      by_cases h1 : isPos c t r.label = true
      · have h1' := (isPos_iff c t r.label).1 h1
        by_cases h2 : Fl.lt t r.pred = true <;> cases k <;> simp [h1, h1', h2, Cell.holds, Cell.ofCells]
      · have h1' := mt (isPos_iff c t r.label).2 h1
        by_cases h2 : Fl.lt t r.pred = true <;> cases k <;> simp [h1, h1', h2, Cell.holds, Cell.ofCells]

private theorem entry_ids (c : Config) (x : Example) (t : Fl) (k : Cell) :
    k.ofEntry (entryOf c x t) = cellIds c.fractional t k [x] := by
  have h := cells_ids c t x.id x.rows ⟨⟨0, 0, 0, 0⟩, none, none, none, none⟩ k
  have e : k.ofEntry (entryOf c x t) =
      (k.ofCells (x.rows.foldl (cellStep c t x.id) ⟨⟨0, 0, 0, 0⟩, none, none, none, none⟩)).toList := by
    cases k <;> rfl
  rw [e, h]
  unfold cellIds
  by_cases ha : (x.rows.any fun r => decide (k.holds c.fractional t r)) = true
  · simp only [ha, if_true, List.filter_cons, List.filter_nil, List.filterMap_cons, List.filterMap_nil]
    cases x.id <;> rfl
  · simp only [ha, if_false, List.filter_cons, List.filter_nil, List.filterMap_nil, Bool.false_eq_true]
    cases k <;> rfl

private theorem mergeIds_take (n : ℕ) (a b : List String) :
    mergeIds n (a.take n) (b.take n) = (a ++ b).take n := by
  unfold mergeIds
  rw [List.take_take, Nat.min_self, List.take_take, List.take_append]
  congr 2
  rw [List.length_take]
  omega

private theorem mergeEntry_ids (n : ℕ) (o e : Entry) (k : Cell) :
    k.ofEntry (mergeEntry n (some o) e) = mergeIds n (k.ofEntry o) (k.ofEntry e) := by
  cases k <;> rfl

private def IdsP (c : Config) (xs : List (Except Err Example)) (a : Acc) : Prop :=
  ∃ ys, xs = ys.map .ok ∧ ∀ t ∈ c.thresholds,
    (Dict.get? a t = none ∧ ys = []) ∨
    ∃ e, Dict.get? a t = some e ∧ ∀ k : Cell, k.ofEntry e = (cellIds c.fractional t k ys).take c.idsCount

private theorem cellIds_append (f : Bool) (t : Fl) (k : Cell) (a b : List Example) :
    cellIds f t k (a ++ b) = cellIds f t k a ++ cellIds f t k b := by
  simp [cellIds]

private theorem ids_run (c : Config) (hn : c.thresholds.Nodup) (hc : 1 ≤ c.idsCount) (s : Sched _) (a : Acc)
    (h : (combiner c).run s = .ok a) : IdsP c s.inputs a := by
  refine run_rel_pair (P := IdsP c) ?_ ?_ (fun l => mergeWith_eq_loop _ l) ?_ s a h
  · exact ⟨[], rfl, fun t _ => .inl ⟨rfl, rfl⟩⟩
  · rintro xs a x b ⟨ys, rfl, ha⟩ hb
    cases x with
    | error e => cases hb
    | ok x =>
      simp only [combiner, Except.bind, Except.ok.injEq] at hb
      subst hb
      refine ⟨ys ++ [x], by simp, ?_⟩
      intro t ht
      right
      unfold addInput
      rw [get_fold_set hn (fun o t => mergeEntry c.idsCount o (entryOf c x t)), if_pos ht]
      refine ⟨_, rfl, fun k => ?_⟩
      have hlen : (cellIds c.fractional t k [x]).length ≤ 1 := by
        unfold cellIds
        refine le_trans (List.length_filterMap_le _ _) (le_trans (List.length_filter_le _ _) (by simp))
      have htk : cellIds c.fractional t k [x] = (cellIds c.fractional t k [x]).take c.idsCount := by
        rw [List.take_of_length_le (by omega)]
      rcases ha t ht with ⟨h1, rfl⟩ | ⟨e, h1, h2⟩
      · rw [h1]
        simp only [mergeEntry, List.nil_append, entry_ids]
        exact htk
      · rw [h1, mergeEntry_ids, h2, entry_ids, htk, mergeIds_take, cellIds_append]
  · rintro xs ys a b d ⟨us, rfl, ha⟩ ⟨vs, rfl, hb⟩ hd
    simp only [Except.ok.injEq] at hd
    subst hd
    refine ⟨us ++ vs, by simp, ?_⟩
    intro t ht
    rw [get_mergeTwo hn, if_pos ht]
    rcases hb t ht with ⟨h1, rfl⟩ | ⟨e, h1, h2⟩
    · rw [h1]
      simpa using ha t ht
    · rw [h1]
      right
      refine ⟨_, rfl, fun k => ?_⟩
      rcases ha t ht with ⟨g1, rfl⟩ | ⟨e', g1, g2⟩
      · rw [g1]; simp only [mergeEntry, List.nil_append]; exact h2 k
      · rw [g1, mergeEntry_ids, g2, h2, mergeIds_take, cellIds_append]

private theorem toMatrices_ids (a : Acc) (ts : List Fl) (rows : List (MRow × ERow)) (h : toMatrices a ts = .ok rows) :
    ∀ r ∈ rows, r.2.threshold ∈ ts ∧ ∃ e, Dict.get? a r.2.threshold = some e ∧ ∀ k : Cell, k.sampled r.2 = k.ofEntry e := by
  induction ts generalizing rows with
  | nil => simp only [toMatrices, Except.ok.injEq] at h; subst h; simp
  | cons t ts ih =>
    simp only [toMatrices, item] at h
    cases he : Dict.get? a t with
    | none => rw [he] at h; cases h
    | some e =>
      rw [he] at h
      cases hr : toMatrices a ts with
      | error er => rw [hr] at h; cases h
      | ok rest =>
        rw [hr] at h
        simp only [bind, Except.bind, pure, Except.pure, Except.ok.injEq] at h
        subst h
        intro r hrm
        rcases List.mem_cons.1 hrm with rfl | hrm
        · exact ⟨by simp, e, he, fun k => by cases k <;> rfl⟩
        · obtain ⟨h1, h2⟩ := ih rest hr r hrm
          exact ⟨by simp [h1], h2⟩

/-- C53: for every execution over the inputs `xs`, the ids sampled for a cell at a threshold are the first
`example_ids_count` ids, in the order in which the execution met the examples, of the examples with a row in that cell. -/
theorem C53_sampled_ids (c : Config) (hn : c.thresholds.Nodup) (hc : 1 ≤ c.idsCount) (s : Sched _) (xs : List Example)
    (hs : s.inputs = xs.map .ok) (rows : List (MRow × ERow))
    (h : (((combiner c).run s).bind fun a => toMatrices (extract c a) c.thresholds) = .ok rows) :
    ∀ r ∈ rows, ∀ k : Cell, k.sampled r.2 = (cellIds c.fractional r.2.threshold k xs).take c.idsCount := by
  cases hr : (combiner c).run s with
  | error e => rw [hr] at h; cases h
  | ok a =>
    rw [hr] at h
    obtain ⟨ys, hys, hP⟩ := ids_run c hn hc s a hr
    have hxy : ys = xs := by
      rw [hs] at hys
      exact (List.map_injective_iff.2 (fun a b hab => Except.ok.inj hab) hys).symm
    subst hxy
    intro r hrm k
    obtain ⟨h1, e, h2, h3⟩ := toMatrices_ids _ _ rows h r hrm
    rw [h3 k]
    rw [get_extract, if_pos h1, Option.some.injEq] at h2
    rcases hP _ h1 with ⟨g1, rfl⟩ | ⟨e', g1, g2⟩
    · rw [g1] at h2
      simp only [Option.getD_none] at h2
      subst h2
      cases k <;> simp [Cell.ofEntry, cellIds]
    · rw [g1] at h2
      simp only [Option.getD_some] at h2
      subst h2
      exact g2 k

/-- C53, independent of the order: every sampled id belongs to an example with a row in the cell, and as many
ids as possible up to the limit are sampled. -/
theorem C53_sampled_ids_sound (c : Config) (hn : c.thresholds.Nodup) (hc : 1 ≤ c.idsCount) (s : Sched _)
    (xs : List Example) (p : s.inputs.Perm (xs.map .ok)) (rows : List (MRow × ERow))
    (h : (((combiner c).run s).bind fun a => toMatrices (extract c a) c.thresholds) = .ok rows) :
    ∀ r ∈ rows, ∀ k : Cell,
      (∀ i ∈ k.sampled r.2, ∃ x ∈ xs, x.id = some i ∧ ∃ row ∈ x.rows, k.holds c.fractional r.2.threshold row) ∧
      (k.sampled r.2).length = min c.idsCount (cellIds c.fractional r.2.threshold k xs).length := by
  have hall : ∀ x ∈ s.inputs, ∃ y, x = Except.ok (ε := Err) y := by
    intro x hx
    have := p.subset hx
    simp only [List.mem_map] at this
    obtain ⟨y, _, rfl⟩ := this
    exact ⟨y, rfl⟩
  have : ∃ ys : List Example, s.inputs = ys.map .ok := by
    generalize s.inputs = l at hall
    induction l with
    | nil => exact ⟨[], rfl⟩
    | cons x l ih =>
      obtain ⟨y, rfl⟩ := hall x (by simp)
      obtain ⟨ys, rfl⟩ := ih (fun x hx => hall x (by simp [hx]))
      exact ⟨y :: ys, rfl⟩
  obtain ⟨ys, hys⟩ := this
  have hp : ys.Perm xs := by
    rw [hys] at p
    have hinj : Function.Injective (Except.ok (ε := Err) (α := Example)) := fun a b hab => Except.ok.inj hab
    exact (List.map_perm_map_iff hinj).1 p
  intro r hr k
  have hk := C53_sampled_ids c hn hc s ys hys rows h r hr k
  have hlen : (cellIds c.fractional r.2.threshold k ys).length = (cellIds c.fractional r.2.threshold k xs).length := by
    unfold cellIds
    exact ((hp.filter _).filterMap _).length_eq
  refine ⟨?_, ?_⟩
  · intro i hi
    rw [hk] at hi
    have := List.mem_of_mem_take hi
    unfold cellIds at this
    rw [List.mem_filterMap] at this
    obtain ⟨x, hx, hid⟩ := this
    rw [List.mem_filter] at hx
    obtain ⟨row, h1, h2⟩ := List.any_eq_true.1 hx.2
    exact ⟨x, hp.subset hx.1, hid, row, h1, by simpa using h2⟩
  · rw [hk, List.length_take, hlen]

/-- Non-vacuous: two false positives, one sampled. -/
example : cellIds true (.fin (1 / 2)) .fp
    [⟨[⟨.fin 0, .fin 1, 1⟩], some "a"⟩, ⟨[⟨.fin 1, .fin 1, 1⟩], some "b"⟩, ⟨[⟨.fin 0, .fin 1, 1⟩], some "c"⟩] =
    ["a", "c"] := by decide +kernel

end Bcm
end TFMA
