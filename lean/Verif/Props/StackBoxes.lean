import Verif.Model.StackBoxes
import Verif.Py.DictLemmas
import Mathlib.Data.List.Forall2
import Mathlib.Data.List.Induction
import Mathlib.Data.Rat.Floor
import Mathlib.Tactic.Linarith

/-!
# C154: boxes from columns

The boxes that are matched are, row by row, the columns the metric names side by side, and as many of them as there are detections.
-/

namespace TFMA
namespace StackBoxes

/-! ### specification -/

/-- The column `name`: of the labels (predictions) if they have it, else of the features, else of the transformed features. -/
def Holds (first features transformed : Columns) (name : String) (v : Value) : Prop :=
  first.get? name = some v ∨
    (first.get? name = none ∧ (features.get? name = some v ∨
      (features.get? name = none ∧ transformed.get? name = some v)))

/-- The array as a matrix: one with a single dimension is one column. -/
def IsMatrix (v : Value) (m : Matrix) : Prop :=
  (∃ l, v.body = .d1 l ∧ m = (1, l.map fun x => [x])) ∨ ∃ w rows, v.body = .d2 w rows ∧ m = (w, rows)

/-- `m` is the matrices `cs` side by side: each row is their rows one after another. -/
def SideBySide (cs : List Matrix) (m : Matrix) : Prop :=
  m.1 = (cs.map Prod.fst).sum ∧ (∀ c ∈ cs, c.2.length = m.2.length) ∧
    ∀ (i : ℕ) (row : List ℚ), m.2[i]? = some row → row = (cs.map fun c => c.2.getD i []).flatten

/-- The columns a metric finds labels (predictions) in. -/
def Usable : Source → Columns → Prop
  | .absent, d => d = []
  | .columns e, d => d = e
  | .array v, d => v.body.size ≤ 1 ∧ d = []

private theorem search_iff (a b c : Columns) (name : String) (v : Value) :
    search [a, b, c] name = some v ↔ Holds a b c name v := by
  simp only [search, List.findSome?_cons, List.findSome?_nil, Holds]
  cases a.get? name <;> cases b.get? name <;> cases c.get? name <;> simp

private theorem search_none (a b c : Columns) (name : String) :
    search [a, b, c] name = none ↔ ¬ ∃ v, Holds a b c name v := by
  rw [← not_iff_not, not_not, ← ne_eq, Option.ne_none_iff_exists']
  simp only [search_iff]

private theorem asColumns_iff (v : Value) (m : Matrix) : asColumns v = .ok m ↔ IsMatrix v m := by
  unfold asColumns IsMatrix
  cases v.body <;> simp [eq_comm]

private theorem collect_some (a b c : Columns) (allow : Bool) (names : List String) (cs : List Matrix) :
    collect [a, b, c] allow names = .ok (some cs) ↔
      List.Forall₂ (fun name m => ∃ v, Holds a b c name v ∧ IsMatrix v m) names cs := by
  induction names generalizing cs with
  | nil => simp [collect, eq_comm]
  | cons name names ih =>
    simp only [collect]
    constructor
    · intro h
      split at h
      · split_ifs at h; simp at h
      · next v hv =>
        split at h
        · simp at h
        · next m hm =>
          split at h
          · simp at h
          · simp at h
          · next cs' hc =>
            simp only [Except.ok.injEq, Option.some.injEq] at h
            subst h
            exact .cons ⟨v, (search_iff _ _ _ _ _).1 hv, (asColumns_iff _ _).1 hm⟩ ((ih cs').1 hc)
    · intro h
      cases h with
      | cons hh ht =>
        obtain ⟨v, hv, hm⟩ := hh
        rw [(search_iff _ _ _ _ _).2 hv]
        simp only [(asColumns_iff _ _).2 hm, (ih _).2 ht]

private theorem collect_none (a b c : Columns) (allow : Bool) (names : List String) :
    collect [a, b, c] allow names = .ok none ↔ allow = true ∧ ∃ pre name post, names = pre ++ name :: post ∧
      (∀ x ∈ pre, ∃ v m, Holds a b c x v ∧ IsMatrix v m) ∧ ¬ ∃ v, Holds a b c name v := by
  induction names with
  | nil => simp [collect]
  | cons name names ih =>
    simp only [collect]
    constructor
    · intro h
      split at h
      · next hs =>
        split_ifs at h with ha
        exact ⟨ha, [], name, names, rfl, by simp, (search_none _ _ _ _).1 hs⟩
      · next v hv =>
        split at h
        · simp at h
        · next m hm =>
          split at h
          · simp at h
          · next hc =>
            obtain ⟨ha, pre, x, post, e, hp, hx⟩ := ih.1 hc
            refine ⟨ha, name :: pre, x, post, by rw [e]; rfl, ?_, hx⟩
            intro y hy
            rcases List.mem_cons.1 hy with e | hy
            · subst e; exact ⟨v, m, (search_iff _ _ _ _ _).1 hv, (asColumns_iff _ _).1 hm⟩
            · exact hp y hy
          · simp at h
    · rintro ⟨ha, pre, x, post, e, hp, hx⟩
      cases pre with
      | nil =>
        simp only [List.nil_append, List.cons.injEq] at e
        obtain ⟨rfl, rfl⟩ := e
        rw [(search_none _ _ _ _).2 hx]
        simp [ha]
      | cons y pre =>
        simp only [List.cons_append, List.cons.injEq] at e
        obtain ⟨rfl, e⟩ := e
        obtain ⟨v, m, hv, hm⟩ := hp name (by simp)
        have := ih.2 ⟨ha, pre, x, post, e, fun y hy => hp y (by simp [hy]), hx⟩
        rw [(search_iff _ _ _ _ _).2 hv]
        simp only [(asColumns_iff _ _).2 hm, this]

private theorem beside_fold (c : Matrix) (cs : List Matrix) (h : ∀ d ∈ cs, d.2.length = c.2.length) :
    SideBySide (c :: cs) (cs.foldl beside c) ∧ (cs.foldl beside c).2.length = c.2.length := by
  induction cs using List.reverseRecOn with
  | nil =>
    refine ⟨⟨by simp, by simp, ?_⟩, rfl⟩
    intro i row hr
    simp only [List.foldl_nil] at hr
    simp [List.getD_eq_getElem?_getD, hr]
  | append_singleton cs d ih =>
    obtain ⟨⟨h1, h2, h3⟩, hlen⟩ := ih (fun x hx => h x (by simp [hx]))
    have hd := h d (by simp)
    rw [List.foldl_append, List.foldl_cons, List.foldl_nil]
    generalize cs.foldl beside c = r at h1 h2 h3 hlen
    have hl : (beside r d).2.length = c.2.length := by simp [beside, hlen, hd]
    refine ⟨⟨?_, ?_, ?_⟩, hl⟩
    · simp only [beside, h1, List.map_cons, List.sum_cons, List.map_append, List.sum_append, List.map_nil, List.sum_nil]
      omega
    · intro x hx
      rw [hl]
      simp only [List.mem_cons, List.mem_append, List.not_mem_nil, or_false] at hx
      rcases hx with rfl | hx | rfl
      · rfl
      · rw [← hlen]; exact h2 x (by simp [hx])
      · exact hd
    · intro i row hr
      simp only [beside, List.getElem?_zipWith] at hr
      cases hi : r.2[i]? with
      | none => rw [hi] at hr; simp at hr
      | some x =>
        cases hj : d.2[i]? with
        | none => rw [hi, hj] at hr; simp at hr
        | some y =>
          rw [hi, hj] at hr
          simp only [Option.some.injEq] at hr
          have := h3 i x hi
          rw [← hr, this]
          simp [hj]

private theorem side_unique (c : Matrix) (cs : List Matrix) (m n : Matrix) (hm : SideBySide (c :: cs) m)
    (hn : SideBySide (c :: cs) n) : m = n := by
  have hl : m.2.length = n.2.length := (hm.2.1 c (by simp)).symm.trans (hn.2.1 c (by simp))
  refine Prod.ext (hm.1.trans hn.1.symm) (List.ext_getElem hl ?_)
  intro i h1 h2
  rw [hm.2.2 i _ (List.getElem?_eq_getElem h1), hn.2.2 i _ (List.getElem?_eq_getElem h2)]

private theorem hstack_iff (cs : List Matrix) (m : Matrix) : hstack cs = .ok m ↔ cs ≠ [] ∧ SideBySide cs m := by
  cases cs with
  | nil => simp [hstack]
  | cons c cs =>
    simp only [hstack]
    constructor
    · intro h
      split_ifs at h with hc
      simp only [Except.ok.injEq] at h
      subst h
      exact ⟨by simp, (beside_fold c cs (by simpa using hc)).1⟩
    · rintro ⟨_, h⟩
      have hc : ∀ d ∈ cs, d.2.length = c.2.length := fun d hd => (h.2.1 d (by simp [hd])).trans (h.2.1 c (by simp)).symm
      rw [if_pos (by simpa using hc)]
      rw [side_unique c cs _ _ (beside_fold c cs hc).1 h]

private theorem orEmpty_iff (s : Source) (d : Columns) : s.orEmpty = .ok d ↔ Usable s d := by
  cases s with
  | absent => simp [Source.orEmpty, Usable, eq_comm]
  | columns e => simp [Source.orEmpty, Usable, eq_comm]
  | array v =>
    simp only [Source.orEmpty, Usable]
    split_ifs with h
    · simp; omega
    · simp only [Except.ok.injEq]
      constructor
      · rintro rfl; exact ⟨by omega, rfl⟩
      · rintro ⟨_, rfl⟩; rfl

/-- **C154** (stacking): what stacking columns gives is exactly: all columns found — in the labels (predictions), else the features,
else the transformed features — side by side, if they have one or two dimensions and the same number of rows; or, if missing columns
are allowed and one is missing, no row at all. In every other case it is refused. -/
theorem C154_stack (missing : ℕ) (first : Source) (features transformed : Columns) (allow : Bool) (names : List String) (m : Matrix) :
    stack missing first features transformed allow names = .ok m ↔ ∃ d, Usable first d ∧
      ((names ≠ [] ∧ ∃ cs, List.Forall₂ (fun name c => ∃ v, Holds d features transformed name v ∧ IsMatrix v c) names cs ∧
          SideBySide cs m) ∨
        (allow = true ∧ m = (missing, []) ∧ ∃ pre name post, names = pre ++ name :: post ∧
          (∀ x ∈ pre, ∃ v c, Holds d features transformed x v ∧ IsMatrix v c) ∧ ¬ ∃ v, Holds d features transformed name v)) := by
  constructor
  · intro h
    unfold stack at h
    split at h
    · simp at h
    · next d hd =>
      refine ⟨d, (orEmpty_iff _ _).1 hd, ?_⟩
      split at h
      · simp at h
      · next hc =>
        simp only [Except.ok.injEq] at h
        obtain ⟨ha, hr⟩ := (collect_none _ _ _ _ _).1 hc
        exact .inr ⟨ha, h.symm, hr⟩
      · next cs hc =>
        have hc := (collect_some _ _ _ _ _ _).1 hc
        obtain ⟨hne, hs⟩ := (hstack_iff _ _).1 h
        refine .inl ⟨?_, cs, hc, hs⟩
        rintro rfl
        cases hc
        exact hne rfl
  · rintro ⟨d, hu, hor⟩
    unfold stack
    rw [(orEmpty_iff _ _).2 hu]
    rcases hor with ⟨hne, cs, hc, hs⟩ | ⟨ha, rfl, hr⟩
    · simp only [(collect_some _ _ _ _ _ _).2 hc]
      refine (hstack_iff _ _).2 ⟨?_, hs⟩
      rintro rfl
      cases hc
      exact hne rfl
    · simp only [(collect_none _ _ _ _ _).2 ⟨ha, hr⟩]

/-! ### the number of detections -/

/-- **C154** (number of detections, partial): a positive whole number of detections leaves that many rows. Missing from the full claim:
zero, see `C154_zero_detections_fails`. -/
theorem C154_truncate_partial (p : Source) (d features transformed : Columns) (hu : Usable p d) (allow : Bool) (key : String)
    (hk : key ≠ "") (v : Value) (hv : Holds d features transformed key v) (n : ℕ) (hn : 0 < n)
    (hb : v.body = .d0 n ∨ v.body = .d1 [(n : ℚ)] ∨ v.body = .d2 1 [[(n : ℚ)]]) (hi : v.integral = true) (rows : List (List ℚ)) :
    truncate p features transformed allow key rows = .ok (rows.take n) := by
  unfold truncate
  rw [(orEmpty_iff _ _).2 hu]
  simp only [hk, ne_eq, not_false_eq_true, if_true]
  rw [(search_iff _ _ _ _ _).2 hv]
  have hc : countOf v = .ok (true, (n : ℚ)) := by
    unfold countOf
    rcases hb with hb | hb | hb <;> rw [hb] <;> simp [hi]
  simp only [hc, cut]
  have hn' : (0 : ℚ) < n := by exact_mod_cast hn
  split_ifs with h1
  · simp
  · have : rows.length ≤ n := by
      by_contra hlt
      exact h1 ⟨ne_of_gt hn', hn', by exact_mod_cast not_le.1 hlt⟩
    rw [List.take_of_length_le this]

/-- **C154** (number of detections, missing): without the number all rows are left if this is allowed, else it is refused. -/
theorem C154_truncate_missing (p : Source) (d features transformed : Columns) (hu : Usable p d) (allow : Bool) (key : String)
    (hk : key ≠ "") (hv : ¬ ∃ v, Holds d features transformed key v) (rows : List (List ℚ)) :
    truncate p features transformed allow key rows = if allow then .ok rows else .error .keyError := by
  unfold truncate
  rw [(orEmpty_iff _ _).2 hu]
  simp only [hk, ne_eq, not_false_eq_true, if_true]
  rw [(search_none _ _ _ _).2 hv]
  cases allow <;> simp [cut]

/-- **C154** (negation): an image without detections keeps every row of the padding as a detection. -/
theorem C154_zero_detections_fails (p : Source) (d features transformed : Columns) (hu : Usable p d) (allow : Bool) (key : String)
    (hk : key ≠ "") (v : Value) (hv : Holds d features transformed key v) (hb : v.body = .d0 0 ∨ v.body = .d1 [0])
    (rows : List (List ℚ)) : truncate p features transformed allow key rows = .ok rows := by
  unfold truncate
  rw [(orEmpty_iff _ _).2 hu]
  simp only [hk, ne_eq, not_false_eq_true, if_true]
  rw [(search_iff _ _ _ _ _).2 hv]
  have hc : countOf v = .ok (v.integral, 0) := by
    unfold countOf
    rcases hb with hb | hb <;> rw [hb]
  simp only [hc, cut]
  simp

/-- **C154** (negation): a number of detections of a floating point type is refused whenever there are rows to leave out. -/
theorem C154_float_detections_fails (p : Source) (d features transformed : Columns) (hu : Usable p d) (allow : Bool) (key : String)
    (hk : key ≠ "") (v : Value) (hv : Holds d features transformed key v) (n : ℕ) (hn : 0 < n)
    (hb : v.body = .d0 n ∨ v.body = .d1 [(n : ℚ)]) (hi : v.integral = false) (rows : List (List ℚ)) :
    (∃ r, truncate p features transformed allow key rows = .ok r) ↔ rows.length ≤ n := by
  unfold truncate
  rw [(orEmpty_iff _ _).2 hu]
  simp only [hk, ne_eq, not_false_eq_true, if_true]
  rw [(search_iff _ _ _ _ _).2 hv]
  have hc : countOf v = .ok (false, (n : ℚ)) := by
    unfold countOf
    rcases hb with hb | hb <;> rw [hb] <;> simp [hi]
  simp only [hc, cut]
  have hn' : (0 : ℚ) < n := by exact_mod_cast hn
  split_ifs with h1 h2
  · simp at h2
  · have := h1.2.2
    have : n < rows.length := by exact_mod_cast this
    simp; omega
  · have : rows.length ≤ n := by
      by_contra hlt
      exact h1 ⟨ne_of_gt hn', hn', by exact_mod_cast not_le.1 hlt⟩
    simp [this]

/-! ### what is matched -/

/-- What stacking leaves for the labels (predictions): the array found, or the columns side by side. -/
def Stacking (missing : ℕ) (names : List String) (first : Source) (features transformed : Columns) (allow : Bool) (s : Source) : Prop :=
  (names = [] ∧ s = first) ∨
    (names ≠ [] ∧ ∃ w rows, stack missing first features transformed allow names = .ok (w, rows) ∧ s = .array ⟨false, .d2 w rows⟩)

/-- A matrix with more than `n` columns and these rows. -/
def Wide (n : ℕ) (s : Source) (rows : List (List ℚ)) : Prop := ∃ i w, n < w ∧ s = .array ⟨i, .d2 w rows⟩

/-- **C154** (image): the rows matched of an image are exactly those of the stacked labels, with at least five columns, and of the
stacked predictions, with at least six, after leaving out those beyond the number of detections if its key is given. -/
theorem C154_image (k : Keys) (im : Image) (gt pred : List (List ℚ)) :
    prepare k im = .ok (gt, pred) ↔
      ∃ l p, Stacking 5 k.labels im.labels im.features im.transformed k.allowMissing l ∧
        Stacking 6 k.predictions im.predictions im.features im.transformed k.allowMissing p ∧ Wide 4 l gt ∧
        ∃ all, Wide 5 p all ∧
          if k.numDetections = "" ∨ all = [] then pred = all
          else truncate im.predictions im.features im.transformed k.allowMissing k.numDetections all = .ok pred := by
  have hlab : ∀ s, labelsOf k im = .ok s ↔ Stacking 5 k.labels im.labels im.features im.transformed k.allowMissing s := by
    intro s
    unfold labelsOf Stacking
    by_cases hk : k.labels = []
    · simp [hk, eq_comm]
    · simp only [List.isEmpty_iff, hk, if_false, false_and, ne_eq, not_false_eq_true, true_and, false_or]
      cases hs : stack 5 im.labels im.features im.transformed k.allowMissing k.labels with
      | error e => simp
      | ok m => simp [ofMatrix, eq_comm]
                constructor
                · intro h; exact ⟨m.1, m.2, rfl, h⟩
                · rintro ⟨w, rows, e, h⟩; rw [e]; exact h
  have hpre : ∀ s, predictionsOf k im = .ok s ↔
      Stacking 6 k.predictions im.predictions im.features im.transformed k.allowMissing s := by
    intro s
    unfold predictionsOf Stacking
    by_cases hk : k.predictions = []
    · simp [hk, eq_comm]
    · simp only [List.isEmpty_iff, hk, if_false, false_and, ne_eq, not_false_eq_true, true_and, false_or]
      cases hs : stack 6 im.predictions im.features im.transformed k.allowMissing k.predictions with
      | error e => simp
      | ok m => simp [ofMatrix, eq_comm]
                constructor
                · intro h; exact ⟨m.1, m.2, rfl, h⟩
                · rintro ⟨w, rows, e, h⟩; rw [e]; exact h
  have hchk : ∀ e n s rows, checked e n s = .ok rows ↔ Wide n s rows := by
    intro e n s rows
    unfold checked Wide
    cases s with
    | absent => simp
    | columns d => simp
    | array v =>
      obtain ⟨i, b⟩ := v
      cases b with
      | d0 x => simp
      | d1 x => simp
      | more x => simp
      | d2 w r =>
        simp only
        split_ifs with hw
        · simp; omega
        · simp only [Except.ok.injEq]
          constructor
          · rintro rfl; exact ⟨i, w, by omega, rfl⟩
          · rintro ⟨_, _, _, h⟩; simp at h; exact h.2.2
  constructor
  · intro h
    unfold prepare at h
    split at h
    · simp at h
    next l hl =>
    split at h
    · simp at h
    next p hp =>
    split at h
    · simp at h
    next p' hp' =>
    split at h
    · simp at h
    next gt' hgt =>
    split at h
    · simp at h
    next pred' hpr =>
    simp only [Except.ok.injEq, Prod.mk.injEq] at h
    obtain ⟨rfl, rfl⟩ := h
    refine ⟨l, p, (hlab l).1 hl, (hpre p).1 hp, (hchk _ _ _ _).1 hgt, ?_⟩
    have hw := (hchk _ _ _ _).1 hpr
    unfold shortened at hp'
    split_ifs at hp' with hk
    · simp only [Except.ok.injEq] at hp'
      subst hp'
      exact ⟨pred', hw, by simp [hk]⟩
    · split at hp'
      · next i w rows =>
        split_ifs at hp' with hz
        · simp only [Except.ok.injEq] at hp'
          subst hp'
          refine ⟨pred', hw, ?_⟩
          obtain ⟨i', w', hw', e⟩ := hw
          simp only [Source.array.injEq, Value.mk.injEq, Body.d2.injEq] at e
          obtain ⟨rfl, rfl, rfl⟩ := e
          have : rows = [] := by
            rcases Nat.mul_eq_zero.1 hz with h | h
            · exact List.length_eq_zero_iff.1 h
            · omega
          simp [this]
        · split at hp'
          · simp at hp'
          · next r hr =>
            simp only [Except.ok.injEq] at hp'
            subst hp'
            obtain ⟨i', w', hw', e⟩ := hw
            simp only [Source.array.injEq, Value.mk.injEq, Body.d2.injEq] at e
            obtain ⟨rfl, rfl, rfl⟩ := e
            refine ⟨rows, ⟨i, w, hw', rfl⟩, ?_⟩
            have : rows ≠ [] := by
              rintro rfl
              simp at hz
            simp [hk, this, hr]
      · next v hnot =>
        simp only [Except.ok.injEq] at hp'
        subst hp'
        obtain ⟨i', w', hw', e⟩ := hw
        exact absurd e (by intro e; simp only [Source.array.injEq] at e; exact hnot i' w' pred' (by rw [e]))
      · simp at hp'
  · rintro ⟨l, p, hl, hp, hgt, all, hall, hif⟩
    unfold prepare
    rw [(hlab l).2 hl]
    simp only [(hpre p).2 hp]
    obtain ⟨i, w, hw, rfl⟩ := hall
    have hs : shortened k im (.array ⟨i, .d2 w all⟩) = .ok (.array ⟨i, .d2 w pred⟩) := by
      unfold shortened
      by_cases hk : k.numDetections = ""
      · rw [if_pos (.inl hk)] at hif
        simp [hk, hif]
      · by_cases ha : all = []
        · rw [if_pos (.inr ha)] at hif
          simp [hk, hif, ha]
        · rw [if_neg (by simp [hk, ha])] at hif
          have : ¬ all.length * w = 0 := by
            intro h
            rcases Nat.mul_eq_zero.1 h with h | h
            · exact ha (List.length_eq_zero_iff.1 h)
            · omega
          simp only [hk, if_false, this, hif]
    rw [hs]
    simp only [(hchk .keyError 4 l gt).2 hgt, (hchk .attributeError 5 _ pred).2 ⟨i, w, hw, rfl⟩]

/-- **C154** (columns): from one column per number, the box of each row has the numbers of the columns in that row. -/
theorem C154_columns (missing : ℕ) (d features transformed : Columns) (allow : Bool) (names : List String)
    (cols : List (List ℚ)) (hne : names ≠ []) (n : ℕ) (hlen : ∀ c ∈ cols, c.length = n)
    (hc : List.Forall₂ (fun name c => ∃ v, Holds d features transformed name v ∧ v.body = .d1 c) names cols) :
    ∃ rows : List (List ℚ), stack missing (.columns d) features transformed allow names = .ok (cols.length, rows) ∧ rows.length = n ∧
      ∀ (i : ℕ) (row : List ℚ), rows[i]? = some row → ∀ j : ℕ, row[j]? = cols[j]?.bind fun c => c[i]? := by
  let cs : List Matrix := cols.map fun c => (1, c.map fun x => [x])
  have hne' : cols ≠ [] := by
    rintro rfl
    cases hc
    exact hne rfl
  let rows : List (List ℚ) := (List.range n).map fun i => cols.map fun c => c.getD i 0
  have hside : SideBySide cs (cols.length, rows) := by
    refine ⟨by simp [cs, Function.comp_def], by simpa [cs, rows] using hlen, ?_⟩
    intro i row hr
    have hi : i < n := by
      have := (List.getElem?_eq_some_iff.1 hr).1
      simpa [rows] using this
    simp only [rows, List.getElem?_map, List.getElem?_range hi, Option.map_some, Option.some.injEq] at hr
    subst hr
    simp only [cs, List.map_map]
    clear hc hne'
    induction cols with
    | nil => rfl
    | cons c cols ih =>
      have hcl := hlen c (by simp)
      have := ih (fun x hx => hlen x (by simp [hx]))
      simp only [List.map_cons, List.flatten_cons, Function.comp_apply]
      rw [← this]
      simp [List.getD_eq_getElem?_getD, hcl, hi]
  refine ⟨rows, (C154_stack missing (.columns d) features transformed allow names _).2
    ⟨d, rfl, .inl ⟨hne, cs, ?_, hside⟩⟩, by simp [rows], ?_⟩
  · simp only [cs, List.forall₂_map_right_iff]
    exact hc.imp fun name c h => by
      obtain ⟨v, hv, hb⟩ := h
      exact ⟨v, hv, .inl ⟨c, hb, rfl⟩⟩
  · intro i row hr j
    have hi : i < n := by
      have := (List.getElem?_eq_some_iff.1 hr).1
      simpa [rows] using this
    simp only [rows, List.getElem?_map, List.getElem?_range hi, Option.map_some, Option.some.injEq] at hr
    subst hr
    simp only [List.getElem?_map]
    cases hj : cols[j]? with
    | none => rfl
    | some c =>
      have := hlen c (List.mem_of_getElem? hj)
      simp [List.getD_eq_getElem?_getD, this, hi]

/-- **C154** (boxes): of five columns the first four are, in this order, left, top, right and bottom of the boxes and the fifth is their
class; of six columns the sixth is the confidence. -/
theorem C154_boxes (missing : ℕ) (d features transformed : Columns) (allow : Bool) (names : List String) (hne : names ≠ []) (n : ℕ)
    (l t r b c : List ℚ) (s : Option (List ℚ)) (hlen : ∀ x ∈ [l, t, r, b, c] ++ s.toList, x.length = n)
    (hc : List.Forall₂ (fun name x => ∃ v, Holds d features transformed name v ∧ v.body = .d1 x) names
      ([l, t, r, b, c] ++ s.toList)) :
    ∃ w rows, stack missing (.columns d) features transformed allow names = .ok (w, rows) ∧ rows.length = n ∧
      ∀ (i : ℕ) (row : List ℚ), rows[i]? = some row →
        truthOf row = ⟨⟨l.getD i 0, t.getD i 0, r.getD i 0, b.getD i 0⟩, c.getD i 0⟩ ∧
        detectionOf row = ⟨⟨l.getD i 0, t.getD i 0, r.getD i 0, b.getD i 0⟩, c.getD i 0, (s.getD []).getD i 0⟩ := by
  obtain ⟨rows, h1, h2, h3⟩ := C154_columns missing d features transformed allow names _ hne n hlen hc
  refine ⟨_, rows, h1, h2, ?_⟩
  intro i row hr
  have h := h3 i row hr
  simp only [truthOf, detectionOf, List.getD_eq_getElem?_getD, h]
  cases s <;> simp

/-- **C154** (negation): a single column that is missing takes all boxes with it, whatever the other columns hold. -/
theorem C154_missing_column_fails (missing : ℕ) (d features transformed : Columns) (names : List String) (name : String)
    (hm : ¬ ∃ v, Holds d features transformed name v) (hc : ∀ x ∈ names, ∃ v c, Holds d features transformed x v ∧ IsMatrix v c) :
    stack missing (.columns d) features transformed true (names ++ [name]) = .ok (missing, []) :=
  (C154_stack missing (.columns d) features transformed true _ _).2
    ⟨d, rfl, .inr ⟨rfl, rfl, names, name, [], rfl, hc, hm⟩⟩

/-! ### cases -/

private def col (l : List ℚ) : Value := ⟨false, .d1 l⟩

private def image : Image :=
  { labels := .columns [("xmin", col [1, 2]), ("class", col [0, 1])]
    predictions := .columns [("boxes", ⟨false, .d2 4 [[1, 2, 3, 4], [5, 6, 7, 8], [0, 0, 0, 0]]⟩), ("class", col [0, 1, 0]),
      ("score", col [1, 1, 0]), ("num", ⟨true, .d1 [2]⟩)]
    features := [("xmin", col [9, 9]), ("ymin", col [3, 4]), ("xmax", col [5, 6])]
    transformed := [("ymax", col [7, 8])] }

/-- labels from all three places, the labels first; the last detection is padding -/
example : prepare ⟨["xmin", "ymin", "xmax", "ymax", "class"], ["boxes", "class", "score"], "num", false⟩ image
    = .ok ([[1, 3, 5, 7, 0], [2, 4, 6, 8, 1]], [[1, 2, 3, 4, 0, 1], [5, 6, 7, 8, 1, 1]]) := by decide +kernel

/-- a column that is missing -/
example : prepare ⟨["xmin", "ymin", "xmax", "ymax", "other"], ["boxes", "class", "score"], "num", false⟩ image = .error .keyError ∧
    prepare ⟨["xmin", "ymin", "xmax", "ymax", "other"], ["boxes", "class", "score"], "", true⟩ image
      = .ok ([], [[1, 2, 3, 4, 0, 1], [5, 6, 7, 8, 1, 1], [0, 0, 0, 0, 0, 0]]) := by decide +kernel

/-- the boxes of the rows -/
example : truthOf [1, 3, 5, 7, 0] = ⟨⟨1, 3, 5, 7⟩, 0⟩ ∧ detectionOf [1, 2, 3, 4, 0, 9] = ⟨⟨1, 2, 3, 4⟩, 0, 9⟩ := by decide +kernel

end StackBoxes
end TFMA
