import Verif.Model.AnalysisTable
import Verif.Props.Filters

/-!
# C160: the analysis table holds the extracts asked for

Every example has a row, and the row has exactly those values of the extracts of the example that are asked for.
-/

namespace TFMA
namespace Filters

variable {α : Type}

/-! ### specification -/

/-- Row by row, a value is in the table if it is in the extracts and wanted. -/
def Shows (wanted : Path → Option α → Prop) (rows table : List (Target α)) : Prop :=
  List.Forall₂ (fun row out => ∀ (p : Path) (a : Option α),
    (Tree.node out).leafAt p = some a ↔ (Tree.node row).leafAt p = some a ∧ wanted p a) rows table

/-! ### keys as filters -/

private theorem foldl_find (l : List String) (f : Filter) (k : String) :
    (l.foldl (fun f k => f.set k (.node .nil)) f).find? k = if k ∈ l then some (.node .nil) else f.find? k := by
  induction l generalizing f with
  | nil => simp
  | cons x l ih =>
    rw [List.foldl_cons, ih, Forest.find?_set]
    by_cases h : k ∈ l
    · simp [h]
    · by_cases h2 : x = k
      · simp [h2]
      · simp [h, h2, Ne.symm h2]

private theorem set_WF (f : Filter) (k : String) (h : f.WF) : (f.set k (.node .nil)).WF := by
  induction f using Forest.rec (motive_1 := fun _ => True) with
  | leaf => trivial
  | node => trivial
  | nil => simp [Forest.set, Forest.WF, Tree.WF, Forest.keys]
  | cons k' t rest _ ih =>
    unfold Forest.WF at h
    simp only [Forest.set]
    by_cases e : k' = k
    · rw [if_pos e]
      unfold Forest.WF
      refine ⟨h.1, ?_, h.2.2⟩
      unfold Tree.WF Forest.WF
      trivial
    · rw [if_neg e]
      unfold Forest.WF
      refine ⟨?_, h.2.1, ih h.2.2⟩
      rw [Forest.keys_set]
      split
      · exact h.1
      · simp [h.1, e]

private theorem foldl_WF (l : List String) (f : Filter) (h : f.WF) : (l.foldl (fun f k => f.set k (.node .nil)) f).WF := by
  induction l generalizing f with
  | nil => exact h
  | cons x l ih => exact ih _ (set_WF f x h)

private theorem keys_WF (l : List String) : (Asked.keys l).toFilter.WF := foldl_WF l .nil (by unfold Forest.WF; trivial)

private theorem keys_find (l : List String) (k : String) :
    (Asked.keys l).toFilter.find? k = if k ∈ l then some (.node .nil) else none := by
  rw [Asked.toFilter, foldl_find]
  rfl

private theorem keys_empty (l : List String) : (Asked.keys l).toFilter.isEmpty = l.isEmpty := by
  cases l with
  | nil => rfl
  | cons x l =>
    cases h : (Asked.keys (x :: l)).toFilter with
    | nil =>
      have := keys_find (x :: l) x
      rw [h] at this
      simp [Forest.find?] at this
    | cons _ _ _ => rfl

private theorem keys_selects (l : List String) (hl : l ≠ []) (k : String) (p : Path) (b : Bool) :
    selects (.node (Asked.keys l).toFilter) (k :: p) b = decide (k ∈ l) := by
  have he : (Asked.keys l).toFilter.isEmpty = false := by
    rw [keys_empty]
    cases l with
    | nil => exact absurd rfl hl
    | cons _ _ => rfl
  unfold selects
  rw [he, keys_find]
  by_cases h : k ∈ l
  · simp only [h, if_true, decide_true, Bool.false_or]
    cases p <;> simp [selects, Forest.isEmpty]
  · simp [h]

private theorem keys_below (l : List String) (p : Path) (hp : p ≠ []) :
    continuesBelow (.node (Asked.keys l).toFilter) p = false := by
  cases p with
  | nil => exact absurd rfl hp
  | cons k p =>
    unfold continuesBelow
    rw [keys_find]
    by_cases h : k ∈ l
    · simp only [h, if_true]
      cases p <;> simp [continuesBelow, Forest.isEmpty]
    · simp [h]

private theorem exclude_flat (exc : Filter) (h : ∀ k sub, exc.find? k = some sub → sub = .node .nil) (row : Target α) :
    ∃ r, excludeItems exc row = .ok r := by
  induction row using Forest.rec (motive_1 := fun _ => True) with
  | leaf => trivial
  | node => trivial
  | nil => exact ⟨.nil, by simp [excludeItems]⟩
  | cons k v rest _ ih =>
    obtain ⟨r, hr⟩ := ih
    unfold excludeItems
    cases hf : exc.find? k with
    | none => simp [hr]
    | some sub =>
      have := h k sub hf
      subst this
      simp [hr, Forest.isEmpty]

private theorem shows_imp {R S : Target α → Target α → Prop} (h : ∀ a b, R a b → S a b) {l m : List (Target α)}
    (hr : List.Forall₂ R l m) : List.Forall₂ S l m := by
  induction hr with
  | nil => exact .nil
  | cons hab _ ih => exact .cons (h _ _ hab) ih

/-! ### rows -/

private theorem rows_shows (inc exc : Filter) (wanted : Path → Option α → Prop) (rows table : List (Target α))
    (hrow : ∀ row ∈ rows, ∀ r, filterRow inc exc row = .ok r →
      ∀ p a, (Tree.node r).leafAt p = some a ↔ (Tree.node row).leafAt p = some a ∧ wanted p a)
    (h : filterRows inc exc rows = .ok table) : Shows wanted rows table := by
  induction rows generalizing table with
  | nil =>
    simp only [filterRows, Except.ok.injEq] at h
    subst h
    exact .nil
  | cons row rest ih =>
    simp only [filterRows] at h
    cases hr : filterRow inc exc row with
    | error e => simp [hr] at h
    | ok r =>
      simp only [hr] at h
      cases hrs : filterRows inc exc rest with
      | error e => simp [hrs] at h
      | ok rs =>
        simp only [hrs, Except.ok.injEq] at h
        subst h
        exact .cons (hrow row (by simp) r hr) (ih rs (fun row' h' => hrow row' (by simp [h'])) hrs)

private theorem rows_ok (inc exc : Filter) (rows : List (Target α)) (hrow : ∀ row ∈ rows, ∃ r, filterRow inc exc row = .ok r) :
    ∃ table, filterRows inc exc rows = .ok table := by
  induction rows with
  | nil => exact ⟨[], rfl⟩
  | cons row rest ih =>
    obtain ⟨r, hr⟩ := hrow row (by simp)
    obtain ⟨rs, hrs⟩ := ih fun row' h' => hrow row' (by simp [h'])
    exact ⟨r :: rs, by simp [filterRows, hr, hrs]⟩

private theorem leaf_path (row : Target α) (p : Path) (a : Option α) (h : (Tree.node row).leafAt p = some a) : p ≠ [] := by
  rintro rfl
  simp [leafAt_nil_node] at h

private theorem include_row (inc : Filter) (hw : inc.WF) (hne : inc.isEmpty = false) (exc : Filter) (row r : Target α)
    (h : filterRow inc exc row = .ok r) (p : Path) (a : Option α) :
    (Tree.node r).leafAt p = some a ↔ (Tree.node row).leafAt p = some a ∧ selects (.node inc) p a.isNone = true := by
  simp only [filterRow, hne, Bool.false_and, Bool.false_eq_true, if_false, Bool.not_false, if_true] at h
  exact C08_include_exact inc hw row r h p a

private theorem exclude_row (exc : Filter) (hne : exc.isEmpty = false) (row r : Target α) (ht : row.WF)
    (h : filterRow .nil exc row = .ok r) (p : Path) (a : Option α) :
    (Tree.node r).leafAt p = some a ↔ (Tree.node row).leafAt p = some a ∧ selects (.node exc) p a.isNone = false := by
  have hn : (Forest.nil : Filter).isEmpty = true := rfl
  simp only [filterRow, hn, hne, Bool.true_and, Bool.false_eq_true, if_false, Bool.not_true] at h
  exact C08_exclude_exact exc hne row r ht h p a

private theorem exclude_keys (l : List String) (hl : l ≠ []) (rows : List (Target α)) (ht : ∀ row ∈ rows, row.WF) :
    ∃ table, filterRows .nil (Asked.keys l).toFilter rows = .ok table ∧
      Shows (fun p _ => ∀ k ∈ p.head?, k ∉ l) rows table := by
  have hne : (Asked.keys l).toFilter.isEmpty = false := by
    rw [keys_empty]
    cases l with
    | nil => exact absurd rfl hl
    | cons _ _ => rfl
  obtain ⟨table, h⟩ := rows_ok .nil (Asked.keys l).toFilter rows fun row hrow => by
    obtain ⟨r, hr⟩ := exclude_flat (Asked.keys l).toFilter (fun k sub hs => by
      rw [keys_find] at hs
      split at hs
      · simpa using hs.symm
      · simp at hs) row
    have hn : (Forest.nil : Filter).isEmpty = true := rfl
    exact ⟨r, by simp [filterRow, hn, hne, excludeFilter, hr]⟩
  refine ⟨table, h, rows_shows _ _ _ rows table (fun row hrow r hr p a => ?_) h⟩
  rw [exclude_row _ hne row r (ht row hrow) hr p a]
  refine and_congr_right fun hp => ?_
  cases p with
  | nil => exact absurd rfl (leaf_path row [] a hp)
  | cons k p => simp [keys_selects l hl]

/-! ### C160 -/

/-- Unless told otherwise the table has everything but the inputs. -/
theorem C160_default (key : String) (rows : List (Target α)) (ht : ∀ row ∈ rows, row.WF) :
    ∃ table, evaluateExtracts key .nothing .nothing rows = .ok [(key, table)] ∧
      Shows (fun p _ => p.head? ≠ some "input") rows table := by
  obtain ⟨table, h, hs⟩ := exclude_keys ["input"] (by simp) rows ht
  refine ⟨table, ?_, ?_⟩
  · have hf : filterExtracts .nothing (.keys ["input"]) rows = .ok table := h
    simp [evaluateExtracts, Asked.truthy, hf]
  · refine shows_imp (fun row out h p a => ?_) hs
    rw [h p a]
    refine and_congr_right fun _ => ?_
    cases p <;> simp

/-- Keys to include: the table has what is under them and nothing else. -/
theorem C160_include (key : String) (l : List String) (hl : l ≠ []) (exc : Asked) (hexc : exc.truthy = false) (rows : List (Target α))
    (ht : ∀ row ∈ rows, row.WF) :
    ∃ table, evaluateExtracts key (.keys l) exc rows = .ok [(key, table)] ∧
      Shows (fun p _ => ∃ k ∈ l, p.head? = some k) rows table := by
  have hl' : (Asked.keys l).truthy = true := by
    cases l with
    | nil => exact absurd rfl hl
    | cons _ _ => rfl
  have hne : (Asked.keys l).toFilter.isEmpty = false := by
    rw [keys_empty]
    cases l with
    | nil => exact absurd rfl hl
    | cons _ _ => rfl
  obtain ⟨table, h⟩ := rows_ok (Asked.keys l).toFilter exc.toFilter rows fun row hrow => by
    have := (C08_include_succeeds_iff (Asked.keys l).toFilter (keys_WF l) row (ht row hrow)).2 fun p a hp hb => by
      rw [keys_below l p (leaf_path row p a hp)] at hb
      simp at hb
    obtain ⟨r, hr⟩ := this
    exact ⟨r, by simp [filterRow, hne, hr]⟩
  refine ⟨table, ?_, rows_shows _ _ _ rows table (fun row hrow r hr p a => ?_) h⟩
  · simp [evaluateExtracts, filterExtracts, hl', hexc, h]
  · rw [include_row _ (keys_WF l) hne _ row r hr p a]
    refine and_congr_right fun hp => ?_
    cases p with
    | nil => exact absurd rfl (leaf_path row [] a hp)
    | cons k p => simp [keys_selects l hl]

/-- Keys to exclude: the table has all but what is under them. -/
theorem C160_exclude (key : String) (l : List String) (hl : l ≠ []) (rows : List (Target α)) (ht : ∀ row ∈ rows, row.WF) :
    ∃ table, evaluateExtracts key .nothing (.keys l) rows = .ok [(key, table)] ∧
      Shows (fun p _ => ¬ ∃ k ∈ l, p.head? = some k) rows table := by
  obtain ⟨table, h, hs⟩ := exclude_keys l hl rows ht
  have hl' : (Asked.keys l).truthy = true := by
    cases l with
    | nil => exact absurd rfl hl
    | cons _ _ => rfl
  refine ⟨table, ?_, ?_⟩
  · have hf : filterExtracts .nothing (.keys l) rows = .ok table := h
    simp [evaluateExtracts, hl', hf]
  · refine shows_imp (fun row out h p a => ?_) hs
    rw [h p a]
    refine and_congr_right fun _ => ?_
    cases p with
    | nil => simp
    | cons k p =>
      simp only [List.head?_cons, Option.mem_some_iff, forall_eq', Option.some.injEq, not_exists, not_and]
      exact ⟨fun h k' hk' e => h (e ▸ hk'), fun h hk => h k hk rfl⟩

/-- Filters to include or to exclude: the table has what they select or do not select. -/
theorem C160_filters (key : String) (f : Filter) (hf : f.isEmpty = false) (rows : List (Target α)) :
    (f.WF → ∀ d, evaluateExtracts key (.filter f) .nothing rows = .ok d →
        ∃ table, d = [(key, table)] ∧ Shows (fun p a => selects (.node f) p a.isNone = true) rows table) ∧
      ((∀ row ∈ rows, row.WF) → ∀ d, evaluateExtracts key .nothing (.filter f) rows = .ok d →
        ∃ table, d = [(key, table)] ∧ Shows (fun p a => selects (.node f) p a.isNone = false) rows table) := by
  constructor
  · intro hw d h
    simp only [evaluateExtracts, filterExtracts, Asked.truthy, hf, Bool.not_false, Bool.true_or, if_true, Bool.and_false,
      Bool.false_eq_true, if_false, Asked.toFilter] at h
    cases hr : filterRows f .nil rows with
    | error e => simp [hr] at h
    | ok table =>
      simp only [hr, Except.ok.injEq] at h
      exact ⟨table, h.symm, rows_shows _ _ _ rows table (fun row _ r hr p a => include_row f hw hf _ row r hr p a) hr⟩
  · intro ht d h
    simp only [evaluateExtracts, filterExtracts, Asked.truthy, hf, Bool.not_false, Bool.or_true, if_true, Bool.false_and,
      Bool.false_eq_true, if_false, Asked.toFilter] at h
    cases hr : filterRows .nil f rows with
    | error e => simp [hr] at h
    | ok table =>
      simp only [hr, Except.ok.injEq] at h
      exact ⟨table, h.symm, rows_shows _ _ _ rows table (fun row hrow r hr p a => exclude_row f hf row r (ht row hrow) hr p a) hr⟩

/-- Not both. -/
theorem C160_both (key : String) (inc exc : Asked) (h : inc.truthy = true) (h' : exc.truthy = true) (rows : List (Target α)) :
    evaluateExtracts key inc exc rows = .error .valueError := by
  cases inc with
  | nothing => simp [Asked.truthy] at h
  | keys l => simp [evaluateExtracts, filterExtracts, h, h']
  | filter f => simp [evaluateExtracts, filterExtracts, h, h']

/-- Including nothing, or excluding nothing, gives everything, the inputs as well. -/
theorem C160_empty_fails (key : String) (rows : List (Target α)) :
    evaluateExtracts key (.keys []) .nothing rows = .ok [(key, rows)] ∧
      evaluateExtracts key .nothing (.keys []) rows = .ok [(key, rows)] := ⟨rfl, rfl⟩

/-- A row with an input and a label. -/
example : evaluateExtracts (α := ℕ) "analysis" .nothing .nothing
    [.cons "input" (.leaf (some 1)) (.cons "labels" (.leaf (some 2)) .nil)] =
    .ok [("analysis", [.cons "labels" (.leaf (some 2)) .nil])] := by rfl
example : (Forest.cons "input" (.leaf (some 1)) (.cons "labels" (.leaf (some 2)) .nil) : Target ℕ).WF := by
  simp [Forest.WF, Tree.WF, Forest.keys]
example : evaluateExtracts (α := ℕ) "analysis" (.keys ["labels", "predictions"]) .nothing
    [.cons "input" (.leaf (some 1)) (.cons "labels" (.leaf (some 2)) .nil)] =
    .ok [("analysis", [.cons "labels" (.leaf (some 2)) .nil])] := by rfl

end Filters
end TFMA
