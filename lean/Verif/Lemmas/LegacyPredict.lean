import Verif.Model.LegacyPredict
import Verif.Py.DictLemmas

/-!
# Lemmas on the legacy predict extractor
-/

namespace TFMA
namespace LegacyPredict

variable {V : Type}

/-- A model that looks at the examples one by one: what it fetches is, in the order of the examples, some values of each. -/
def PerExample (m : Loaded V) (g : Tree V → Dict String (Tree V)) : Prop :=
  ∀ inputs xs, m.predict inputs = .ok xs → xs = inputs.mapIdx fun i v => ⟨i, g v⟩

theorem get?_update_aux {K W : Type} [DecidableEq K] (e : Dict K W) : ∀ (d : Dict K W) (k : K), e.WF →
    Dict.get? (Dict.update d e) k = (Dict.get? e k).or (Dict.get? d k) := by
  induction e with
  | nil => intro d k _; rfl
  | cons kv e ih =>
    intro d k hwf
    obtain ⟨k', v⟩ := kv
    have hw : Dict.WF e := (List.nodup_cons.1 hwf).2
    have hn : k' ∉ Dict.keys e := (List.nodup_cons.1 hwf).1
    have : Dict.update d ((k', v) :: e) = Dict.update (Dict.set d k' v) e := rfl
    rw [this, ih _ _ hw, Dict.get?_set, Dict.get?_cons]
    by_cases hk : k' = k
    · subst hk
      rw [(Dict.get?_eq_none_iff e k').2 hn]
      simp
    · simp [hk]

theorem WF_update {K W : Type} [DecidableEq K] (e : Dict K W) : ∀ d : Dict K W, d.WF → (Dict.update d e).WF := by
  induction e with
  | nil => intro d h; exact h
  | cons kv e ih => intro d h; exact ih _ (Dict.WF_set h _ _)

/-! ### Columns -/

theorem getD_foldl_appendTo (e : Ex V) : ∀ (d : Dict String (List (Tree V))) (k : String), e.WF →
    (Dict.get? (e.foldl appendTo d) k).getD [] = (Dict.get? d k).getD [] ++ (Dict.get? e k).toList := by
  induction e with
  | nil => intro d k _; simp [Dict.get?]
  | cons kv e ih =>
    intro d k hwf
    obtain ⟨k', v⟩ := kv
    have hw : Dict.WF e := (List.nodup_cons.1 hwf).2
    have hn : k' ∉ Dict.keys e := (List.nodup_cons.1 hwf).1
    rw [List.foldl_cons, ih _ _ hw, appendTo, Dict.get?_set, Dict.get?_cons]
    by_cases hk : k' = k
    · subst hk
      rw [(Dict.get?_eq_none_iff e k').2 hn]
      simp
    · simp [hk]

theorem getD_wrap_aux (rows : List (Ex V)) : ∀ (d : Dict String (List (Tree V))) (k : String), (∀ r ∈ rows, Dict.WF r) →
    (Dict.get? (rows.foldl (fun d e => e.foldl appendTo d) d) k).getD [] =
      (Dict.get? d k).getD [] ++ rows.filterMap (fun r => Dict.get? r k) := by
  induction rows with
  | nil => intro d k _; simp
  | cons r rows ih =>
    intro d k h
    rw [List.foldl_cons, ih _ _ (fun x hx => h x (List.mem_cons_of_mem _ hx)), getD_foldl_appendTo _ _ _ (h r List.mem_cons_self),
      List.append_assoc]
    congr 1
    rw [List.filterMap_cons]
    cases Dict.get? r k <;> rfl

theorem getD_wrap (rows : List (Ex V)) (k : String) (h : ∀ r ∈ rows, Dict.WF r) :
    (Dict.get? (wrap rows) k).getD [] = rows.filterMap (fun r => Dict.get? r k) := by
  unfold wrap
  rw [getD_wrap_aux rows [] k h]
  rfl

/-! ### The loops -/

variable (env : Env V) (config : Option (List Spec)) (several : Bool)

theorem fetchedLoop_new (model : String) (elements : List (Ex V)) (xs : List (Fetched V)) :
    ∀ rows rows', fetchedLoop env config several model elements rows.length xs rows = .ok rows' ↔
      ∃ ys, rows' = rows ++ ys ∧ ys.length = xs.length ∧
        ∀ (j : ℕ) x, xs[j]? = some x → ∃ y, ys[j]? = some y ∧ newRow env config several model elements x = .ok y := by
  induction xs with
  | nil =>
    intro rows rows'
    simp only [fetchedLoop, Except.ok.injEq]
    constructor
    · rintro rfl; exact ⟨[], by simp, rfl, by simp⟩
    · rintro ⟨ys, rfl, h, _⟩
      rw [List.length_eq_zero_iff.1 h]; simp
  | cons x xs ih =>
    intro rows rows'
    have h0 : rows[rows.length]? = none := List.getElem?_eq_none (Nat.le_refl _)
    simp only [fetchedLoop, h0]
    cases hx : newRow env config several model elements x with
    | error e =>
      simp only [reduceCtorEq, false_iff]
      rintro ⟨ys, _, _, h⟩
      obtain ⟨y, _, hy⟩ := h 0 x rfl
      rw [hx] at hy; cases hy
    | ok row =>
      simp only
      have := ih (rows ++ [row]) rows'
      rw [List.length_append, List.length_singleton] at this
      rw [this]
      constructor
      · rintro ⟨ys, rfl, h1, h2⟩
        refine ⟨row :: ys, by simp, by simp [h1], fun j x' hj => ?_⟩
        cases j with
        | zero => cases hj; exact ⟨row, rfl, hx⟩
        | succ j => exact h2 j x' hj
      · rintro ⟨ys, rfl, h1, h2⟩
        cases ys with
        | nil => simp at h1
        | cons y ys =>
          obtain ⟨y', hy, hy'⟩ := h2 0 x rfl
          cases hy
          rw [hx] at hy'; cases hy'
          exact ⟨ys, by simp, by simpa using h1, fun j x' hj => h2 (j + 1) x' hj⟩

theorem fetchedLoop_add (model : String) (elements : List (Ex V)) (xs : List (Fetched V)) :
    ∀ pre old rows', old.length = xs.length →
      (fetchedLoop env config several model elements pre.length xs (pre ++ old) = .ok rows' ↔
      ∃ ys, rows' = pre ++ ys ∧ ys.length = xs.length ∧
        ∀ (j : ℕ) x o, xs[j]? = some x → old[j]? = some o → ∃ y, ys[j]? = some y ∧ addTo model o x = .ok y) := by
  induction xs with
  | nil =>
    intro pre old rows' hl
    have : old = [] := List.length_eq_zero_iff.1 hl
    subst this
    simp only [fetchedLoop, Except.ok.injEq]
    constructor
    · rintro rfl; exact ⟨[], rfl, rfl, by simp⟩
    · rintro ⟨ys, rfl, h, _⟩
      rw [List.length_eq_zero_iff.1 h]
  | cons x xs ih =>
    intro pre old rows' hl
    cases old with
    | nil => simp at hl
    | cons o old =>
      have h0 : (pre ++ o :: old)[pre.length]? = some o := by simp
      simp only [fetchedLoop, h0]
      cases hx : addTo model o x with
      | error e =>
        simp only [reduceCtorEq, false_iff]
        rintro ⟨ys, _, _, h⟩
        obtain ⟨y, _, hy⟩ := h 0 x o rfl rfl
        rw [hx] at hy; cases hy
      | ok row =>
        simp only
        have hset : (pre ++ o :: old).set pre.length row = (pre ++ [row]) ++ old := by simp
        have := ih (pre ++ [row]) old rows' (by simpa using hl)
        rw [List.length_append, List.length_singleton] at this
        rw [hset, this]
        constructor
        · rintro ⟨ys, rfl, h1, h2⟩
          refine ⟨row :: ys, by simp, by simp [h1], fun j x' o' hj ho => ?_⟩
          cases j with
          | zero => cases hj; cases ho; exact ⟨row, rfl, hx⟩
          | succ j => exact h2 j x' o' hj ho
        · rintro ⟨ys, rfl, h1, h2⟩
          cases ys with
          | nil => simp at h1
          | cons y ys =>
            obtain ⟨y', hy, hy'⟩ := h2 0 x o rfl rfl
            cases hy
            rw [hx] at hy'; cases hy'
            exact ⟨ys, by simp, by simpa using h1, fun j x' o' hj ho => h2 (j + 1) x' o' hj ho⟩

/-- The predictions of further models added to a row, one after the other. -/
def foldAdd (v : Tree V) : List (Loaded V × (Tree V → Dict String (Tree V))) → Ex V → Except Err (Ex V)
  | [], row => .ok row
  | p :: ps, row => match addTo p.1.name row ⟨0, p.2 v⟩ with
    | .error e => .error e
    | .ok row => foldAdd v ps row

theorem addTo_ref (model : String) (row : Ex V) (i : ℕ) (d : Dict String (Tree V)) :
    addTo model row ⟨i, d⟩ = addTo model row ⟨0, d⟩ := rfl

theorem mapIdx_get (inputs : List (Tree V)) (g : Tree V → Dict String (Tree V)) (j : ℕ) (v : Tree V) (h : inputs[j]? = some v) :
    (inputs.mapIdx fun i v => (⟨i, g v⟩ : Fetched V))[j]? = some ⟨j, g v⟩ := by
  simp [List.getElem?_mapIdx, h]

theorem modelsLoop_rest (elements : List (Ex V)) (inputs : List (Tree V)) (ps : List (Loaded V × (Tree V → Dict String (Tree V)))) :
    (∀ p ∈ ps, PerExample p.1 p.2) → ∀ rows rows', rows.length = inputs.length →
      modelsLoop env config several elements inputs (ps.map Prod.fst) rows = .ok rows' →
      rows'.length = inputs.length ∧
        ∀ (j : ℕ) v o, inputs[j]? = some v → rows[j]? = some o → ∃ y, rows'[j]? = some y ∧ foldAdd v ps o = .ok y := by
  induction ps with
  | nil =>
    intro _ rows rows' hl h
    simp only [List.map_nil, modelsLoop, Except.ok.injEq] at h
    subst h
    exact ⟨hl, fun j v o _ ho => ⟨o, ho, rfl⟩⟩
  | cons p ps ih =>
    intro hp rows rows' hl h
    simp only [List.map_cons, modelsLoop] at h
    split at h
    · cases h
    rename_i xs hxs
    have hxs := hp p List.mem_cons_self inputs xs hxs
    split at h
    · cases h
    rename_i rows1 h1
    have hlen : xs.length = inputs.length := by rw [hxs]; simp
    obtain ⟨ys, e, hy1, hy2⟩ := (fetchedLoop_add env config several p.1.name elements xs [] rows rows1 (by omega)).1 h1
    simp only [List.nil_append] at e
    subst e
    obtain ⟨k1, k2⟩ := ih (fun q hq => hp q (List.mem_cons_of_mem _ hq)) rows1 rows' (by omega) h
    refine ⟨k1, fun j v o hj ho => ?_⟩
    obtain ⟨y, hy, hy'⟩ := hy2 j ⟨j, p.2 v⟩ o (by rw [hxs]; exact mapIdx_get _ _ _ _ hj) ho
    obtain ⟨z, hz, hz'⟩ := k2 j v y hj hy
    refine ⟨z, hz, ?_⟩
    simp only [foldAdd]
    rw [addTo_ref] at hy'
    rw [hy']
    exact hz'

theorem inputsOf_spec (elements : List (Ex V)) : ∀ inputs, inputsOf elements = .ok inputs →
    inputs.length = elements.length ∧ ∀ (j : ℕ) e, elements[j]? = some e → Dict.get? e "input" = inputs[j]? := by
  induction elements with
  | nil => intro inputs h; cases h; exact ⟨rfl, by simp⟩
  | cons e es ih =>
    intro inputs h
    simp only [inputsOf] at h
    split at h
    · cases h
    rename_i v hv
    split at h
    · cases h
    rename_i vs hvs
    cases h
    obtain ⟨h1, h2⟩ := ih vs hvs
    refine ⟨by simp [h1], fun j e' hj => ?_⟩
    cases j with
    | zero => cases hj; exact hv
    | succ j => exact h2 j e' hj

/-- Where a row comes from. -/
def RowFrom (m : Loaded V) (g : Tree V → Dict String (Tree V)) (ps : List (Loaded V × (Tree V → Dict String (Tree V)))) (e row : Ex V) :
    Prop :=
  ∃ v row0 es, ∃ i : ℕ, Dict.get? e "input" = some v ∧ es[i]? = some e ∧
    newRow env config (decide (ps.length + 1 ≠ 1)) m.name es ⟨i, g v⟩ = .ok row0 ∧ foldAdd v ps row0 = .ok row

theorem rowsOf_spec (m : Loaded V) (g : Tree V → Dict String (Tree V)) (ps : List (Loaded V × (Tree V → Dict String (Tree V))))
    (hm : PerExample m g) (hp : ∀ p ∈ ps, PerExample p.1 p.2) (elements rows : List (Ex V))
    (h : rowsOf env config (m :: ps.map Prod.fst) elements = .ok rows) :
    rows.length = elements.length ∧
      ∀ (j : ℕ) e, elements[j]? = some e → ∃ row, rows[j]? = some row ∧ RowFrom env config m g ps e row := by
  unfold rowsOf at h
  split at h
  · cases h
  rename_i inputs hin
  obtain ⟨hl, hg⟩ := inputsOf_spec _ _ hin
  simp only [List.length_cons, List.length_map, modelsLoop] at h
  split at h
  · cases h
  rename_i xs hxs
  have hxs := hm inputs xs hxs
  split at h
  · cases h
  rename_i rows1 h1
  have hlen : xs.length = inputs.length := by rw [hxs]; simp
  obtain ⟨ys, e, hy1, hy2⟩ := (fetchedLoop_new env config _ m.name elements xs [] rows1).1 h1
  simp only [List.nil_append] at e
  subst e
  obtain ⟨k1, k2⟩ := modelsLoop_rest env config _ elements inputs ps hp rows1 rows (by omega) h
  refine ⟨by omega, fun j e hj => ?_⟩
  have hjl : j < inputs.length := by
    rw [hl]; exact (List.getElem?_eq_some_iff.1 hj).1
  have hv : inputs[j]? = some inputs[j] := List.getElem?_eq_getElem hjl
  obtain ⟨y, hy, hy'⟩ := hy2 j ⟨j, g inputs[j]⟩ (by rw [hxs]; exact mapIdx_get _ _ _ _ hv)
  obtain ⟨z, hz, hz'⟩ := k2 j _ y hv hy
  exact ⟨z, hz, inputs[j], y, elements, j, by rw [hg j e hj, hv], hj, hy', hz'⟩

/-- The outputs of a list of rows, as one batch or one by one. -/
def outsOf (rows : List (Ex V)) : List (Out V) :=
  match config with
  | some _ => [.batch (wrap rows)]
  | none => rows.map .row

theorem batchProcess_ok (models : List (Loaded V)) (elements : List (Ex V)) (outs : List (Out V))
    (h : batchProcess env config models elements = .ok outs) :
    ∃ rows, rowsOf env config models elements = .ok rows ∧ outs = outsOf config rows := by
  unfold batchProcess at h
  split at h
  · cases h
  · rename_i rows hr
    refine ⟨rows, hr, ?_⟩
    cases config <;> · cases h; rfl

theorem oneByOne_spec (m : Loaded V) (g : Tree V → Dict String (Tree V)) (ps : List (Loaded V × (Tree V → Dict String (Tree V))))
    (hm : PerExample m g) (hp : ∀ p ∈ ps, PerExample p.1 p.2) (elements : List (Ex V)) :
    ∀ outs, oneByOne (batchProcess env config (m :: ps.map Prod.fst)) elements = .ok outs →
    ∃ rows : List (Ex V), rows.length = elements.length ∧
      (∀ (j : ℕ) e, elements[j]? = some e → ∃ row, rows[j]? = some row ∧ RowFrom env config m g ps e row) ∧
      outs = rows.flatMap fun r => outsOf config [r] := by
  induction elements with
  | nil => intro outs h; cases h; exact ⟨[], rfl, by simp, rfl⟩
  | cons e es ih =>
    intro outs h
    simp only [oneByOne] at h
    split at h
    · cases h
    rename_i r hr
    split at h
    · cases h
    rename_i rs hrs
    cases h
    obtain ⟨rows, h1, h2, rfl⟩ := ih rs hrs
    obtain ⟨one, ho, rfl⟩ := batchProcess_ok env config _ _ _ hr
    obtain ⟨k1, k2⟩ := rowsOf_spec env config m g ps hm hp _ _ ho
    obtain ⟨row, hrow, hfrom⟩ := k2 0 e rfl
    have hone : one = [row] := by
      match one, k1, hrow with
      | [_], _, hrow => cases hrow; rfl
    subst hone
    refine ⟨row :: rows, by simp [h1], fun j e' hj => ?_, by simp⟩
    cases j with
    | zero => cases hj; exact ⟨row, rfl, hfrom⟩
    | succ j => exact h2 j e' hj

theorem process_spec (m : Loaded V) (g : Tree V → Dict String (Tree V)) (ps : List (Loaded V × (Tree V → Dict String (Tree V))))
    (hm : PerExample m g) (hp : ∀ p ∈ ps, PerExample p.1 p.2) (elements : List (Ex V)) (outs : List (Out V))
    (h : process env config (m :: ps.map Prod.fst) elements = .ok outs) :
    ∃ rows : List (Ex V), rows.length = elements.length ∧
      (∀ (j : ℕ) e, elements[j]? = some e → ∃ row, rows[j]? = some row ∧ RowFrom env config m g ps e row) ∧
      (outs = outsOf config rows ∨ outs = rows.flatMap fun r => outsOf config [r]) := by
  unfold process at h
  split at h
  · rename_i r hr
    cases h
    obtain ⟨rows, h1, rfl⟩ := batchProcess_ok env config _ _ _ hr
    obtain ⟨k1, k2⟩ := rowsOf_spec env config m g ps hm hp _ _ h1
    exact ⟨rows, k1, k2, .inl rfl⟩
  · obtain ⟨rows, h1, h2, h3⟩ := oneByOne_spec env config m g ps hm hp _ _ h
    exact ⟨rows, h1, h2, .inr h3⟩
  · cases h

end LegacyPredict
end TFMA
