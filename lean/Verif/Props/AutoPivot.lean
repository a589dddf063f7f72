import Verif.Model.AutoPivot
import Verif.Props.DataFrames
import Mathlib.Data.Finset.Card
import Mathlib.Data.Finset.Dedup
import Mathlib.Data.String.Basic

/-!
# C132: pivoted data frames show every value under its slice and its key
-/

namespace TFMA
namespace DataFrames

/-! ### Specification -/

/-- How many different cells there are in a column. -/
def Different (rows : List SheetRow) (c : Column) : ℕ := (rows.map fun r => r c).toFinset.card

/-- The column is one of the keys, and its cells are not all the same. -/
def Varies (s : Sheet) (c : Column) : Prop := c ∈ s.columns ∧ c.1 = .keys ∧ ∃ r ∈ s.rows, ∃ r' ∈ s.rows, r c ≠ r' c

/-- The columns of keys that are not all the same, those with most values first, otherwise by name. -/
def PivotsOn (s : Sheet) (cs : List Column) : Prop :=
  (∀ c, c ∈ cs ↔ Varies s c) ∧
    cs.Pairwise fun a b => Different s.rows b < Different s.rows a ∨ (Different s.rows a = Different s.rows b ∧ a.2 < b.2)

/-- The text of a slice: the columns in which it has a value, with the values. -/
def sliceText (text : String → Prim → String) (s : Sheet) (r : SheetRow) : String :=
  "; ".intercalate (s.columns.flatMap fun c => match c, r c with
    | (.slices, n), some v => [n ++ ":" ++ text n v]
    | _, _ => [])

/-- The name of the row in which the values of `r` are shown. -/
def rowName (text : String → Prim → String) (stringify : Bool) (s : Sheet) (r : SheetRow) : List (Option Prim) :=
  if stringify then [some (.text (sliceText text s r))] else (s.columns.filter fun c => c.1 = .slices).map r

/-- The name of the column in which the value of `r` in column `c` is shown. -/
def columnName (cs : List Column) (c : Column) (r : SheetRow) : List Level := .column c :: cs.map fun k => .value (r k)

/-- The pivoted frame has the value `v` in the row and the column with these names. -/
def Pivoted.Shows (p : Pivoted) (i : List (Option Prim)) (l : List Level) (v : Option Prim) : Prop :=
  ∃ a b : ℕ, p.index[a]? = some i ∧ p.labels[b]? = some l ∧ (p.cells[a]?).bind (fun row => row[b]?) = some v

/-- There are slices, keys and values. -/
def HasGroups (s : Sheet) : Prop := ∀ g, ∃ n, (g, n) ∈ s.columns

/-! ### Lemmas -/

private theorem insert_stable {α : Type} (cnt : α → ℕ) (R : α → α → Prop) (a : α) (l : List α) (ha : ∀ b ∈ l, R a b)
    (h : l.Pairwise fun x y => cnt y < cnt x ∨ (cnt x = cnt y ∧ R x y)) :
    (l.orderedInsert (fun x y => cnt y ≤ cnt x) a).Pairwise fun x y => cnt y < cnt x ∨ (cnt x = cnt y ∧ R x y) := by
  induction l with
  | nil => simp
  | cons b l ih =>
    rw [List.pairwise_cons] at h
    rw [List.orderedInsert_cons]
    split_ifs with hb
    · refine List.pairwise_cons.mpr ⟨fun c hc => ?_, List.pairwise_cons.mpr h⟩
      have hcb : cnt c ≤ cnt b := by
        rcases List.mem_cons.mp hc with rfl | hc
        · exact le_refl _
        · rcases h.1 c hc with h1 | h1 <;> omega
      rcases Nat.lt_or_eq_of_le (hcb.trans hb) with h1 | h1
      · exact Or.inl h1
      · exact Or.inr ⟨h1.symm, ha c hc⟩
    · refine List.pairwise_cons.mpr ⟨fun c hc => ?_, ih (fun c hc => ha c (List.mem_cons_of_mem _ hc)) h.2⟩
      rcases List.mem_cons.mp ((List.perm_orderedInsert _ _ _).mem_iff.mp hc) with rfl | hc
      · exact Or.inl (by omega)
      · exact h.1 c hc

private theorem sort_stable {α : Type} (cnt : α → ℕ) (R : α → α → Prop) (l : List α) (h : l.Pairwise R) :
    (l.insertionSort fun x y => cnt y ≤ cnt x).Pairwise fun x y => cnt y < cnt x ∨ (cnt x = cnt y ∧ R x y) := by
  induction l with
  | nil => simp
  | cons a l ih =>
    rw [List.pairwise_cons] at h
    rw [List.insertionSort_cons]
    exact insert_stable cnt R a _ (fun b hb => h.1 b ((List.perm_insertionSort _ _).mem_iff.mp hb)) (ih h.2)

private theorem names_eq (s : Sheet) (g : Group) : (s.names g).map (fun n => ((g, n) : Column)) = s.columns.filter fun c => c.1 = g := by
  unfold Sheet.names
  induction s.columns with
  | nil => rfl
  | cons c l ih =>
    obtain ⟨g', n⟩ := c
    by_cases h : g' = g
    · subst h; simpa using ih
    · simpa [h] using ih

private theorem mem_names (s : Sheet) (g : Group) (n : String) : n ∈ s.names g ↔ (g, n) ∈ s.columns := by
  unfold Sheet.names
  simp

private theorem names_nodup (s : Sheet) (h : s.columns.Nodup) (g : Group) : (s.names g).Nodup := by
  have : ((s.names g).map (fun n => ((g, n) : Column))).Nodup := by rw [names_eq]; exact h.filter _
  exact List.Nodup.of_map _ this

private theorem nunique_eq (s : Sheet) (c : Column) : nunique s c = Different s.rows c := rfl

private theorem two_iff (rows : List SheetRow) (c : Column) :
    1 < Different rows c ↔ ∃ r ∈ rows, ∃ r' ∈ rows, r c ≠ r' c := by
  unfold Different
  rw [Finset.one_lt_card]
  simp only [List.mem_toFinset, List.mem_map]
  constructor
  · rintro ⟨_, ⟨r, hr, rfl⟩, _, ⟨r', hr', rfl⟩, h⟩
    exact ⟨r, hr, r', hr', h⟩
  · rintro ⟨r, hr, r', hr', h⟩
    exact ⟨_, ⟨r, hr, rfl⟩, _, ⟨r', hr', rfl⟩, h⟩

private theorem pivotColumns_spec (s : Sheet) (h : s.columns.Nodup) : PivotsOn s (pivotColumns s) := by
  constructor
  · intro c
    unfold pivotColumns
    rw [List.mem_filter, List.mem_insertionSort]
    simp only [List.mem_map, List.mem_insertionSort, mem_names, gt_iff_lt, decide_eq_true_eq, nunique_eq, two_iff]
    constructor
    · rintro ⟨⟨n, hn, rfl⟩, h1⟩
      exact ⟨hn, rfl, h1⟩
    · rintro ⟨h1, h2, h3⟩
      obtain ⟨g, n⟩ := c
      cases h2
      exact ⟨⟨n, h1, rfl⟩, h3⟩
  · unfold pivotColumns
    refine List.Pairwise.filter _ (sort_stable (nunique s) (fun a b => a.2 < b.2) _ ?_)
    rw [List.pairwise_map]
    have h1 := List.pairwise_insertionSort (· ≤ ·) (s.names .keys)
    have h2 : ((s.names .keys).insertionSort (· ≤ ·)).Nodup :=
      (List.perm_insertionSort _ _).nodup_iff.mpr (names_nodup s h _)
    exact (h1.and h2).imp fun h => lt_of_le_of_ne h.1 h.2

/-- The frame after its slices are turned into texts, if they are. -/
private structure Prepared (s s' : Sheet) (idx : SheetRow → List (Option Prim)) (φ : SheetRow → SheetRow) : Prop where
  keys : (s'.columns.filter fun c => c.1 = .keys) = s.columns.filter fun c => c.1 = .keys
  values : (s'.columns.filter fun c => c.1 = .values) = s.columns.filter fun c => c.1 = .values
  rows : s'.rows.Perm (s.rows.map φ)
  same : ∀ r c, c.1 ≠ .slices → φ r c = r c
  index : ∀ r, (s'.columns.filter fun c => c.1 = .slices).map (φ r) = idx r
  nodup : s'.columns.Nodup

private theorem prepared_id (s : Sheet) (h : s.columns.Nodup) (text : String → Prim → String) :
    Prepared s s (rowName text false s) id :=
  ⟨rfl, rfl, by simp, fun _ _ _ => rfl, fun _ => rfl, h⟩

private theorem concatenate_eq (text : String → Prim → String) (s : Sheet) (r : SheetRow) :
    concatenate text (s.names .slices) r = sliceText text s r := by
  unfold concatenate sliceText Sheet.names
  congr 1
  induction s.columns with
  | nil => rfl
  | cons c l ih =>
    obtain ⟨g, n⟩ := c
    cases g with
    | slices =>
      simp only [List.flatMap_cons, List.filterMap_cons, if_true]
      cases hv : r (.slices, n) with
      | none => simpa using ih
      | some v => simpa using ih
    | keys => simpa using ih
    | values => simpa using ih

private theorem prepared_text (s : Sheet) (h : s.columns.Nodup) (text : String → Prim → String) :
    Prepared s (stringifySlices text s) (rowName text true s) (fun r c =>
      if c = (.slices, sliceStr) then some (.text (concatenate text (s.names .slices) r))
      else if c.1 = .slices then none else r c) := by
  refine ⟨?_, ?_, ?_, ?_, ?_, ?_⟩
  · simp only [stringifySlices]
    rw [List.filter_cons_of_neg (by simp), List.filter_filter]
    exact List.filter_congr fun c _ => by cases c.1 <;> simp
  · simp only [stringifySlices]
    rw [List.filter_cons_of_neg (by simp), List.filter_filter]
    exact List.filter_congr fun c _ => by cases c.1 <;> simp
  · exact (List.perm_insertionSort _ _).map _
  · intro r c hc
    have : c ≠ (.slices, sliceStr) := fun e => hc (by rw [e])
    simp [this, hc]
  · intro r
    have : (stringifySlices text s).columns.filter (fun c => c.1 = .slices) = [(.slices, sliceStr)] := by
      simp only [stringifySlices]
      rw [List.filter_cons_of_pos (by simp), List.filter_filter]
      simp
    rw [this]
    simp [rowName, concatenate_eq]
  · simp only [stringifySlices]
    refine List.nodup_cons.mpr ⟨by simp, h.filter _⟩

private theorem Prepared.mem {s s' : Sheet} {idx φ} (hp : Prepared s s' idx φ) (g : Group) (hg : g ≠ .slices) (c : Column) (hc : c.1 = g) :
    c ∈ s'.columns ↔ c ∈ s.columns := by
  have : (s'.columns.filter fun c => c.1 = g) = s.columns.filter fun c => c.1 = g := by
    cases g with
    | slices => exact (hg rfl).elim
    | keys => exact hp.keys
    | values => exact hp.values
  have h2 : (c ∈ s'.columns.filter fun c => c.1 = g) ↔ c ∈ s.columns.filter fun c => c.1 = g := by rw [this]
  simpa [hc] using h2

private theorem Prepared.different {s s' : Sheet} {idx φ} (hp : Prepared s s' idx φ) (c : Column) (hc : c.1 ≠ .slices) :
    Different s'.rows c = Different s.rows c := by
  unfold Different
  have h : (s'.rows.map fun r => r c).Perm (s.rows.map fun r => r c) := by
    refine (hp.rows.map _).trans (.of_eq ?_)
    rw [List.map_map]
    exact List.map_congr_left fun r _ => hp.same r c hc
  rw [List.toFinset_eq_of_perm _ _ h]

private theorem Prepared.pivots {s s' : Sheet} {idx φ} (hp : Prepared s s' idx φ) : PivotsOn s (pivotColumns s') := by
  have h := pivotColumns_spec s' hp.nodup
  have hv : ∀ c, Varies s' c ↔ Varies s c := by
    intro c
    unfold Varies
    constructor
    · rintro ⟨h1, h2, h3⟩
      refine ⟨(hp.mem _ (by simp) c h2).mp h1, h2, ?_⟩
      rw [← two_iff] at h3 ⊢
      rwa [← hp.different c (by simp [h2])]
    · rintro ⟨h1, h2, h3⟩
      refine ⟨(hp.mem _ (by simp) c h2).mpr h1, h2, ?_⟩
      rw [← two_iff] at h3 ⊢
      rwa [hp.different c (by simp [h2])]
  refine ⟨fun c => (h.1 c).trans (hv c), h.2.imp_of_mem fun {a b} ha hb hab => ?_⟩
  have ha' := ((h.1 a).mp ha).2.1
  have hb' := ((h.1 b).mp hb).2.1
  rwa [hp.different a (by simp [ha']), hp.different b (by simp [hb'])] at hab

private theorem agree_iff (s : Sheet) (cs : List Column) (h : PivotsOn s cs) (r r' : SheetRow) (hr : r ∈ s.rows) (hr' : r' ∈ s.rows) :
    cs.map r = cs.map r' ↔ ∀ c ∈ s.columns, c.1 = .keys → r c = r' c := by
  rw [List.map_inj_left]
  constructor
  · intro h1 c hc hk
    by_contra hne
    exact hne (h1 c ((h.1 c).mpr ⟨hc, hk, r, hr, r', hr', hne⟩))
  · intro h1 c hc
    have := (h.1 c).mp hc
    exact h1 c this.1 this.2.1

private theorem pick_same {s s' : Sheet} {idx φ} (hp : Prepared s s' idx φ) (cs : List Column) (h : ∀ c ∈ cs, c.1 ≠ .slices)
    (r : SheetRow) : pick cs (φ r) = cs.map r :=
  List.map_congr_left fun c hc => hp.same r c (h c hc)

private theorem nodup_iff {s s' : Sheet} {idx φ} (hp : Prepared s s' idx φ) (cs : List Column) (h : ∀ c ∈ cs, c.1 ≠ .slices) :
    (s'.rows.map fun r => (pick (s'.columns.filter fun c => c.1 = .slices) r, pick cs r)).Nodup ↔
      s.rows.Pairwise fun r r' => idx r ≠ idx r' ∨ cs.map r ≠ cs.map r' := by
  rw [(hp.rows.map _).nodup_iff, List.map_map, List.Nodup, List.pairwise_map]
  have : ∀ r, (pick (s'.columns.filter fun c => c.1 = .slices) (φ r), pick cs (φ r)) = (idx r, cs.map r) := fun r => by
    rw [pick_same hp cs h]; exact Prod.ext (hp.index r) rfl
  simp only [Function.comp_apply, this, ne_eq, Prod.mk.injEq, not_and_or]

private theorem product_map {α β γ : Type} (l : List α) (m : List β) (f : α → β → γ) :
    (l.flatMap fun a => m.map fun b => f a b) = (l.product m).map fun p => f p.1 p.2 := by
  unfold List.product
  rw [List.map_flatMap]
  congr 1
  funext a
  rw [List.map_map]
  rfl

private theorem shows_iff (rowsI : List (List (Option Prim))) (pairs : List (Column × List (Option Prim)))
    (f : Column × List (Option Prim) → List Level) (g : List (Option Prim) → Column × List (Option Prim) → Option Prim) (m : Bool)
    (i : List (Option Prim)) (l : List Level) (v : Option Prim) :
    Pivoted.Shows ⟨rowsI, pairs.map f, rowsI.map fun i => pairs.map (g i), m⟩ i l v ↔
      i ∈ rowsI ∧ ∃ p ∈ pairs, l = f p ∧ v = g i p := by
  unfold Pivoted.Shows
  constructor
  · rintro ⟨a, b, h1, h2, h3⟩
    simp only [List.getElem?_map, h1, Option.map_some, Option.bind_some, Option.map_eq_some_iff] at h2 h3
    obtain ⟨p, hp, rfl⟩ := h2
    obtain ⟨p', hp', rfl⟩ := h3
    rw [hp] at hp'
    cases hp'
    exact ⟨List.mem_of_getElem? h1, p, List.mem_of_getElem? hp, rfl, rfl⟩
  · rintro ⟨h1, p, h2, rfl, rfl⟩
    obtain ⟨a, ha⟩ := List.mem_iff_getElem?.mp h1
    obtain ⟨b, hb⟩ := List.mem_iff_getElem?.mp h2
    exact ⟨a, b, ha, by simp [hb], by simp [ha, hb]⟩

/-- What is shown: the cells of the rows, and nothing else. -/
structure Faithful (s : Sheet) (idx : SheetRow → List (Option Prim)) (label : Column → SheetRow → List Level) (p : Pivoted) : Prop where
  index : ∀ i, i ∈ p.index ↔ ∃ r ∈ s.rows, i = idx r
  labels : ∀ l, l ∈ p.labels ↔ ∃ r ∈ s.rows, ∃ c ∈ s.columns, c.1 = .values ∧ l = label c r
  index_nodup : p.index.Nodup
  labels_nodup : p.labels.Nodup
  width : ∀ row ∈ p.cells, row.length = p.labels.length
  height : p.cells.length = p.index.length
  cells : ∀ r ∈ s.rows, ∀ c ∈ s.columns, c.1 = .values → p.Shows (idx r) (label c r) (r c)
  only : ∀ i l v, p.Shows i l (some v) → ∃ r ∈ s.rows, ∃ c ∈ s.columns, c.1 = .values ∧ i = idx r ∧ l = label c r ∧ r c = some v

private theorem pivot_faithful {s s' : Sheet} {idx φ} (hp : Prepared s s' idx φ) (cs : List Column) (hne : cs ≠ [])
    (hcs : ∀ c ∈ cs, c.1 ≠ .slices)
    (hd : s.rows.Pairwise fun r r' => idx r ≠ idx r' ∨ cs.map r ≠ cs.map r') :
    ∃ p, pivot s' (s'.columns.filter fun c => c.1 = .slices) cs (s'.columns.filter fun c => c.1 = .values) = .ok p ∧ p.multi = true ∧
      Faithful s idx (columnName cs) p ∧ ∀ l ∈ p.labels, l.length = cs.length + 1 := by
  have hn := (nodup_iff hp cs hcs).mpr hd
  have hidx : ∀ r, pick (s'.columns.filter fun c => c.1 = .slices) (φ r) = idx r := hp.index
  have hpick := pick_same hp cs hcs
  have hrows : ∀ r', r' ∈ s'.rows ↔ ∃ r ∈ s.rows, φ r = r' := fun r' => by rw [hp.rows.mem_iff, List.mem_map]
  have hvals : ∀ c, (c ∈ s'.columns.filter fun c => c.1 = .values) ↔ c ∈ s.columns ∧ c.1 = .values := fun c => by
    rw [hp.values]; simp
  have hvs : ∀ c ∈ s'.columns.filter (fun c => c.1 = .values), ∀ r, φ r c = r c := fun c hc r =>
    hp.same r c (by simp [((hvals c).mp hc).2])
  have hvn : (s'.columns.filter fun c => c.1 = .values).Nodup := hp.nodup.filter _
  generalize hvd : (s'.columns.filter fun c => c.1 = .values) = vs at *
  generalize hix : (s'.columns.filter fun c => c.1 = .slices) = is at *
  unfold pivot
  rw [if_neg hne, if_pos hn]
  refine ⟨_, rfl, rfl, ?_, ?_⟩
  · have hks : ∀ k, k ∈ (s'.rows.map (pick cs)).dedup ↔ ∃ r ∈ s.rows, k = cs.map r := by
      intro k
      rw [List.mem_dedup, List.mem_map]
      constructor
      · rintro ⟨r', hr', rfl⟩
        obtain ⟨r, hr, rfl⟩ := (hrows r').mp hr'
        exact ⟨r, hr, hpick r⟩
      · rintro ⟨r, hr, rfl⟩
        exact ⟨φ r, (hrows _).mpr ⟨r, hr, rfl⟩, hpick r⟩
    have his : ∀ i, i ∈ (s'.rows.map (pick is)).dedup ↔ ∃ r ∈ s.rows, i = idx r := by
      intro k
      rw [List.mem_dedup, List.mem_map]
      constructor
      · rintro ⟨r', hr', rfl⟩
        obtain ⟨r, hr, rfl⟩ := (hrows r').mp hr'
        exact ⟨r, hr, hidx r⟩
      · rintro ⟨r, hr, rfl⟩
        exact ⟨φ r, (hrows _).mpr ⟨r, hr, rfl⟩, hidx r⟩
    have hfind : ∀ r ∈ s.rows, (s'.rows.find? fun x => decide (pick is x = idx r ∧ pick cs x = cs.map r)) = some (φ r) := by
      intro r hr
      have hm : φ r ∈ s'.rows := (hrows _).mpr ⟨r, hr, rfl⟩
      cases hf : s'.rows.find? fun x => decide (pick is x = idx r ∧ pick cs x = cs.map r) with
      | none =>
        rw [List.find?_eq_none] at hf
        have := hf _ hm
        simp [hidx, hpick] at this
      | some x =>
        have h1 := List.find?_some hf
        have h2 := List.mem_of_find?_eq_some hf
        simp only [decide_eq_true_eq] at h1
        have := List.inj_on_of_nodup_map hn h2 hm (by rw [h1.1, h1.2, hidx, hpick])
        rw [this]
    have hnone : ∀ i k, ∀ x, (s'.rows.find? fun x => decide (pick is x = i ∧ pick cs x = k)) = some x →
        ∃ r ∈ s.rows, i = idx r ∧ k = cs.map r ∧ x = φ r := by
      intro i k x hx
      have h1 := List.find?_some hx
      have h2 := List.mem_of_find?_eq_some hx
      simp only [decide_eq_true_eq] at h1
      obtain ⟨r, hr, rfl⟩ := (hrows x).mp h2
      exact ⟨r, hr, by rw [← h1.1, hidx], by rw [← h1.2, hpick], rfl⟩
    simp only [product_map]
    have hpairs : ∀ p, p ∈ vs.product (s'.rows.map (pick cs)).dedup ↔ p.1 ∈ s.columns ∧ p.1.1 = .values ∧ ∃ r ∈ s.rows, p.2 = cs.map r := by
      rintro ⟨c, k⟩
      rw [List.pair_mem_product, hvals, hks, and_assoc]
    refine ⟨his, ?_, List.nodup_dedup _, ?_, ?_, by simp, ?_, ?_⟩
    · intro l
      rw [List.mem_map]
      constructor
      · rintro ⟨p, hp', rfl⟩
        obtain ⟨h1, h2, r, hr, h3⟩ := (hpairs p).mp hp'
        exact ⟨r, hr, p.1, h1, h2, by simp [columnName, h3]⟩
      · rintro ⟨r, hr, c, hc, hv, rfl⟩
        exact ⟨(c, cs.map r), (hpairs _).mpr ⟨hc, hv, r, hr, rfl⟩, by simp [columnName]⟩
    · refine List.Nodup.map ?_ (hvn.product (List.nodup_dedup _))
      rintro ⟨c, k⟩ ⟨c', k'⟩ h
      simp only [List.cons.injEq, Level.column.injEq] at h
      have := List.map_injective_iff.mpr (fun a b (hab : Level.value a = Level.value b) => by cases hab; rfl) h.2
      rw [h.1, this]
    · intro row hrow
      obtain ⟨i, -, rfl⟩ := List.mem_map.mp hrow
      simp
    · intro r hr c hc hv
      rw [shows_iff]
      refine ⟨(his _).mpr ⟨r, hr, rfl⟩, (c, cs.map r), (hpairs _).mpr ⟨hc, hv, r, hr, rfl⟩, by simp [columnName], ?_⟩
      simp only [hfind r hr, Option.bind_some]
      exact (hvs c ((hvals c).mpr ⟨hc, hv⟩) r).symm
    · intro i l v hs
      rw [shows_iff] at hs
      obtain ⟨hi, p, hp', rfl, hv⟩ := hs
      obtain ⟨h1, h2, -⟩ := (hpairs p).mp hp'
      obtain ⟨x, hx, hv⟩ := Option.bind_eq_some_iff.mp hv.symm
      obtain ⟨r, hr, h3, h4, rfl⟩ := hnone _ _ _ hx
      exact ⟨r, hr, p.1, h1, h2, h3, by simp [columnName, h4], by rw [← hv, hvs p.1 ((hvals _).mpr ⟨h1, h2⟩)]⟩
  · intro l hl
    simp only [List.mem_flatMap, List.mem_map, List.mem_dedup] at hl
    obtain ⟨c, -, k, ⟨r, -, rfl⟩, rfl⟩ := hl
    simp [pick]

private theorem Faithful.relabel {s : Sheet} {idx label} {p : Pivoted} (h : Faithful s idx label p) (f : List Level → List Level)
    (hf : ∀ l ∈ p.labels, ∀ l' ∈ p.labels, f l = f l' → l = l') :
    Faithful s idx (fun c r => f (label c r)) { p with labels := p.labels.map f } := by
  have hs : ∀ i l v, Pivoted.Shows { p with labels := p.labels.map f } i l v ↔ ∃ l₀, l = f l₀ ∧ p.Shows i l₀ v := by
    intro i l v
    unfold Pivoted.Shows
    constructor
    · rintro ⟨a, b, h1, h2, h3⟩
      simp only [List.getElem?_map, Option.map_eq_some_iff] at h2
      obtain ⟨l₀, h2, rfl⟩ := h2
      exact ⟨l₀, rfl, a, b, h1, h2, h3⟩
    · rintro ⟨l₀, rfl, a, b, h1, h2, h3⟩
      exact ⟨a, b, h1, by simp [h2], h3⟩
  refine ⟨h.index, ?_, h.index_nodup, ?_, ?_, h.height, ?_, ?_⟩
  · intro l
    rw [List.mem_map]
    constructor
    · rintro ⟨l₀, hl, rfl⟩
      obtain ⟨r, hr, c, hc, hv, rfl⟩ := (h.labels l₀).mp hl
      exact ⟨r, hr, c, hc, hv, rfl⟩
    · rintro ⟨r, hr, c, hc, hv, rfl⟩
      exact ⟨_, (h.labels _).mpr ⟨r, hr, c, hc, hv, rfl⟩, rfl⟩
  · exact List.Nodup.map_on (fun a ha b hb => hf a ha b hb) h.labels_nodup
  · intro row hr
    simpa using h.width row hr
  · intro r hr c hc hv
    exact (hs _ _ _).mpr ⟨_, rfl, h.cells r hr c hc hv⟩
  · intro i l v hl
    obtain ⟨l₀, rfl, hl'⟩ := (hs _ _ _).mp hl
    obtain ⟨r, hr, c, hc, hv, rfl, rfl, h3⟩ := h.only i l₀ v hl' 
    exact ⟨r, hr, c, hc, hv, rfl, rfl, h3⟩

private theorem dedup_one {α : Type} [DecidableEq α] (l : List α) : l.dedup.length = 1 ↔ ∃ a, a ∈ l ∧ ∀ b ∈ l, b = a := by
  rw [List.length_eq_one_iff]
  constructor
  · rintro ⟨a, ha⟩
    refine ⟨a, List.mem_dedup.mp (by simp [ha]), fun b hb => ?_⟩
    have := List.mem_dedup.mpr hb
    rw [ha] at this
    simpa using this
  · rintro ⟨a, ha, h⟩
    refine ⟨a, ?_⟩
    have h1 : a ∈ l.dedup := List.mem_dedup.mpr ha
    have h2 : ∀ b ∈ l.dedup, b = a := fun b hb => h b (List.mem_dedup.mp hb)
    have h3 := List.nodup_dedup l
    generalize l.dedup = m at *
    match m, h1, h2, h3 with
    | [x], h1, _, _ => rw [List.mem_singleton.mp h1]
    | x :: y :: m, _, h2, h3 =>
      exfalso
      rw [List.nodup_cons] at h3
      exact h3.1 (by rw [h2 x (by simp), ← h2 y (by simp)]; simp)

private theorem dropLevels_nil (l : List Level) : dropLevels [] l = l := by
  unfold dropLevels
  rw [List.filter_eq_self.mpr (by simp)]
  simp

private theorem dropLevels_zero (x : Level) (l : List Level) : dropLevels [0] (x :: l) = l := by
  unfold dropLevels
  rw [List.zipIdx_cons, List.filter_cons_of_neg (by simp), List.filter_eq_self.mpr]
  · simp
  · intro a ha
    have := (List.mk_mem_zipIdx_iff_le_and_getElem?_sub (x := a.1) (i := a.2)).mp ha
    simp
    omega

/-- There is exactly one value column. -/
def OneValue (s : Sheet) : Prop := ∃ c, c ∈ s.columns ∧ c.1 = .values ∧ ∀ c' ∈ s.columns, c'.1 = .values → c' = c

open Classical in
/-- The name of a column after its levels that are all the same are removed. -/
noncomputable def shortName (s : Sheet) (cs : List Column) (c : Column) (r : SheetRow) : List Level :=
  if OneValue s then cs.map fun k => .value (r k) else columnName cs c r

private theorem collapse_faithful {s : Sheet} {idx} {p : Pivoted} (cs : List Column) (hne : cs ≠ []) (hcs : PivotsOn s cs)
    (hg : HasGroups s) (h : Faithful s idx (columnName cs) p) (hlen : ∀ l ∈ p.labels, l.length = cs.length + 1) :
    ∃ ls, collapseNames p.labels = .ok ls ∧ Faithful s idx (shortName s cs) { p with labels := ls } := by
  classical
  obtain ⟨n, hn⟩ := hg .values
  obtain ⟨k, hk⟩ := List.exists_mem_of_ne_nil cs hne
  obtain ⟨-, -, r₀, hr₀, -⟩ := (hcs.1 k).mp hk
  have hw : ((p.labels.map List.length).headD 0) = cs.length + 1 := by
    have : columnName cs (.values, n) r₀ ∈ p.labels := (h.labels _).mpr ⟨r₀, hr₀, _, hn, rfl, rfl⟩
    cases hl : p.labels with
    | nil => rw [hl] at this; simp at this
    | cons l ls => simpa using hlen l (by rw [hl]; simp)
  have hzero : ((p.labels.map fun l => l[0]?).dedup.length = 1) ↔ OneValue s := by
    rw [dedup_one]
    constructor
    · rintro ⟨a, -, ha⟩
      refine ⟨(.values, n), hn, rfl, fun c hc hv => ?_⟩
      have h1 := ha (some (.column c)) (List.mem_map.mpr ⟨_, (h.labels _).mpr ⟨r₀, hr₀, c, hc, hv, rfl⟩, rfl⟩)
      have h2 := ha (some (.column (.values, n))) (List.mem_map.mpr ⟨_, (h.labels _).mpr ⟨r₀, hr₀, _, hn, rfl, rfl⟩, rfl⟩)
      rw [← h2] at h1
      simpa using h1
    · rintro ⟨c, hc, hv, hall⟩
      refine ⟨some (.column c), List.mem_map.mpr ⟨_, (h.labels _).mpr ⟨r₀, hr₀, c, hc, hv, rfl⟩, rfl⟩, fun b hb => ?_⟩
      obtain ⟨l, hl, rfl⟩ := List.mem_map.mp hb
      obtain ⟨r, -, c', hc', hv', rfl⟩ := (h.labels l).mp hl
      rw [hall c' hc' hv']
      rfl
  have hother : ∀ i, i < cs.length → ¬ ((p.labels.map fun l => l[i + 1]?).dedup.length = 1) := by
    intro i hi h1
    obtain ⟨a, -, ha⟩ := (dedup_one _).mp h1
    have hm : cs[i] ∈ cs := List.getElem_mem hi
    obtain ⟨-, -, r, hr, r', hr', hd⟩ := (hcs.1 _).mp hm
    have h1 := ha (some (.value (r cs[i]))) (List.mem_map.mpr ⟨_, (h.labels _).mpr ⟨r, hr, _, hn, rfl, rfl⟩, by simp [columnName, hi]⟩)
    have h2 := ha (some (.value (r' cs[i]))) (List.mem_map.mpr ⟨_, (h.labels _).mpr ⟨r', hr', _, hn, rfl, rfl⟩, by simp [columnName, hi]⟩)
    rw [← h2] at h1
    simp only [Option.some.injEq, Level.value.injEq] at h1
    exact hd h1
  have hdrop : dropables p.labels = if OneValue s then [0] else [] := by
    unfold dropables
    rw [hw, List.range_succ_eq_map]
    have htail : ((List.range cs.length).map Nat.succ).filter (fun i => decide ((p.labels.map fun l => l[i]?).dedup.length = 1)) = [] := by
      rw [List.filter_eq_nil_iff]
      intro i hi
      obtain ⟨j, hj, rfl⟩ := List.mem_map.mp hi
      simpa using hother j (List.mem_range.mp hj)
    by_cases ho : OneValue s
    · rw [List.filter_cons_of_pos (by simpa using hzero.mpr ho), htail, if_pos ho]
    · rw [List.filter_cons_of_neg (by simpa using fun h => ho (hzero.mp h)), htail, if_neg ho]
  have hpos : 0 < cs.length := List.length_pos_iff.mpr hne
  unfold collapseNames
  simp only [hw, hdrop]
  rw [if_neg (by split_ifs <;> (simp; try omega))]
  refine ⟨_, rfl, ?_⟩
  by_cases ho : OneValue s
  · simp only [if_pos ho]
    have := h.relabel (dropLevels [0]) (fun l hl l' hl' he => by
      obtain ⟨r, -, c, hc, hv, rfl⟩ := (h.labels l).mp hl
      obtain ⟨r', -, c', hc', hv', rfl⟩ := (h.labels l').mp hl'
      unfold columnName at he ⊢
      rw [dropLevels_zero, dropLevels_zero] at he
      obtain ⟨c₀, -, -, hall⟩ := ho
      rw [he, hall c hc hv, hall c' hc' hv'])
    have he : (fun c r => dropLevels [0] (columnName cs c r)) = shortName s cs := by
      funext c r
      simp only [shortName, if_pos ho, columnName, dropLevels_zero]
    rwa [he] at this
  · simp only [if_neg ho]
    have h1 : p.labels.map (dropLevels []) = p.labels := by
      rw [show dropLevels [] = id from funext dropLevels_nil, List.map_id]
    have h2 : shortName s cs = columnName cs := by
      funext c r
      simp only [shortName, if_neg ho]
    rw [h1, h2]
    exact h

/-! ### Theorems -/

private theorem prepared (s : Sheet) (h : s.columns.Nodup) (text : String → Prim → String) (stringify : Bool) :
    ∃ φ, Prepared s (if stringify then stringifySlices text s else s) (rowName text stringify s) φ := by
  cases stringify with
  | false => exact ⟨_, prepared_id s h text⟩
  | true => exact ⟨_, prepared_text s h text⟩

private theorem groups_iff (s : Sheet) :
    (s.columns.any (·.1 = .slices) ∧ s.columns.any (·.1 = .keys) ∧ s.columns.any (·.1 = .values)) ↔ HasGroups s := by
  simp only [List.any_eq_true, decide_eq_true_eq, HasGroups]
  constructor
  · rintro ⟨⟨⟨_, n⟩, h, rfl⟩, ⟨⟨_, n'⟩, h', rfl⟩, ⟨_, n''⟩, h'', rfl⟩ g
    cases g
    exacts [⟨_, h⟩, ⟨_, h'⟩, ⟨_, h''⟩]
  · intro h
    exact ⟨(h .slices).elim fun n hn => ⟨_, hn, rfl⟩, (h .keys).elim fun n hn => ⟨_, hn, rfl⟩, (h .values).elim fun n hn => ⟨_, hn, rfl⟩⟩

private theorem autoPivot_eq (text : String → Prim → String) (stringify collapse : Bool) (s : Sheet) (hg : HasGroups s) :
    autoPivot text stringify collapse s = pivotSheet text stringify collapse s := if_pos ((groups_iff s).mpr hg)

open Classical in
/-- **C132**: if the keys are not all the same, then every value is shown in the row of its slice and the column of its value name and
key, where a key is named by those of its parts that are not the same everywhere; nothing else is shown, and no two rows or columns
have the same name (with or without the levels that are all the same). -/
theorem C132_cells (text : String → Prim → String) (stringify collapse : Bool) (s : Sheet) (hs : s.columns.Nodup) (p : Pivoted)
    (hv : ∃ c, Varies s c) (h : autoPivot text stringify collapse s = .ok p) :
    ∃ cs, PivotsOn s cs ∧
      Faithful s (rowName text stringify s) (if collapse then shortName s cs else columnName cs) p := by
  by_cases hg : HasGroups s
  · rw [autoPivot_eq _ _ _ _ hg] at h
    obtain ⟨φ, hp⟩ := prepared s hs text stringify
    unfold pivotSheet at h
    simp only [names_eq] at h
    generalize (if stringify then stringifySlices text s else s) = s' at *
    have hpv := hp.pivots
    generalize pivotColumns s' = cs at *
    have hne : cs ≠ [] := by
      rintro rfl
      obtain ⟨c, hc⟩ := hv
      exact absurd ((hpv.1 c).mpr hc) (by simp)
    have hcs : ∀ c ∈ cs, c.1 ≠ .slices := fun c hc => by simp [((hpv.1 c).mp hc).2.1]
    have hd : s.rows.Pairwise fun r r' => rowName text stringify s r ≠ rowName text stringify s r' ∨ cs.map r ≠ cs.map r' := by
      by_contra hnd
      unfold pivot at h
      rw [if_neg hne, if_neg (fun hn => hnd ((nodup_iff hp cs hcs).mp hn))] at h
      cases h
    obtain ⟨q, hq, hm, hf, hl⟩ := pivot_faithful hp cs hne hcs hd
    rw [hq] at h
    refine ⟨cs, hpv, ?_⟩
    cases collapse with
    | false =>
      simp only [Bool.false_eq_true, false_and, if_false] at h
      cases h
      exact hf
    | true =>
      obtain ⟨ls, h1, h2⟩ := collapse_faithful cs hne hpv hg hf hl
      simp only [h1] at h
      rw [if_pos ⟨trivial, hm⟩] at h
      cases h
      exact h2
  · unfold autoPivot at h
    rw [if_neg (fun h' => hg ((groups_iff s).mp h'))] at h
    cases h

/-- **C132**: the name of a column tells the whole key: rows whose keys have the same name have the same keys. -/
theorem C132_key (s : Sheet) (cs : List Column) (h : PivotsOn s cs) (r r' : SheetRow) (hr : r ∈ s.rows) (hr' : r' ∈ s.rows) (c c' : Column)
    (he : columnName cs c r = columnName cs c' r') : c = c' ∧ ∀ k ∈ s.columns, k.1 = .keys → r k = r' k := by
  simp only [columnName, List.cons.injEq, Level.column.injEq] at he
  refine ⟨he.1, (agree_iff s cs h r r' hr hr').mp ?_⟩
  rw [List.map_inj_left] at he ⊢
  exact fun k hk => Level.value.inj (he.2 k hk)

/-- Two rows of the same slice with the same key. -/
def SamePlace (text : String → Prim → String) (stringify : Bool) (s : Sheet) (r r' : SheetRow) : Prop :=
  rowName text stringify s r = rowName text stringify s r' ∧ ∀ c ∈ s.columns, c.1 = .keys → r c = r' c

/-- **C132**: a frame is pivoted unless one of the groups of columns is missing, or its keys are not all the same and two of its rows
have the same slice and the same key. -/
theorem C132_accepted (text : String → Prim → String) (stringify collapse : Bool) (s : Sheet) (hs : s.columns.Nodup) :
    (¬ HasGroups s → autoPivot text stringify collapse s = .error .notImplementedError) ∧
      (HasGroups s → (∃ c, Varies s c) → (¬ s.rows.Pairwise fun r r' => ¬ SamePlace text stringify s r r') →
        autoPivot text stringify collapse s = .error .valueError) ∧
      (HasGroups s → ((¬ ∃ c, Varies s c) ∨ s.rows.Pairwise fun r r' => ¬ SamePlace text stringify s r r') →
        ∃ p, autoPivot text stringify collapse s = .ok p) := by
  refine ⟨fun hg => if_neg fun h' => hg ((groups_iff s).mp h'), fun hg hv hn => ?_, fun hg h => ?_⟩
  all_goals
    rw [autoPivot_eq _ _ _ _ hg]
    obtain ⟨φ, hp⟩ := prepared s hs text stringify
    unfold pivotSheet
    simp only [names_eq]
    generalize (if stringify then stringifySlices text s else s) = s' at *
    have hpv := hp.pivots
    generalize pivotColumns s' = cs at *
    have hcs : ∀ c ∈ cs, c.1 ≠ .slices := fun c hc => by simp [((hpv.1 c).mp hc).2.1]
    have hpw : (s.rows.Pairwise fun r r' => rowName text stringify s r ≠ rowName text stringify s r' ∨ cs.map r ≠ cs.map r') ↔
        s.rows.Pairwise fun r r' => ¬ SamePlace text stringify s r r' := by
      constructor
      · refine fun h => h.imp_of_mem fun {a b} ha hb hab hsp => ?_
        rcases hab with hab | hab
        · exact hab hsp.1
        · exact hab ((agree_iff s cs hpv a b ha hb).mpr hsp.2)
      · refine fun h => h.imp_of_mem fun {a b} ha hb hab => ?_
        by_contra hc
        push Not at hc
        exact hab ⟨hc.1, (agree_iff s cs hpv a b ha hb).mp hc.2⟩
  · have hne : cs ≠ [] := by
      rintro rfl
      obtain ⟨c, hc⟩ := hv
      exact absurd ((hpv.1 c).mpr hc) (by simp)
    unfold pivot
    rw [if_neg hne, if_neg (fun h => hn (hpw.mp ((nodup_iff hp cs hcs).mp h)))]
  · by_cases hv : ∃ c, Varies s c
    · have hne : cs ≠ [] := by
        rintro rfl
        obtain ⟨c, hc⟩ := hv
        exact absurd ((hpv.1 c).mpr hc) (by simp)
      obtain ⟨q, hq, hm, hf, hl⟩ := pivot_faithful hp cs hne hcs (hpw.mpr (h.resolve_left (not_not.mpr hv)))
      simp only [hq]
      obtain ⟨ls, h1, -⟩ := collapse_faithful cs hne hpv hg hf hl
      rw [h1]
      split_ifs
      · exact ⟨_, rfl⟩
      · exact ⟨_, rfl⟩
    · have he : cs = [] := by
        rw [List.eq_nil_iff_forall_not_mem]
        exact fun c hc => hv ⟨c, (hpv.1 c).mp hc⟩
      subst he
      simp [pivot]

/-- **C132**: if the keys are all the same then the rows are kept, with the names of their slices, the columns are those of the
values, and rows with the same slice are accepted. -/
theorem C132_same_keys (text : String → Prim → String) (stringify collapse : Bool) (s : Sheet) (hs : s.columns.Nodup) (hg : HasGroups s)
    (hv : ¬ ∃ c, Varies s c) :
    ∃ p, autoPivot text stringify collapse s = .ok p ∧
      p.labels = (s.columns.filter fun c => c.1 = .values).map (fun c => [.column c]) ∧
      (p.index.zip p.cells).Perm (s.rows.map fun r => (rowName text stringify s r, (s.columns.filter fun c => c.1 = .values).map r)) ∧
      p.index.length = s.rows.length ∧ p.cells.length = s.rows.length := by
  rw [autoPivot_eq _ _ _ _ hg]
  obtain ⟨φ, hp⟩ := prepared s hs text stringify
  unfold pivotSheet
  simp only [names_eq]
  generalize (if stringify then stringifySlices text s else s) = s' at *
  have hpv := hp.pivots
  generalize pivotColumns s' = cs at *
  have he : cs = [] := by
    rw [List.eq_nil_iff_forall_not_mem]
    exact fun c hc => hv ⟨c, (hpv.1 c).mp hc⟩
  subst he
  have hlen : s'.rows.length = s.rows.length := by simpa using hp.rows.length_eq
  simp only [pivot, if_true, Bool.false_eq_true, and_false, if_false]
  refine ⟨_, rfl, by simp only [hp.values], ?_, by simpa using hlen, by simpa using hlen⟩
  rw [List.zip_map']
  refine (hp.rows.map _).trans (.of_eq ?_)
  rw [List.map_map]
  refine List.map_congr_left fun r _ => Prod.ext (hp.index r) ?_
  simp only [Function.comp_apply, pick, hp.values]
  exact List.map_congr_left fun c hc => hp.same r c (by simp only [List.mem_filter, decide_eq_true_eq] at hc; simp [hc.2])

/-! ### Texts of slices -/

/-- The slice of a row has names without colons and semicolons, and values whose texts have no semicolons. -/
def PlainSlices (text : String → Prim → String) (r : SheetRow) : Prop :=
  ∀ n v, r (.slices, n) = some v → ':' ∉ n.toList ∧ ';' ∉ n.toList ∧ ';' ∉ (text n v).toList

private theorem until_eq {α : Type} (x : α) (a b u v : List α) (ha : x ∉ a) (hb : x ∉ b) (h : a ++ x :: u = b ++ x :: v) :
    a = b ∧ u = v := by
  induction a generalizing b with
  | nil =>
    cases b with
    | nil => simpa using h
    | cons y b =>
      simp only [List.nil_append, List.cons_append, List.cons.injEq] at h
      exact (hb (by rw [h.1]; simp)).elim
  | cons y a ih =>
    cases b with
    | nil =>
      simp only [List.nil_append, List.cons_append, List.cons.injEq] at h
      exact (ha (by rw [h.1]; simp)).elim
    | cons z b =>
      simp only [List.cons_append, List.cons.injEq] at h
      obtain ⟨h1, h2⟩ := ih b (fun hx => ha (by simp [hx])) (fun hx => hb (by simp [hx])) h.2
      exact ⟨by rw [h.1, h1], h2⟩

private theorem intercalate_inj (sep : List Char) (l m : List (List Char)) (hl : ∀ a ∈ l, ';' ∉ a ∧ a ≠ []) (hm : ∀ a ∈ m, ';' ∉ a ∧ a ≠ [])
    (h : (';' :: sep).intercalate l = (';' :: sep).intercalate m) : l = m := by
  induction l generalizing m with
  | nil =>
    match m, hm, h with
    | [], _, _ => rfl
    | [b], hm, h => exact ((hm b (by simp)).2 (by simpa using h.symm)).elim
    | b :: b' :: m, _, h => simp [List.intercalate_cons_cons] at h
  | cons a l ih =>
    match l, m, ih, hl, hm, h with
    | [], [], _, hl, _, h => exact ((hl a (by simp)).2 (by simpa using h)).elim
    | [], [b], _, _, _, h => simpa using h
    | [], b :: b' :: m, _, hl, _, h =>
      exfalso
      rw [List.intercalate_singleton, List.intercalate_cons_cons] at h
      exact (hl a (by simp)).1 (by rw [h]; simp)
    | a' :: l, [], _, _, _, h => simp [List.intercalate_cons_cons] at h
    | a' :: l, [b], _, _, hm, h =>
      exfalso
      rw [List.intercalate_singleton, List.intercalate_cons_cons] at h
      exact (hm b (by simp)).1 (by rw [← h]; simp)
    | a' :: l, b :: b' :: m, ih, hl, hm, h =>
      simp only [List.intercalate_cons_cons, List.append_assoc, List.cons_append] at h
      obtain ⟨h1, h2⟩ := until_eq ';' _ _ _ _ (hl a (by simp)).1 (hm b (by simp)).1 h
      rw [h1, ih (b' :: m) (fun x hx => hl x (by simp [hx])) (fun x hx => hm x (by simp [hx])) (by
        simpa using h2)]

private theorem mem_parts (text : String → Prim → String) (s : Sheet) (r : SheetRow) (x : String) :
    x ∈ (s.columns.flatMap fun c => match c, r c with
      | (.slices, n), some v => [n ++ ":" ++ text n v]
      | _, _ => []) ↔ ∃ n v, (Group.slices, n) ∈ s.columns ∧ r (.slices, n) = some v ∧ x = n ++ ":" ++ text n v := by
  rw [List.mem_flatMap]
  constructor
  · rintro ⟨⟨g, n⟩, hc, hx⟩
    cases g with
    | slices =>
      cases hv : r (.slices, n) with
      | none => simp [hv] at hx
      | some v => exact ⟨n, v, hc, hv, by simpa [hv] using hx⟩
    | keys => simp at hx
    | values => simp at hx
  · rintro ⟨n, v, hc, hv, rfl⟩
    exact ⟨_, hc, by simp [hv]⟩

/-- **C132**: rows of which the slices have the same text have the same slices, as far as their values have different texts, and
unless names have colons or semicolons or values have semicolons. -/
theorem C132_slices_partial (text : String → Prim → String) (s : Sheet) (r r' : SheetRow) (hr : PlainSlices text r) (hr' : PlainSlices text r')
    (h : sliceText text s r = sliceText text s r') (n : String) (hn : (Group.slices, n) ∈ s.columns) :
    (r (.slices, n)).map (text n) = (r' (.slices, n)).map (text n) := by
  have key : ∀ r, PlainSlices text r → ∀ a, a ∈ ((s.columns.flatMap fun c => match c, r c with
      | (.slices, n), some v => [n ++ ":" ++ text n v]
      | _, _ => []).map String.toList) → ';' ∉ a ∧ a ≠ [] := by
    intro r hr a ha
    obtain ⟨x, hx, rfl⟩ := List.mem_map.mp ha
    obtain ⟨n, v, hc, hv, rfl⟩ := (mem_parts text s r x).mp hx
    have := hr n v hv
    refine ⟨?_, by simp⟩
    simp only [String.toList_append, List.mem_append, not_or]
    exact ⟨⟨this.2.1, by decide⟩, this.2.2⟩
  have h1 := congrArg String.toList h
  unfold sliceText at h1
  rw [String.toList_intercalate, String.toList_intercalate] at h1
  have h2 := intercalate_inj [' '] _ _ (key r hr) (key r' hr') h1
  have one : ∀ r r', PlainSlices text r → PlainSlices text r' → ((s.columns.flatMap fun c => match c, r c with
      | (.slices, n), some v => [n ++ ":" ++ text n v]
      | _, _ => []).map String.toList) = ((s.columns.flatMap fun c => match c, r' c with
      | (.slices, n), some v => [n ++ ":" ++ text n v]
      | _, _ => []).map String.toList) → ∀ v, r (.slices, n) = some v → ∃ v', r' (.slices, n) = some v' ∧ text n v = text n v' := by
    intro r r' hr hr' he v hv
    have h3 := List.mem_map_of_mem (f := String.toList) ((mem_parts text s r _).mpr ⟨n, v, hn, hv, rfl⟩)
    rw [he] at h3
    obtain ⟨x, hx, hxe⟩ := List.mem_map.mp h3
    obtain ⟨n', v', hc', hv', rfl⟩ := (mem_parts text s r' x).mp hx
    simp only [String.toList_append, List.append_assoc, show ":".toList = [':'] from rfl, List.singleton_append] at hxe
    obtain ⟨h4, h5⟩ := until_eq ':' _ _ _ _ (hr' n' v' hv').1 (hr n v hv).1 hxe
    have h6 := String.toList_injective h4
    subst h6
    exact ⟨v', hv', (String.toList_injective h5).symm⟩
  cases hv : r (.slices, n) with
  | some v =>
    obtain ⟨v', h3, h4⟩ := one r r' hr hr' h2 v hv
    rw [h3]
    simp [h4]
  | none =>
    cases hv' : r' (.slices, n) with
    | none => rfl
    | some v' =>
      obtain ⟨v, h3, -⟩ := one r' r hr' hr h2.symm v' hv'
      rw [hv] at h3
      cases h3

/-! ### Frames of metrics -/

private theorem push_wf (d : Dict String Cells) (k : String) (c : Cells) (h : Dict.WF d) : Dict.WF (push d k c) := Dict.WF_set h _ _

private theorem foldl_push_wf' {α : Type} (f : α → String) (g : α → Cells) (l : List α) (d : Dict String Cells) (h : Dict.WF d) :
    Dict.WF (l.foldl (fun d a => push d (f a) (g a)) d) := by
  induction l generalizing d with
  | nil => exact h
  | cons a l ih => exact ih _ (push_wf _ _ _ h)

private def Fine (c : Columns) : Prop := Dict.WF c.slices ∧ Dict.WF c.keys ∧ Dict.WF c.values

private def AllFine (st : ColumnData × ℕ) : Prop := ∀ x ∈ st.1, Fine x.2

private theorem loop_inv {α β : Type} (f : β → α → Except Err β) (I : β → Prop) (hf : ∀ b a b', I b → f b a = .ok b' → I b') (l : List α)
    (b b' : β) (hb : I b) (h : loop f b l = .ok b') : I b' := by
  induction l generalizing b with
  | nil => cases h; exact hb
  | cons a l ih =>
    unfold loop at h
    cases hfa : f b a with
    | error e => rw [hfa] at h; cases h
    | ok b₁ => rw [hfa] at h; exact ih b₁ (hf _ _ _ hb hfa) h

private theorem set_mem {V : Type} (d : Dict String V) (k : String) (v : V) (x : String × V) (h : x ∈ Dict.set d k v) :
    x ∈ d ∨ x = (k, v) := by
  induction d with
  | nil => simp only [Dict.set, List.mem_singleton] at h; exact Or.inr h
  | cons y d ih =>
    obtain ⟨k', v'⟩ := y
    simp only [Dict.set] at h
    split_ifs at h with hk
    · rcases List.mem_cons.mp h with h | h
      · exact Or.inr (by rw [h]; simp_all)
      · exact Or.inl (List.mem_cons_of_mem _ h)
    · rcases List.mem_cons.mp h with h | h
      · exact Or.inl (by rw [h]; simp)
      · exact (ih h).imp (List.mem_cons_of_mem _) id

private theorem addField_fine (e : Bool) (slices : List (String × Prim)) (key : Field) (st : ColumnData × ℕ) (nf : String × Field)
    (st' : ColumnData × ℕ) (hs : AllFine st) (h : addField e slices key st nf = .ok st') : AllFine st' := by
  unfold addField at h
  by_cases hsk : skipped nf.2 = true
  · rw [if_pos hsk] at h
    cases h
    exact hs
  · rw [if_neg hsk] at h
    have hc : Fine ((Dict.get? st.1 nf.1).getD {}) := by
      cases hg : Dict.get? st.1 nf.1 with
      | none => exact ⟨List.nodup_nil, List.nodup_nil, List.nodup_nil⟩
      | some c => exact hs _ (Dict.mem_of_get? hg)
    cases h1 : flatten false nf.1 nf.2 st.2 with
    | error e => rw [h1] at h; cases h
    | ok leaves =>
      cases h2 : flatten e "key" key st.2 with
      | error e => simp only [h1, h2] at h; cases h
      | ok kl =>
        simp only [h1, h2] at h
        cases h
        intro x hx
        rcases set_mem _ _ _ _ hx with hx | rfl
        · exact hs x hx
        · exact ⟨foldl_push_wf' _ _ _ _ hc.1, foldl_push_wf' _ _ _ _ hc.2.1, foldl_push_wf' _ _ _ _ hc.2.2⟩

private theorem frame_columns (c : Columns) (hc : Fine c) (f : Frame) (h : frame c = .ok f) : (f.map (·.1)).Nodup := by
  unfold frame at h
  simp only at h
  split_ifs at h
  cases h
  have inj : ∀ (d : Dict String Cells) (g : Group), Dict.WF d → ((d.map fun x => (((g, x.1) : Group × String), x.2)).map (·.1)).Nodup := by
    intro d g hd
    rw [List.map_map]
    have : (d.map Prod.fst).Nodup := hd
    have h2 := this.map (f := fun n => ((g, n) : Group × String)) (fun a b hab => by simpa using hab)
    rwa [List.map_map] at h2
  rw [List.map_append, List.map_append]
  refine List.Nodup.append (List.Nodup.append (inj _ _ hc.1) (inj _ _ hc.2.1) ?_) (inj _ _ hc.2.2) ?_
  · intro x h1 h2
    simp only [List.map_map, List.mem_map] at h1 h2
    obtain ⟨_, _, rfl⟩ := h1
    obtain ⟨_, _, h2⟩ := h2
    simp at h2
  · intro x h1 h2
    simp only [List.map_map, List.mem_map, List.mem_append] at h1 h2
    obtain ⟨_, _, rfl⟩ := h2
    rcases h1 with ⟨_, _, h1⟩ | ⟨_, _, h1⟩ <;> simp at h1

private theorem mapE_mem {α β : Type} (f : α → Except Err β) (l : List α) (l' : List β) (h : Slicer.mapE f l = .ok l') (b : β) (hb : b ∈ l') :
    ∃ a ∈ l, f a = .ok b := by
  induction l generalizing l' with
  | nil => simp only [Slicer.mapE] at h; cases h; simp at hb
  | cons a l ih =>
    simp only [Slicer.mapE] at h
    cases h1 : f a with
    | error e => rw [h1] at h; cases h
    | ok b₁ =>
      rw [h1] at h
      cases h2 : Slicer.mapE f l with
      | error e => rw [h2] at h; cases h
      | ok l₁ =>
        rw [h2] at h
        cases h
        rcases List.mem_cons.mp hb with rfl | hb
        · exact ⟨a, by simp, h1⟩
        · obtain ⟨a', ha', h3⟩ := ih l₁ h2 hb
          exact ⟨a', by simp [ha'], h3⟩

/-- **C132**: no two columns of a data frame of metrics or plots have the same name. -/
theorem C132_columns (types : List String) (includeEmpty : Bool) (records : List Record) (dfs : Dict String Frame) (T : String) (f : Frame)
    (h : asDataframes types includeEmpty records = .ok dfs) (hf : Dict.get? dfs T = some f) : f.sheet.columns.Nodup := by
  unfold asDataframes at h
  cases ht : toDataframes includeEmpty records with
  | error e => rw [ht] at h; cases h
  | ok d =>
    rw [ht] at h
    simp only at h
    split_ifs at h
    cases h
    unfold toDataframes at ht
    cases hl : loop (addRecord includeEmpty) ([], 0) records with
    | error e => rw [hl] at ht; cases ht
    | ok st =>
      rw [hl] at ht
      have hfine : AllFine st := by
        refine loop_inv _ AllFine ?_ records ([], 0) st (fun x hx => by simp at hx) hl
        intro b a b' hb hba
        unfold addRecord at hba
        cases hs : sliceColumns a.key with
        | error e => rw [hs] at hba; cases hba
        | ok slices =>
          rw [hs] at hba
          refine loop_inv _ AllFine ?_ _ _ _ hb hba
          intro b a b' hb hba
          exact loop_inv _ AllFine (fun b nf b' hb h => addField_fine _ _ _ _ _ _ hb h) _ _ _ hb hba
      obtain ⟨a, ha, hfa⟩ := mapE_mem _ _ _ ht _ (Dict.mem_of_get? hf)
      cases hfr : frame a.2 with
      | error e => rw [hfr] at hfa; cases hfa
      | ok f' =>
        rw [hfr] at hfa
        cases hfa
        exact frame_columns _ (hfine a ha) _ hfr

/-- The rows of the numbers of a list of records: slice, key, number. -/
def numberItems (rs : List (Slicer.SliceKeyProto × List (String × Prim) × List (MetricKeys.MetricKeyPb × ℚ))) :
    List (List (String × Prim) × MetricKeys.MetricKeyPb × ℚ) :=
  rs.flatMap fun r => r.2.2.map fun kv => (r.2.1, kv.1, kv.2)

/-- The row shows exactly the number, its slice and its key. -/
def RowOf (includeEmpty : Bool) (x : List (String × Prim) × MetricKeys.MetricKeyPb × ℚ) (r : SheetRow) : Prop :=
  ∀ c v, r c = some v ↔ (c.2, some v) ∈ numberCells includeEmpty x.1 x.2.1 x.2.2 c.1

private theorem cell_column (f : Frame) (p : ℕ) (c : Column) (v : Option Prim) (h : f.cell p c = some v) :
    ∃ x ∈ f, x.1 = c ∧ (v, p) ∈ x.2 := by
  unfold Frame.cell at h
  cases hf : f.find? fun x => x.1 = c with
  | none => rw [hf] at h; cases h
  | some x =>
    rw [hf] at h
    simp only [Option.map_eq_some_iff] at h
    obtain ⟨y, hy, rfl⟩ := h
    have h1 := List.find?_some hf
    have h2 := List.find?_some hy
    simp only [decide_eq_true_eq] at h1 h2
    exact ⟨x, List.mem_of_find?_eq_some hf, h1, by rw [← h2]; exact List.mem_of_find?_eq_some hy⟩

private theorem column_cell (f : Frame) (hf : (f.map (·.1)).Nodup) (x : Column × Cells) (hx : x ∈ f) (y : Option Prim × ℕ) (hy : y ∈ x.2) :
    ∃ v, f.cell y.2 x.1 = some v := by
  unfold Frame.cell
  cases h1 : f.find? fun z => z.1 = x.1 with
  | none =>
    rw [List.find?_eq_none] at h1
    exact absurd (h1 x hx) (by simp)
  | some z =>
    have h2 := List.find?_some h1
    simp only [decide_eq_true_eq] at h2
    have h3 := List.inj_on_of_nodup_map hf (List.mem_of_find?_eq_some h1) hx h2
    subst h3
    simp only
    cases h4 : z.2.find? fun w => w.2 = y.2 with
    | none =>
      rw [List.find?_eq_none] at h4
      exact absurd (h4 y hy) (by simp)
    | some w => exact ⟨_, rfl⟩

/-- **C132**: the rows that are pivoted are those of the numbers of the records, in order. -/
theorem C132_rows (includeEmpty : Bool)
    (rs : List (Slicer.SliceKeyProto × List (String × Prim) × List (MetricKeys.MetricKeyPb × ℚ)))
    (hs : ∀ r ∈ rs, List.Forall₂ SliceCell r.1 r.2.1 ∧ (r.2.1.map Prod.fst).Nodup) (hne : numberItems rs ≠ []) :
    ∃ dfs f, asDataframes metricTypes includeEmpty (rs.map fun r => numberRecord r.1 r.2.2) = .ok dfs ∧
      Dict.get? dfs "double_value" = some f ∧ f.sheet.columns.Nodup ∧ HasGroups f.sheet ∧
      List.Forall₂ (RowOf includeEmpty) (numberItems rs) f.sheet.rows := by
  obtain ⟨dfs, h1, -, h2⟩ := C96_numbers includeEmpty rs hs
  have h2 : ∀ p g n cell, (∃ f, Dict.get? dfs "double_value" = some f ∧ Frame.cell f p (g, n) = some cell) ↔
      ∃ x, (numberItems rs)[p]? = some x ∧ (n, cell) ∈ numberCells includeEmpty x.1 x.2.1 x.2.2 g := h2
  generalize numberItems rs = items at *
  obtain ⟨x₀, hx₀⟩ : ∃ x, items[0]? = some x := by
    cases items with
    | nil => exact absurd rfl hne
    | cons x l => exact ⟨x, rfl⟩
  have hcells : ∀ x : List (String × Prim) × MetricKeys.MetricKeyPb × ℚ, ∀ g,
      ∃ n c, (n, c) ∈ numberCells includeEmpty x.1 x.2.1 x.2.2 g := by
    intro x g
    cases g with
    | slices =>
      rcases hx : x.1 with _ | ⟨y, l⟩
      · exact ⟨"Overall", _, by simp only [numberCells, sliceCells, if_true]; exact List.mem_singleton.mpr rfl⟩
      · exact ⟨y.1, some y.2, by simp [numberCells, sliceCells]⟩
    | keys => exact ⟨"name", some (.text x.2.1.name), by simp [numberCells]⟩
    | values => exact ⟨"double_value", some (.num x.2.2), by simp [numberCells]⟩
  obtain ⟨n₀, c₀, hc₀⟩ := hcells x₀ .values
  obtain ⟨f, hf, -⟩ := (h2 0 .values n₀ c₀).mpr ⟨x₀, hx₀, hc₀⟩
  have hcell : ∀ p g n cell, Frame.cell f p (g, n) = some cell ↔
      ∃ x, items[p]? = some x ∧ (n, cell) ∈ numberCells includeEmpty x.1 x.2.1 x.2.2 g := by
    intro p g n cell
    rw [← h2]
    constructor
    · exact fun h => ⟨f, hf, h⟩
    · rintro ⟨f', hf', h⟩
      rw [hf] at hf'
      cases hf'
      exact h
  have hcol := C132_columns _ _ _ _ _ _ h1 hf
  refine ⟨dfs, f, h1, hf, hcol, ?_, ?_⟩
  · intro g
    obtain ⟨n, c, hc⟩ := hcells x₀ g
    obtain ⟨y, hy, hy1, -⟩ := cell_column f 0 _ _ ((hcell 0 g n c).mpr ⟨x₀, hx₀, hc⟩)
    exact ⟨n, by rw [← hy1]; exact List.mem_map_of_mem hy⟩
  · have hrange : ((f.flatMap fun c => c.2.map (·.2)).dedup).insertionSort (· ≤ ·) = List.range items.length := by
      refine List.Perm.eq_of_pairwise (le := (· ≤ ·)) (fun a b _ _ h1 h2 => le_antisymm h1 h2) (List.pairwise_insertionSort _ _)
        (List.pairwise_lt_range.imp le_of_lt) ?_
      refine (List.perm_insertionSort _ _).trans ?_
      refine (List.perm_ext_iff_of_nodup (List.nodup_dedup _) List.nodup_range).mpr fun p => ?_
      rw [List.mem_dedup, List.mem_range]
      simp only [List.mem_flatMap, List.mem_map]
      constructor
      · rintro ⟨x, hx, y, hy, rfl⟩
        obtain ⟨v, hv⟩ := column_cell f hcol x hx y hy
        obtain ⟨z, hz, -⟩ := (hcell _ x.1.1 x.1.2 _).mp hv
        exact (List.getElem?_eq_some_iff.mp hz).1
      · intro hp
        obtain ⟨n, c, hc⟩ := hcells items[p] .keys
        obtain ⟨x, hx, -, hx2⟩ := cell_column f p _ _ ((hcell p .keys n c).mpr ⟨_, List.getElem?_eq_getElem hp, hc⟩)
        exact ⟨x, hx, _, hx2, rfl⟩
    unfold Frame.sheet
    simp only [hrange]
    rw [List.forall₂_iff_get]
    refine ⟨by simp, fun i h3 h4 => ?_⟩
    simp only [List.get_eq_getElem, List.getElem_map, List.getElem_range]
    intro c v
    show (f.cell i c).join = some v ↔ _
    have hi : items[i]? = some items[i] := List.getElem?_eq_getElem h3
    constructor
    · intro h
      have h5 : f.cell i (c.1, c.2) = some (some v) := by
        cases hc : f.cell i c with
        | none => rw [hc] at h; simp at h
        | some w => rw [hc] at h; simp only [Option.join_some] at h; rw [h]
      obtain ⟨x, hx, hm⟩ := (hcell i c.1 c.2 (some v)).mp h5
      rw [hi] at hx
      cases hx
      exact hm
    · intro h
      have h5 : f.cell i c = some (some v) := (hcell i c.1 c.2 (some v)).mpr ⟨_, hi, h⟩
      rw [h5]
      rfl

/-- Two slices are the same: they have the same columns and values. -/
def SameSlice (a b : List (String × Prim)) : Prop := ∀ c, c ∈ sliceCells a ↔ c ∈ sliceCells b

/-- The names of slices have no colons and semicolons, the texts of their values no semicolons, and different values have different
texts. -/
def PlainTexts (text : String → Prim → String) (slice : List (String × Prim)) : Prop :=
  ∀ c v, (c, some v) ∈ sliceCells slice → ':' ∉ c.toList ∧ ';' ∉ c.toList ∧ ';' ∉ (text c v).toList

/-- **C132**: the metrics of a result can be pivoted if no two of them have the same slice and the same key; with slices turned into
texts if moreover these are plain. -/
theorem C132_metrics (text : String → Prim → String) (includeEmpty stringify collapse : Bool)
    (rs : List (Slicer.SliceKeyProto × List (String × Prim) × List (MetricKeys.MetricKeyPb × ℚ)))
    (hs : ∀ r ∈ rs, List.Forall₂ SliceCell r.1 r.2.1 ∧ (r.2.1.map Prod.fst).Nodup) (hne : numberItems rs ≠ [])
    (hk : ∀ x ∈ numberItems rs, ProperKey x.2.1)
    (hd : (numberItems rs).Pairwise fun x y => ¬ SameSlice x.1 y.1 ∨ x.2.1 ≠ y.2.1)
    (ht : stringify = true → (∀ n, Function.Injective (text n)) ∧ ∀ x ∈ numberItems rs, PlainTexts text x.1) :
    ∃ dfs f p, asDataframes metricTypes includeEmpty (rs.map fun r => numberRecord r.1 r.2.2) = .ok dfs ∧
      Dict.get? dfs "double_value" = some f ∧ autoPivot text stringify collapse f.sheet = .ok p := by
  obtain ⟨dfs, f, h1, h2, h3, h4, h5⟩ := C132_rows includeEmpty rs hs hne
  suffices hsp : f.sheet.rows.Pairwise fun r r' => ¬ SamePlace text stringify f.sheet r r' by
    obtain ⟨p, hp⟩ := (C132_accepted text stringify collapse f.sheet h3).2.2 h4 (Or.inr hsp)
    exact ⟨dfs, f, p, h1, h2, hp⟩
  have hinj : stringify = true → ∀ n, Function.Injective (text n) := fun h => (ht h).1
  generalize numberItems rs = items at *
  -- every cell of a row has its column
  have hcolumn : ∀ r ∈ f.sheet.rows, ∀ c v, r c = some v → c ∈ f.sheet.columns := by
    intro r hr c v hv
    obtain ⟨q, -, rfl⟩ := List.mem_map.mp hr
    have h6 : f.cell q c = some (some v) := by
      have hv : (f.cell q c).join = some v := hv
      cases hc : f.cell q c with
      | none => rw [hc] at hv; simp at hv
      | some w => rw [hc] at hv; simp only [Option.join_some] at hv; rw [hv]
    obtain ⟨y, hy, hy1, -⟩ := cell_column f q c _ h6
    rw [← hy1]
    exact List.mem_map_of_mem hy
  have hpair : ∀ (items : List (List (String × Prim) × MetricKeys.MetricKeyPb × ℚ)) (rows : List SheetRow),
      List.Forall₂ (RowOf includeEmpty) items rows → (∀ x ∈ items, ProperKey x.2.1) →
      (stringify = true → ∀ x ∈ items, PlainTexts text x.1) → (∀ r ∈ rows, r ∈ f.sheet.rows) →
      items.Pairwise (fun x y => ¬ SameSlice x.1 y.1 ∨ x.2.1 ≠ y.2.1) →
      rows.Pairwise fun r r' => ¬ SamePlace text stringify f.sheet r r' := by
    intro items rows hr
    induction hr with
    | nil => intros; exact List.Pairwise.nil
    | @cons x r items rows hxr hrest ih =>
      intro hk ht hm hd
      rw [List.pairwise_cons] at hd ⊢
      refine ⟨fun r' hr' hsp => ?_, ih (fun y hy => hk y (by simp [hy])) (fun h y hy => ht h y (by simp [hy]))
        (fun y hy => hm y (by simp [hy])) hd.2⟩
      obtain ⟨y, hy, hyr⟩ : ∃ y ∈ items, RowOf includeEmpty y r' := by
        clear ih hd ht hk hm
        induction hrest with
        | nil => simp at hr'
        | @cons a b l m hab _ ih =>
          rcases List.mem_cons.mp hr' with rfl | h
          · exact ⟨a, by simp, hab⟩
          · obtain ⟨y, hy, h⟩ := ih h
            exact ⟨y, by simp [hy], h⟩
      obtain ⟨hslice, hkeys⟩ := hsp
      have hmr := hm r (by simp)
      have hmr' := hm r' (by simp [hr'])
      -- rows that agree in the columns of the frame agree everywhere
      have hall : ∀ g, (∀ c ∈ f.sheet.columns, c.1 = g → r c = r' c) → ∀ n, r (g, n) = r' (g, n) := by
        intro g h n
        by_cases hc : (g, n) ∈ f.sheet.columns
        · exact h _ hc rfl
        · have hn : ∀ r ∈ f.sheet.rows, r (g, n) = none := fun r hr => by
            cases hv : r (g, n) with
            | none => rfl
            | some v => exact absurd (hcolumn r hr _ v hv) hc
          rw [hn r hmr, hn r' hmr']
      rcases hd.1 y hy with hne | hne
      · apply hne
        have hsame : ∀ n, r (.slices, n) = r' (.slices, n) := by
          refine hall .slices fun c hc hg => ?_
          cases hst : stringify with
          | false =>
            rw [hst] at hslice
            simp only [rowName, Bool.false_eq_true, if_false] at hslice
            rw [List.map_inj_left] at hslice
            exact hslice c (List.mem_filter.mpr ⟨hc, by simp [hg]⟩)
          | true =>
            rw [hst] at hslice
            simp only [rowName, if_true, List.cons.injEq, Option.some.injEq, Prim.text.injEq, and_true] at hslice
            obtain ⟨g, n⟩ := c
            cases hg
            have plain : ∀ x r, RowOf includeEmpty x r → PlainTexts text x.1 → PlainSlices text r :=
              fun x r hxr hp n v hv => hp n v ((hxr _ v).mp hv)
            have h8 := C132_slices_partial text f.sheet r r' (plain x r hxr (ht hst x (by simp))) (plain y r' hyr (ht hst y (by simp [hy])))
              hslice n hc
            exact Option.map_injective (hinj hst n) h8
        have key : ∀ n v, (n, some v) ∈ sliceCells x.1 ↔ (n, some v) ∈ sliceCells y.1 := fun n v => by
          rw [show sliceCells x.1 = numberCells includeEmpty x.1 x.2.1 x.2.2 .slices from rfl,
            show sliceCells y.1 = numberCells includeEmpty y.1 y.2.1 y.2.2 .slices from rfl, ← hxr (.slices, n) v, ← hyr (.slices, n) v,
            hsame n]
        have hnone : ∀ (l : List (String × Prim)) n, (n, none) ∉ sliceCells l := by
          intro l n h
          unfold sliceCells at h
          split_ifs at h <;> simp at h
        intro ⟨n, c⟩
        cases c with
        | none => exact ⟨fun h => (hnone _ _ h).elim, fun h => (hnone _ _ h).elim⟩
        | some v => exact key n v
      · apply hne
        refine C96_keys_differ includeEmpty x.2.1 y.2.1 (hk x (by simp)) (hk y (by simp [hy])) x.1 y.1 x.2.2 y.2.2 fun n v => ?_
        have h7 := hall .keys hkeys n
        rw [← hxr (.keys, n) v, ← hyr (.keys, n) v, h7]
  exact hpair items f.sheet.rows h5 hk (fun h => (ht h).2) (fun _ h => h) hd

/-! ### Examples and disagreements -/

/-- Texts of values, good enough for examples. -/
def simpleText (_ : String) : Prim → String
  | .int i => toString i
  | .text t => t
  | _ => "?"

/-- A frame with its columns and rows given as lists of cells. -/
def sheetOf (columns : List Column) (rows : List (List (Option Prim))) : Sheet :=
  ⟨columns, rows.map fun r c => ((columns.zip r).find? fun x => x.1 = c).bind (·.2)⟩

/-- What remains of a result to compare. -/
def outcome (r : Except Err Pivoted) : Except Err (List (List (Option Prim)) × List (List Level) × List (List (Option Prim))) :=
  r.map fun p => (p.index, p.labels, p.cells)

/-- The error, if it is one. -/
def failure (r : Except Err Pivoted) : Option Err := match r with
  | .error e => some e
  | .ok _ => none

/-- Two slices, two metrics; the model name is the same everywhere. -/
def exampleSheet : Sheet := sheetOf [(.slices, "age"), (.slices, "sex"), (.keys, "name"), (.keys, "model_name"), (.values, "double_value")]
  [[none, none, some (.text "auc"), some (.text ""), some (.num 1)],
    [some (.int 38), some (.text "f"), some (.text "auc"), some (.text ""), some (.num 2)],
    [some (.int 38), some (.text "f"), some (.text "loss"), some (.text ""), some (.num 3)]]

example : exampleSheet.columns.Nodup ∧ Varies exampleSheet (.keys, "name") ∧ HasGroups exampleSheet := by
  refine ⟨by decide, ⟨by decide, rfl, _, List.mem_cons_self, _, List.mem_cons_of_mem _ (List.mem_cons_of_mem _ List.mem_cons_self), by decide⟩, ?_⟩
  intro g
  cases g
  exacts [⟨"age", by decide⟩, ⟨"name", by decide⟩, ⟨"double_value", by decide⟩]

example : outcome (autoPivot simpleText true true exampleSheet) =
    .ok ([[some (.text "")], [some (.text "age:38; sex:f")]],
      [[.value (some (.text "auc"))], [.value (some (.text "loss"))]],
      [[some (.num 1), none], [some (.num 2), some (.num 3)]]) := by
  decide +kernel

/-- Plots of two models, at two thresholds each, of the overall slice. -/
def plotRecords : List Record :=
  [⟨.slice [], ["a", "b"].map fun m => (keyField { name := "plot", modelName := m },
    .ofList [("confusion_matrix_at_thresholds", .message (.ofList [("matrices", .messages (.ofList
      ([1/4, 1/2].map fun (t : ℚ) => .ofList [("threshold", .scalar (.num t)), ("true_positives", .scalar (.num 1))])))]))])⟩]

/-- **C132** fails for plots: all rows of a plot have the same slice and key, so that a frame with the plots of two models cannot be
pivoted, although that of one model can. -/
theorem C132_plots_fail :
    ((asDataframes plotTypes false plotRecords).toOption.bind fun dfs => (Dict.get? dfs "confusion_matrix_at_thresholds").map fun f =>
      (f.sheet.rows.length, failure (autoPivot simpleText true true f.sheet))) = some (4, some .valueError) ∧
    ((asDataframes plotTypes false (plotRecords.map fun r => { r with keysAndValues := r.keysAndValues.take 1 })).toOption.bind fun dfs =>
      (Dict.get? dfs "confusion_matrix_at_thresholds").map fun f =>
      (f.sheet.rows.length, failure (autoPivot simpleText true true f.sheet))) = some (2, none) := by
  refine ⟨?_, ?_⟩ <;> decide +kernel

/-- **C132** fails for slices whose names have colons and semicolons: different slices have the same text, so that a frame that can be
pivoted by its slices cannot be pivoted by their texts. -/
theorem C132_texts_fail :
    let s := sheetOf [(.slices, "a"), (.slices, "b"), (.slices, "a:1; b"), (.keys, "name"), (.values, "double_value")]
      [[some (.int 1), some (.int 2), none, some (.text "auc"), some (.num 1)],
        [none, none, some (.int 2), some (.text "auc"), some (.num 2)],
        [none, none, some (.int 2), some (.text "loss"), some (.num 3)]]
    failure (autoPivot simpleText false true s) = none ∧ failure (autoPivot simpleText true true s) = some .valueError := by
  refine ⟨?_, ?_⟩ <;> decide +kernel

/-- Two slices with two metrics each meet the conditions of `C132_metrics`. -/
example : let rs : List (Slicer.SliceKeyProto × List (String × Prim) × List (MetricKeys.MetricKeyPb × ℚ)) :=
      [([], [], [({ name := "auc" }, 1/2), ({ name := "loss" }, 2)]),
        ([⟨"age", some (.int64Value 38)⟩], [("age", .int 38)], [({ name := "auc" }, 1/3)])]
    (∀ r ∈ rs, List.Forall₂ SliceCell r.1 r.2.1 ∧ (r.2.1.map Prod.fst).Nodup) ∧ numberItems rs ≠ [] ∧
      (∀ x ∈ numberItems rs, ProperKey x.2.1) ∧
      (numberItems rs).Pairwise fun x y => ¬ SameSlice x.1 y.1 ∨ x.2.1 ≠ y.2.1 := by
  refine ⟨?_, by decide, ?_, ?_⟩
  · simp only [List.mem_cons, List.not_mem_nil, or_false, forall_eq_or_imp, forall_eq]
    exact ⟨⟨.nil, by simp⟩, .cons (.int _ _) .nil, by simp⟩
  · simp [numberItems, ProperKey]
  · simp only [numberItems, List.flatMap_cons, List.flatMap_nil, List.map_cons, List.map_nil, List.append_nil, List.cons_append,
      List.nil_append, List.pairwise_cons, List.mem_cons, List.not_mem_nil, or_false, forall_eq_or_imp, forall_eq]
    have : ¬ SameSlice [] [("age", .int 38)] := fun h => by
      have := (h ("Overall", some (.text ""))).mp (by simp [sliceCells])
      simp [sliceCells] at this
    exact ⟨⟨Or.inr (by simp), Or.inl this⟩, ⟨Or.inl this, by simp⟩⟩

end DataFrames
end TFMA
