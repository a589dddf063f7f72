import Verif.Model.SharedInputs
import Verif.Props.Filters
import Mathlib.Data.List.Forall2

/-!
# C124 The inputs metrics share
-/

namespace TFMA.SharedInputs
open TFMA Filters

variable {α β : Type}

/-! ### Specification -/

/-- The labels, the predictions and the example weights. -/
def defaultKeys : List String := ["labels", "predictions", "example_weights"]

/-- The rest of a path goes through one of the keys of each level; a None value on the way is
kept. -/
def Within : List (List String) → Path → Bool → Prop
  | [], _, _ => True
  | _ :: _, [], isNone => isNone = true
  | l :: ls, k :: p, isNone => k ∈ l ∧ Within ls p isNone

/-- The levels for which something was given. -/
def given (ls : List (List String)) : List (List String) := ls.filter (· ≠ [])

/-- What a computation asks for. -/
def Asks : Request α β → Path → Bool → Prop
  | .default, p, _ => ∃ k rest, p = k :: rest ∧ k ∈ defaultKeys
  | .standard f, p, isNone => selects (.node f) p isNone = true
  | .own _, _, _ => False

/-- The entries of the extracts in which a computation is interested. -/
def AsksKey : Request α β → String → Prop
  | .default, k => k ∈ defaultKeys
  | .standard f, k => f.has k = true
  | .own _, _ => False

/-- The filters given are dictionaries and not empty. -/
def Valid : Request α β → Prop
  | .standard f => f.WF ∧ f ≠ .nil
  | _ => True

/-- What the combiner of a computation gets for an example. -/
def Served (reqs : List (Request α β)) (t : Target α) : Request α β → List (Input α β) → Prop
  | .own run, out => ∃ l, run t = .ok l ∧ out = l.map .own
  | _, out => ∃ r, out = [.standard r] ∧ ∀ p a,
      (Tree.node r).leafAt p = some a ↔
        (Tree.node t).leafAt p = some a ∧ ∃ q ∈ reqs, Asks q p a.isNone

/-- What is asked for is there. -/
def Present (reqs : List (Request α β)) (t : Target α) : Prop :=
  (∀ q ∈ reqs, ∀ k ∈ ["labels", "predictions", "attributions"], AsksKey q k → t.has k = true) ∧
  (∀ q ∈ reqs, ∀ k ∈ ["features", "transformed_features"], AsksKey q k →
    ∃ k' ∈ ["features", "transformed_features"], t.has k' = true ∧ ∃ q' ∈ reqs, AsksKey q' k')

/-- The filter can be applied to the extracts: it does not continue below values that are not
dictionaries. -/
def Applies (t : Target α) : Request α β → Prop
  | .default => True
  | .standard f => ∀ p a, (Tree.node t).leafAt p = some a → continuesBelow (.node f) p = true → a = none
  | .own run => ∃ l, run t = .ok l

/-! ### Filters made from keys -/

theorem byName_find? (names : List String) (f : Filter) (k : String) :
    (byName names f).find? k = if k ∈ names then some (.node f) else none := by
  have : ∀ (names : List String) (d : Filter),
      (names.foldl (fun d n => d.set n (.node f)) d).find? k =
        if k ∈ names then some (.node f) else d.find? k := by
    intro names
    induction names with
    | nil => intro d; simp
    | cons n names ih =>
      intro d
      rw [List.foldl_cons, ih, Forest.find?_set]
      by_cases h : k ∈ names
      · simp [h]
      · by_cases h2 : n = k
        · simp [h2]
        · simp [h, h2, Ne.symm h2]
  rw [byName, this]
  simp [Forest.find?]

theorem byName_empty (names : List String) (f : Filter) (hn : names ≠ []) :
    (byName names f).isEmpty = false := by
  obtain ⟨n, rest, rfl⟩ := List.exists_cons_of_ne_nil hn
  cases h : byName (n :: rest) f with
  | nil =>
    have := byName_find? (n :: rest) f n
    rw [h] at this
    simp [Forest.find?] at this
  | cons => rfl

theorem selects_under (names : List String) (f : Filter) (p : Path) (n : Bool) :
    selects (.node (under names f)) p n = true ↔
      if names = [] then selects (.node f) p n = true
      else match p with
        | [] => n = true
        | k :: p => k ∈ names ∧ selects (.node f) p n = true := by
  by_cases h : names = []
  · simp [under, h]
  · have h' : names.isEmpty = false := by simpa using h
    simp only [under, h', Bool.false_eq_true, if_false, h]
    cases p with
    | nil => simp [selects, byName_empty names f h]
    | cons k p =>
      simp only [selects, byName_empty names f h, Bool.false_or, byName_find?]
      by_cases hk : k ∈ names <;> simp [hk]

theorem selects_nil (p : Path) (n : Bool) : selects (.node .nil) p n = true := by
  cases p <;> simp [selects, Forest.isEmpty]

theorem selects_under_within (names : List String) (f : Filter) (ls : List (List String))
    (hf : ∀ p n, selects (.node f) p n = true ↔ Within (given ls) p n) (p : Path) (n : Bool) :
    selects (.node (under names f)) p n = true ↔ Within (given (names :: ls)) p n := by
  rw [selects_under]
  by_cases h : names = []
  · simp [h, hf, given]
  · rw [if_neg h]
    have : given (names :: ls) = names :: given ls := by simp [given, h]
    rw [this]
    cases p with
    | nil => simp [Within]
    | cons k p => simp [Within, hf]

theorem within_nil (p : Path) (n : Bool) : selects (.node .nil) p n = true ↔ Within (given []) p n := by
  simp [selects_nil, given, Within]

theorem selects_std (inc : Filter) (d : Bool) (models outputs : List String) (k : String) (p : Path) (n : Bool)
    (hi : inc.isEmpty = false) (hk : ∀ k ∈ defaultKeys, inc.find? k = none) :
    selects (.node (std inc d models outputs)) (k :: p) n = true ↔
      selects (.node inc) (k :: p) n = true ∨
        (d = true ∧ k ∈ defaultKeys ∧ Within (given [models, outputs]) p n) := by
  have hw := selects_under_within models (under outputs .nil) [outputs]
    (selects_under_within outputs .nil [] within_nil) p n
  cases d with
  | false => simp [std]
  | true =>
    have hne : (std inc true models outputs).isEmpty = false := by
      cases h : std inc true models outputs with
      | nil =>
        have : (std inc true models outputs).find? "example_weights" = none := by rw [h]; rfl
        simp [std, Forest.find?_set] at this
      | cons => rfl
    have hf : (std inc true models outputs).find? k =
        if k ∈ defaultKeys then some (.node (under models (under outputs .nil))) else inc.find? k := by
      simp only [std, if_true, Forest.find?_set, defaultKeys, List.mem_cons, List.not_mem_nil, or_false]
      by_cases h1 : k = "labels"
      · simp [h1]
      · by_cases h2 : k = "predictions"
        · simp [h2]
        · by_cases h3 : k = "example_weights"
          · simp [h3]
          · simp [h1, h2, h3, Ne.symm h1, Ne.symm h2, Ne.symm h3]
    simp only [selects, hne, hi, Bool.false_or, hf]
    by_cases h : k ∈ defaultKeys
    · simp [h, hw, hk k h]
    · simp [h]

/-! ### The merged filter -/

/-- A dictionary with entries. -/
def Good (f : Filter) : Prop := f.WF ∧ f.isEmpty = false

theorem merge_good {f g : Filter} (hf : Good f) (hg : Good g) :
    Good (mergeFilters f g) ∧
      (∀ p n, selects (.node (mergeFilters f g)) p n = true ↔
        selects (.node f) p n = true ∨ selects (.node g) p n = true) ∧
      (∀ k, (mergeFilters f g).has k = true ↔ f.has k = true ∨ g.has k = true) ∧
      (∀ p, continuesBelow (.node (mergeFilters f g)) p = true →
        continuesBelow (.node f) p = true ∨ continuesBelow (.node g) p = true) := by
  have he : mergeFilters f g = (mergeItems f g).append (onlySecond f g) := by
    have := mergeFilters_node f g
    unfold mergeTree at this
    rw [if_neg (by simp [hf.2]), if_neg (by simp [hg.2])] at this
    exact Tree.node.inj this
  refine ⟨⟨?_, ?_⟩, ?_, ?_, ?_⟩
  · have := mergeTree_wf (.node f) (.node g) (by unfold Tree.WF; exact hf.1) (by unfold Tree.WF; exact hg.1)
    rw [← mergeFilters_node] at this
    unfold Tree.WF at this; exact this
  · rw [he]; exact merged_not_empty (by simp [hf.2])
  · intro p n
    rw [mergeFilters_node, selects_merge, Bool.or_eq_true]
  · intro k
    rw [he]
    simp only [Forest.has, mergedItems_find?]
    cases f.find? k <;> cases g.find? k <;> simp
  · intro p
    rw [mergeFilters_node]
    exact continues_merge _ _ p

theorem fold_good (fs : List Filter) (hfs : ∀ f ∈ fs, Good f) (acc : Filter) (ha : Good acc) :
    let r := fs.foldl (fun acc f => if acc.isEmpty then f else mergeFilters acc f) acc
    Good r ∧
      (∀ p n, selects (.node r) p n = true ↔ ∃ f ∈ acc :: fs, selects (.node f) p n = true) ∧
      (∀ k, r.has k = true ↔ ∃ f ∈ acc :: fs, f.has k = true) ∧
      (∀ p, continuesBelow (.node r) p = true → ∃ f ∈ acc :: fs, continuesBelow (.node f) p = true) := by
  induction fs generalizing acc with
  | nil => simp [ha]
  | cons f fs ih =>
    obtain ⟨m1, m2, m3, m4⟩ := merge_good ha (hfs f (by simp))
    obtain ⟨i1, i2, i3, i4⟩ := ih (fun g hg => hfs g (by simp [hg])) _ m1
    simp only [List.foldl_cons, ha.2, Bool.false_eq_true, if_false]
    refine ⟨i1, ?_, ?_, ?_⟩
    · intro p n
      rw [i2]
      simp only [List.mem_cons, exists_eq_or_imp, m2, or_assoc]
    · intro k
      rw [i3]
      simp only [List.mem_cons, exists_eq_or_imp, m3, or_assoc]
    · intro p hp
      have := i4 p hp
      simp only [List.mem_cons, exists_eq_or_imp] at this ⊢
      rcases this with h | h
      · rcases m4 p h with h | h
        · exact Or.inl h
        · exact Or.inr (Or.inl h)
      · exact Or.inr (Or.inr h)

theorem list_good (fs : List Filter) (hne : fs ≠ []) (hfs : ∀ f ∈ fs, Good f) :
    Good (listFilter fs) ∧
      (∀ p n, selects (.node (listFilter fs)) p n = true ↔ ∃ f ∈ fs, selects (.node f) p n = true) ∧
      (∀ k, (listFilter fs).has k = true ↔ ∃ f ∈ fs, f.has k = true) ∧
      (∀ p, continuesBelow (.node (listFilter fs)) p = true → ∃ f ∈ fs, continuesBelow (.node f) p = true) := by
  obtain ⟨f, rest, rfl⟩ := List.exists_cons_of_ne_nil hne
  have := fold_good rest (fun g hg => hfs g (by simp [hg])) f (hfs f (by simp))
  simpa only [listFilter, List.foldl_cons, Forest.isEmpty, if_true] using this

/-! ### Which entries a filter keeps -/

theorem includeItems_has (inc : Filter) (t r : Target α) (h : includeItems inc t = .ok r) (k : String) :
    r.has k = true ↔ inc.has k = true ∧ t.has k = true := by
  induction inc using Forest.rec (motive_1 := fun _ => True) generalizing r with
  | leaf => trivial
  | node => trivial
  | nil => simp [includeItems] at h; subst h; simp [Forest.has, Forest.find?]
  | cons k' sub rest _ ih =>
    unfold includeItems at h
    split at h
    · rename_i hnone
      rw [ih r h]
      by_cases hk : k' = k
      · subst hk; simp [Forest.has, hnone]
      · simp [Forest.has, Forest.find?, hk]
    · rename_i hsome
      split at h
      · cases h
      · rename_i r' hr'
        cases h
        by_cases hk : k' = k
        · subst hk; simp [Forest.has, Forest.find?, hsome]
        · simpa [Forest.has, Forest.find?, hk] using ih r' hr'
    · rename_i v _ hsome
      split at h
      · cases h
      · split at h
        · cases h
        · rename_i r' hr'
          cases h
          by_cases hk : k' = k
          · subst hk; simp [Forest.has, Forest.find?, hsome]
          · simpa [Forest.has, Forest.find?, hk] using ih r' hr'

theorem includeFilter_has (inc : Filter) (he : inc.isEmpty = false) (t r : Target α)
    (h : includeFilter inc t = .ok r) (k : String) :
    r.has k = true ↔ inc.has k = true ∧ t.has k = true := by
  rw [includeFilter_eq] at h
  unfold includeTree at h
  rw [if_neg (by simp [he])] at h
  simp only at h
  split at h
  · cases h
  · rename_i r' hr'
    cases h
    exact includeItems_has inc t r hr' k

/-! ### The requests -/

theorem std_default_good : Good (std .nil true [] []) := by
  refine ⟨?_, by rfl⟩
  simp [std, Forest.set, Forest.WF, Tree.WF, Forest.keys, under]

theorem std_default_find? (k : String) :
    (std .nil true [] []).find? k = if k ∈ defaultKeys then some (.node .nil) else none := by
  simp only [std, under, if_true, Forest.find?_set, defaultKeys, List.mem_cons, List.not_mem_nil, or_false,
    List.isEmpty_nil, Forest.find?]
  by_cases h1 : k = "labels"
  · simp [h1]
  · by_cases h2 : k = "predictions"
    · simp [h2]
    · by_cases h3 : k = "example_weights"
      · simp [h3]
      · simp [h1, h2, h3, Ne.symm h1, Ne.symm h2, Ne.symm h3]

/-- the filter of a request that is part of the shared inputs. -/
def filterOf : Request α β → Option Filter
  | .default => some (std .nil true [] [])
  | .standard f => some f
  | .own _ => none

theorem mem_standards (reqs : List (Request α β)) (added : Bool) (f : Filter) :
    f ∈ standards added reqs → ∃ q ∈ reqs, filterOf q = some f := by
  induction reqs generalizing added with
  | nil => simp [standards]
  | cons q reqs ih =>
    cases q with
    | default =>
      simp only [standards, List.mem_append]
      rintro (h | h)
      · cases added <;> simp at h
        exact ⟨.default, by simp, by simp [filterOf, h]⟩
      · obtain ⟨q, hq, h⟩ := ih _ h
        exact ⟨q, by simp [hq], h⟩
    | standard g =>
      simp only [standards, List.mem_cons]
      rintro (rfl | h)
      · exact ⟨.standard f, by simp, rfl⟩
      · obtain ⟨q, hq, h⟩ := ih _ h
        exact ⟨q, Or.inr hq, h⟩
    | own g =>
      simp only [standards]
      intro h
      obtain ⟨q, hq, h⟩ := ih _ h
      exact ⟨q, by simp [hq], h⟩

theorem standards_mem (reqs : List (Request α β)) (added : Bool) (q : Request α β) (hq : q ∈ reqs) (f : Filter)
    (hf : filterOf q = some f) : f ∈ standards added reqs ∨ (added = true ∧ f = std .nil true [] []) := by
  induction reqs generalizing added with
  | nil => simp at hq
  | cons q' reqs ih =>
    rcases List.mem_cons.mp hq with rfl | hq1
    · cases q with
      | default =>
        simp only [filterOf, Option.some.injEq] at hf
        cases added <;> simp [standards, hf]
      | standard g =>
        simp only [filterOf, Option.some.injEq] at hf
        simp [standards, hf]
      | own g => simp [filterOf] at hf
    · cases q' with
      | default =>
        rcases ih true hq1 with h | ⟨-, h⟩
        · left; simp [standards, h]
        · cases added
          · left; simp [standards, h]
          · right; exact ⟨rfl, h⟩
      | standard g =>
        rcases ih added hq1 with h | h
        · left; simp [standards, h]
        · right; exact h
      | own g => simpa [standards] using ih added hq1

theorem standards_iff (reqs : List (Request α β)) (f : Filter) :
    f ∈ standards false reqs ↔ ∃ q ∈ reqs, filterOf q = some f := by
  refine ⟨mem_standards reqs false f, ?_⟩
  rintro ⟨q, hq, hf⟩
  rcases standards_mem reqs false q hq f hf with h | ⟨h, -⟩
  · exact h
  · cases h

theorem filterOf_good {q : Request α β} (hv : Valid q) {f : Filter} (hf : filterOf q = some f) : Good f := by
  cases q with
  | default => simp only [filterOf, Option.some.injEq] at hf; exact hf ▸ std_default_good
  | standard g =>
    simp only [filterOf, Option.some.injEq] at hf
    subst hf
    refine ⟨hv.1, ?_⟩
    cases g with
    | nil => exact absurd rfl hv.2
    | cons => rfl
  | own g => simp [filterOf] at hf

theorem filterOf_selects {q : Request α β} {f : Filter} (hf : filterOf q = some f) (k : String) (p : Path)
    (n : Bool) : selects (.node f) (k :: p) n = true ↔ Asks q (k :: p) n := by
  cases q with
  | default =>
    simp only [filterOf, Option.some.injEq] at hf
    subst hf
    have he : (std .nil true [] []).isEmpty = false := rfl
    simp only [selects, he, Bool.false_or, std_default_find?, Asks]
    by_cases h : k ∈ defaultKeys
    · simp [h, selects_nil]
    · simp [h]
  | standard g =>
    simp only [filterOf, Option.some.injEq] at hf
    subst hf
    rfl
  | own g => simp [filterOf] at hf

theorem filterOf_has {q : Request α β} {f : Filter} (hf : filterOf q = some f) (k : String) :
    f.has k = true ↔ AsksKey q k := by
  cases q with
  | default =>
    simp only [filterOf, Option.some.injEq] at hf
    subst hf
    simp only [Forest.has, std_default_find?, AsksKey]
    by_cases h : k ∈ defaultKeys <;> simp [h]
  | standard g =>
    simp only [filterOf, Option.some.injEq] at hf
    subst hf
    rfl
  | own g => simp [filterOf] at hf

theorem combinerInputs_ok (t : Target α) (reqs : List (Request α β)) (items : List (Option (List β)))
    (h : combinerInputs t reqs = .ok items) :
    List.Forall₂ (fun q it => match q with
      | .own run => ∃ l, run t = .ok l ∧ it = some l
      | _ => it = none) reqs items := by
  induction reqs generalizing items with
  | nil => simp only [combinerInputs, Except.ok.injEq] at h; subst h; exact .nil
  | cons q reqs ih =>
    cases q with
    | own run =>
      simp only [combinerInputs] at h
      split at h
      · cases h
      · rename_i l hl
        split at h
        · cases h
        · rename_i r hr
          cases h
          exact .cons ⟨l, hl, rfl⟩ (ih r hr)
    | default =>
      simp only [combinerInputs] at h
      split at h
      · cases h
      · rename_i r hr
        cases h
        exact .cons rfl (ih r hr)
    | standard g =>
      simp only [combinerInputs] at h
      split at h
      · cases h
      · rename_i r hr
        cases h
        exact .cons rfl (ih r hr)

theorem combinerInputs_succeeds (t : Target α) (reqs : List (Request α β))
    (h : ∀ q ∈ reqs, Applies t q) : ∃ items, combinerInputs t reqs = .ok items := by
  induction reqs with
  | nil => exact ⟨[], rfl⟩
  | cons q reqs ih =>
    obtain ⟨r, hr⟩ := ih fun q hq => h q (by simp [hq])
    cases q with
    | own run =>
      obtain ⟨l, hl⟩ := h (.own run) (by simp)
      exact ⟨some l :: r, by simp only [combinerInputs, hl, hr]⟩
    | default => exact ⟨none :: r, by simp only [combinerInputs, hr]⟩
    | standard g => exact ⟨none :: r, by simp only [combinerInputs, hr]⟩

/-- the shared part, in terms of the filter and of the flags. -/
theorem shared_good (fs : List Filter) (hne : fs ≠ []) (hfs : ∀ f ∈ fs, Good f) (t : Target α) :
    shared fs t = match includeFilter (listFilter fs) t with
      | .error e => .error e
      | .ok r => match standardInputs (listFilter fs) r with
        | .error e => .error e
        | .ok x => .ok [x] := by
  have he : fs.isEmpty = false := by simpa using hne
  simp only [shared, he, Bool.false_eq_true, if_false, process]
  cases includeFilter (listFilter fs) t with
  | error e => rfl
  | ok r =>
    simp only [(list_good fs hne hfs).1.2, Bool.false_eq_true, if_false, allStandard]
    cases standardInputs (listFilter fs) r <;> rfl

theorem standardInputs_cases (f : Filter) (r : Target α) :
    (standardInputs f r = .ok r ∧
      ((f.has "labels" = true → r.has "labels" = true) ∧ (f.has "predictions" = true → r.has "predictions" = true) ∧
       (f.has "features" = true ∨ f.has "transformed_features" = true →
          r.has "features" = true ∨ r.has "transformed_features" = true) ∧
       (f.has "attributions" = true → r.has "attributions" = true))) ∨
    (standardInputs f r = .error .valueError ∧
      ¬ ((f.has "labels" = true → r.has "labels" = true) ∧ (f.has "predictions" = true → r.has "predictions" = true) ∧
       (f.has "features" = true ∨ f.has "transformed_features" = true →
          r.has "features" = true ∨ r.has "transformed_features" = true) ∧
       (f.has "attributions" = true → r.has "attributions" = true))) := by
  unfold standardInputs
  generalize f.has "labels" = a1
  generalize f.has "predictions" = a2
  generalize f.has "features" = a3
  generalize f.has "transformed_features" = a4
  generalize f.has "attributions" = a5
  generalize r.has "labels" = b1
  generalize r.has "predictions" = b2
  generalize r.has "features" = b3
  generalize r.has "transformed_features" = b4
  generalize r.has "attributions" = b5
  cases a1 <;> cases b1 <;> cases a2 <;> cases b2 <;> cases a5 <;> cases b5 <;> simp <;>
    cases a3 <;> cases a4 <;> cases b3 <;> cases b4 <;> simp

theorem present_iff (reqs : List (Request α β)) (f : Filter)
    (hf : ∀ k, f.has k = true ↔ ∃ q ∈ reqs, AsksKey q k) (t r : Target α)
    (hr : ∀ k, r.has k = true ↔ f.has k = true ∧ t.has k = true) :
    ((f.has "labels" = true → r.has "labels" = true) ∧ (f.has "predictions" = true → r.has "predictions" = true) ∧
       (f.has "features" = true ∨ f.has "transformed_features" = true →
          r.has "features" = true ∨ r.has "transformed_features" = true) ∧
       (f.has "attributions" = true → r.has "attributions" = true)) ↔ Present reqs t := by
  simp only [hr]
  constructor
  · rintro ⟨h1, h2, h3, h4⟩
    refine ⟨?_, ?_⟩
    · intro q hq k hk ha
      have hfk := (hf k).mpr ⟨q, hq, ha⟩
      simp only [List.mem_cons, List.not_mem_nil, or_false] at hk
      rcases hk with rfl | rfl | rfl
      · exact (h1 hfk).2
      · exact (h2 hfk).2
      · exact (h4 hfk).2
    · intro q hq k hk ha
      have hfk := (hf k).mpr ⟨q, hq, ha⟩
      simp only [List.mem_cons, List.not_mem_nil, or_false] at hk
      have h0 : f.has "features" = true ∨ f.has "transformed_features" = true := by
        rcases hk with rfl | rfl
        · exact Or.inl hfk
        · exact Or.inr hfk
      rcases h3 h0 with h | h
      · exact ⟨_, by simp, h.2, (hf _).mp h.1⟩
      · exact ⟨_, by simp, h.2, (hf _).mp h.1⟩
  · rintro ⟨h1, h2⟩
    have key : ∀ k ∈ ["labels", "predictions", "attributions"], f.has k = true → f.has k = true ∧ t.has k = true := by
      intro k hk h
      obtain ⟨q, hq, ha⟩ := (hf k).mp h
      exact ⟨h, h1 q hq k hk ha⟩
    refine ⟨key _ (by simp), key _ (by simp), ?_, key _ (by simp)⟩
    intro h
    obtain ⟨k, hk, hfk⟩ : ∃ k ∈ ["features", "transformed_features"], f.has k = true := by
      rcases h with h | h
      · exact ⟨_, by simp, h⟩
      · exact ⟨_, by simp, h⟩
    obtain ⟨q, hq, ha⟩ := (hf k).mp hfk
    obtain ⟨k', hk', ht, hq'⟩ := h2 q hq k hk ha
    have hfk' := (hf k').mpr hq'
    simp only [List.mem_cons, List.not_mem_nil, or_false] at hk'
    rcases hk' with rfl | rfl
    · exact Or.inl ⟨hfk', ht⟩
    · exact Or.inr ⟨hfk', ht⟩

theorem standards_has (reqs : List (Request α β)) (hv : ∀ q ∈ reqs, Valid q) (hne : standards false reqs ≠ [])
    (k : String) : (listFilter (standards false reqs)).has k = true ↔ ∃ q ∈ reqs, AsksKey q k := by
  have hg : ∀ f ∈ standards false reqs, Good f := by
    intro f hf
    obtain ⟨q, hq, h⟩ := (standards_iff reqs f).mp hf
    exact filterOf_good (hv q hq) h
  rw [(list_good _ hne hg).2.2.1]
  constructor
  · rintro ⟨f, hf, h⟩
    obtain ⟨q, hq, hqf⟩ := (standards_iff reqs f).mp hf
    exact ⟨q, hq, (filterOf_has hqf k).mp h⟩
  · rintro ⟨q, hq, h⟩
    cases hqf : filterOf q with
    | none => cases q <;> simp [filterOf, AsksKey] at hqf h
    | some f => exact ⟨f, (standards_iff reqs f).mpr ⟨q, hq, hqf⟩, (filterOf_has hqf k).mpr h⟩

/-! ### C124 -/

/-- **C124**: the combiner of each computation gets, for an example, the outputs of its own
preprocessors, or exactly one standard input. That input holds what it asks for and what the
other computations ask for, and nothing else. `_partial`: no filter is empty, see
`C124_twice_fails` and `C124_lost_fails`. -/
theorem C124_shared_partial (reqs : List (Request α β)) (hv : ∀ q ∈ reqs, Valid q) (t : Target α)
    (outs : List (List (Input α β))) (h : inputs reqs t = .ok outs) :
    List.Forall₂ (Served reqs t) reqs outs := by
  unfold inputs at h
  split at h
  · cases h
  · rename_i items hitems
    split at h
    · cases h
    · rename_i d hd
      cases h
      have hg : ∀ f ∈ standards false reqs, Good f := by
        intro f hf
        obtain ⟨q, hq, h⟩ := (standards_iff reqs f).mp hf
        exact filterOf_good (hv q hq) h
      -- what the shared inputs are, once one request needs them
      have hshared : ∀ q ∈ reqs, filterOf q ≠ none → ∃ r, d = [r] ∧ ∀ p a,
          (Tree.node r).leafAt p = some a ↔
            (Tree.node t).leafAt p = some a ∧ ∃ q ∈ reqs, Asks q p a.isNone := by
        intro q hq hqn
        obtain ⟨f, hf⟩ := Option.ne_none_iff_exists'.mp hqn
        have hne : standards false reqs ≠ [] :=
          List.ne_nil_of_mem ((standards_iff reqs f).mpr ⟨q, hq, hf⟩)
        rw [shared_good _ hne hg] at hd
        obtain ⟨g1, g2, g3, g4⟩ := list_good _ hne hg
        split at hd
        · cases hd
        · rename_i r hr
          rcases standardInputs_cases (listFilter (standards false reqs)) r with ⟨e, -⟩ | ⟨e, -⟩
          · rw [e] at hd
            cases hd
            refine ⟨r, rfl, ?_⟩
            intro p a
            rw [C08_include_exact _ g1.1 t r hr, g2]
            refine and_congr_right fun hl => ?_
            cases p with
            | nil => simp [leafAt_nil_node] at hl
            | cons k p =>
              constructor
              · rintro ⟨f, hf, hs⟩
                obtain ⟨q, hq, hqf⟩ := (standards_iff reqs f).mp hf
                exact ⟨q, hq, (filterOf_selects hqf k p _).mp hs⟩
              · rintro ⟨q, hq, hs⟩
                cases hqf : filterOf q with
                | none => cases q <;> simp [filterOf, Asks] at hqf hs
                | some f =>
                  exact ⟨f, (standards_iff reqs f).mpr ⟨q, hq, hqf⟩, (filterOf_selects hqf k p _).mpr hs⟩
          · rw [e] at hd
            cases hd
      have hc := combinerInputs_ok t reqs items hitems
      rw [List.forall₂_map_right_iff]
      refine List.forall₂_iff_get.mpr ⟨hc.length_eq, fun i h1 h2 => ?_⟩
      have hi := (List.forall₂_iff_get.mp hc).2 i h1 h2
      have hmem : reqs.get ⟨i, h1⟩ ∈ reqs := List.get_mem _ _
      generalize reqs.get ⟨i, h1⟩ = q at hi hmem
      generalize items.get ⟨i, h2⟩ = it at hi
      cases q with
      | own run =>
        obtain ⟨l, hl, rfl⟩ := hi
        exact ⟨l, hl, rfl⟩
      | default =>
        obtain ⟨r, rfl, hr⟩ := hshared _ hmem (by simp [filterOf])
        simp only at hi
        subst hi
        exact ⟨r, rfl, hr⟩
      | standard g =>
        obtain ⟨r, rfl, hr⟩ := hshared _ hmem (by simp [filterOf])
        simp only at hi
        subst hi
        exact ⟨r, rfl, hr⟩

/-- **C124** (enough): a computation that asked with a filter gets at least what its own
preprocessor would have given. -/
theorem C124_enough (reqs : List (Request α β)) (hv : ∀ q ∈ reqs, Valid q) (t : Target α)
    (outs : List (List (Input α β))) (h : inputs reqs t = .ok outs) (i : ℕ) (f : Filter)
    (hi : reqs[i]? = some (.standard f)) (own : Target α) (ho : process f t = .ok [own]) :
    ∃ r, outs[i]? = some [.standard r] ∧
      ∀ p a, (Tree.node own).leafAt p = some a → (Tree.node r).leafAt p = some a := by
  have hs := C124_shared_partial reqs hv t outs h
  have hlen := hs.length_eq
  obtain ⟨h1, hget⟩ := List.getElem?_eq_some_iff.mp hi
  have h2 : i < outs.length := hlen ▸ h1
  have := (List.forall₂_iff_get.mp hs).2 i h1 h2
  simp only [List.get_eq_getElem, hget] at this
  obtain ⟨r, hr, hall⟩ := this
  refine ⟨r, by rw [List.getElem?_eq_getElem h2, hr], ?_⟩
  intro p a hp
  have hmem : Request.standard f ∈ reqs := hget ▸ List.getElem_mem h1
  have hvf := hv _ hmem
  have hinc : includeFilter f t = .ok own := by
    unfold process at ho
    cases hx : includeFilter f t with
    | error e => rw [hx] at ho; cases ho
    | ok x =>
      rw [hx] at ho
      have : f.isEmpty = false := (filterOf_good hvf (by rfl)).2
      simp only [this, Bool.false_eq_true, if_false, Except.ok.injEq, List.cons.injEq, and_true] at ho
      rw [ho]
  have h3 := (C08_include_exact f hvf.1 t own hinc p a).mp hp
  exact (hall p a).mpr ⟨h3.1, _, hmem, h3.2⟩

/-- **C124** (when examples are refused): if the preprocessors and the filters can be applied,
then an example is refused exactly when labels, predictions, attributions or features are asked
for and missing. -/
theorem C124_refused (reqs : List (Request α β)) (hv : ∀ q ∈ reqs, Valid q) (t : Target α) (ht : t.WF)
    (ha : ∀ q ∈ reqs, Applies t q) :
    (Present reqs t → ∃ outs, inputs reqs t = .ok outs) ∧
    (¬ Present reqs t → inputs reqs t = .error .valueError) := by
  obtain ⟨items, hitems⟩ := combinerInputs_succeeds t reqs ha
  simp only [inputs, hitems]
  have hg : ∀ f ∈ standards false reqs, Good f := by
    intro f hf
    obtain ⟨q, hq, h⟩ := (standards_iff reqs f).mp hf
    exact filterOf_good (hv q hq) h
  by_cases hne : standards false reqs = []
  · simp only [hne, shared, List.isEmpty_nil, if_true]
    have hno : ∀ q ∈ reqs, ∀ k, ¬ AsksKey q k := by
      intro q hq k hk
      cases hqf : filterOf q with
      | none => cases q <;> simp [filterOf, AsksKey] at hqf hk
      | some f =>
        have := (standards_iff reqs f).mpr ⟨q, hq, hqf⟩
        rw [hne] at this
        cases this
    have hp : Present reqs t :=
      ⟨fun q hq k _ h => absurd h (hno q hq k), fun q hq k _ h => absurd h (hno q hq k)⟩
    exact ⟨fun _ => ⟨_, rfl⟩, fun h => absurd hp h⟩
  · obtain ⟨g1, g2, g3, g4⟩ := list_good _ hne hg
    have hinc : ∃ r, includeFilter (listFilter (standards false reqs)) t = .ok r := by
      rw [C08_include_succeeds_iff _ g1.1 t ht]
      intro p a hp hc
      obtain ⟨f, hf, hcf⟩ := g4 p hc
      obtain ⟨q, hq, hqf⟩ := (standards_iff reqs f).mp hf
      have hap := ha q hq
      cases q with
      | own run => simp [filterOf] at hqf
      | standard g =>
        simp only [filterOf, Option.some.injEq] at hqf
        subst hqf
        exact hap p a hp hcf
      | default =>
        simp only [filterOf, Option.some.injEq] at hqf
        subst hqf
        exfalso
        cases p with
        | nil => simp [leafAt_nil_node] at hp
        | cons k p =>
          simp only [continuesBelow, std_default_find?, Bool.and_eq_true] at hcf
          by_cases hk : k ∈ defaultKeys
          · cases p <;> simp [hk, continuesBelow, Forest.isEmpty] at hcf
          · simp [hk] at hcf
    obtain ⟨r, hr⟩ := hinc
    rw [shared_good _ hne hg]
    simp only [hr]
    have hp := present_iff reqs _ (standards_has reqs hv hne) t r (includeFilter_has _ g1.2 t r hr)
    rcases standardInputs_cases (listFilter (standards false reqs)) r with ⟨e, hc⟩ | ⟨e, hc⟩
    · rw [e]
      exact ⟨fun _ => ⟨_, rfl⟩, fun h => absurd (hp.mp hc) h⟩
    · rw [e]
      exact ⟨fun h => absurd (hp.mpr h) hc, fun _ => rfl⟩

/-- **C124** (the preprocessors for features and attributions): they select exactly the features
asked for (all if none are named), of the models and outputs asked for, and the default inputs
if wanted. -/
theorem C124_preprocessors (keys : List String) (d : Bool) (models outputs : List String) (k : String) (p : Path)
    (n : Bool) :
    (selects (.node (inputFilter d)) (k :: p) n = true ↔
      k = "input" ∨ (d = true ∧ k ∈ defaultKeys)) ∧
    (selects (.node (featureFilter keys d models outputs)) (k :: p) n = true ↔
      (k = "features" ∧ Within (given [keys]) p n) ∨
        (d = true ∧ k ∈ defaultKeys ∧ Within (given [models, outputs]) p n)) ∧
    (selects (.node (transformedFilter keys d models outputs)) (k :: p) n = true ↔
      (k = "transformed_features" ∧ Within (given [models, keys]) p n) ∨
        (d = true ∧ k ∈ defaultKeys ∧ Within (given [models, outputs]) p n)) ∧
    (selects (.node (attributionFilter keys d models outputs)) (k :: p) n = true ↔
      (k = "attributions" ∧ Within (given [models, outputs, keys]) p n) ∨
        (d = true ∧ k ∈ defaultKeys ∧ Within (given [models, outputs]) p n)) := by
  have one : ∀ (key : String) (f : Filter), selects (.node (.cons key (.node f) .nil)) (k :: p) n = true ↔
      k = key ∧ selects (.node f) p n = true := by
    intro key f
    simp only [selects, Forest.isEmpty, Bool.false_or, Forest.find?]
    by_cases h : key = k
    · simp [h]
    · simp [h, Ne.symm h]
  have hk := selects_under_within keys .nil [] within_nil
  refine ⟨?_, ?_, ?_, ?_⟩
  · rw [inputFilter, selects_std _ _ _ _ _ _ _ rfl (by simp [defaultKeys, Forest.find?]), one, selects_nil]
    simp [given, Within]
  · rw [featureFilter, selects_std _ _ _ _ _ _ _ rfl (by simp [defaultKeys, Forest.find?]), one, hk]
  · rw [transformedFilter, selects_std _ _ _ _ _ _ _ rfl (by simp [defaultKeys, Forest.find?]), one,
      selects_under_within models _ [keys] hk]
  · rw [attributionFilter, selects_std _ _ _ _ _ _ _ rfl (by simp [defaultKeys, Forest.find?]), one,
      selects_under_within models _ [outputs, keys] (selects_under_within outputs _ [keys] hk)]

/-- **C124** (combined features): without names of models the preprocessor selects exactly the raw
and the transformed features asked for. `_partial`: with names of models raw features are lost, see
`C124_combined_fails`. -/
theorem C124_combined_partial (keys : List String) (d : Bool) (outputs : List String) (k : String) (p : Path)
    (n : Bool) :
    selects (.node (combinedFilter keys d [] outputs)) (k :: p) n = true ↔
      ((k = "features" ∨ k = "transformed_features") ∧ Within (given [keys]) p n) ∨
        (d = true ∧ k ∈ defaultKeys ∧ Within (given [outputs]) p n) := by
  have hk := selects_under_within keys .nil [] within_nil
  have hg : given [[], outputs] = given [outputs] := by simp [given]
  rw [combinedFilter, selects_std _ _ _ _ _ _ _ rfl (by simp [defaultKeys, Forest.find?]), hg]
  refine or_congr ?_ Iff.rfl
  simp only [selects, Forest.isEmpty, Bool.false_or, Forest.find?]
  have hu : under [] (under keys .nil) = under keys .nil := rfl
  rw [hu]
  by_cases h1 : "transformed_features" = k
  · simp [h1, hk]
  · by_cases h2 : "features" = k
    · simp [h1, h2, hk]
    · simp [h1, h2, Ne.symm h1, Ne.symm h2]

/-- **C124 fails for combined features of named models**: whatever the names of the models, a raw
feature is only kept if one of the models has its name; so raw features asked for are lost,
although the name of a model has no meaning for them. -/
theorem C124_combined_fails (keys : List String) (d : Bool) (models outputs : List String) (hm : models ≠ [])
    (feature : String) (hf : feature ∉ models) :
    selects (.node (combinedFilter keys d models outputs)) ["features", feature] false = false := by
  have h := selects_std (.cons "transformed_features" (.node (under models (under keys .nil)))
    (.cons "features" (.node (under models (under keys .nil))) .nil)) d models outputs "features" [feature] false
    rfl (by simp [defaultKeys, Forest.find?])
  rw [← Bool.not_eq_true, combinedFilter, h]
  simp only [selects, Forest.isEmpty, Bool.false_or, Forest.find?]
  have := selects_under models (under keys .nil) [feature] false
  rw [if_neg hm] at this
  simp [this, hf, defaultKeys]

/-- **C124 fails for empty filters** (twice): if a computation asks with an empty filter, alone or
after others, then each example is handed over twice: once empty and once with all its extracts. -/
theorem C124_twice_fails (f : Filter) (t : Target α) :
    inputs ([.standard .nil] : List (Request α β)) t = .ok [[.standard .nil, .standard t]] ∧
    inputs ([.standard f, .standard .nil] : List (Request α β)) t =
      .ok [[.standard .nil, .standard t], [.standard .nil, .standard t]] := by
  have hl : listFilter [f, .nil] = .nil := by
    simp only [listFilter, List.foldl_cons, List.foldl_nil, Forest.isEmpty, if_true]
    cases f with
    | nil => rfl
    | cons k v r => simp [Forest.isEmpty, mergeFilters, mergeTree]
  have hs : ∀ fs : List Filter, fs ≠ [] → listFilter fs = .nil → shared fs t = .ok [.nil, t] := by
    intro fs hne h
    have he : fs.isEmpty = false := by simpa using hne
    simp [shared, he, h, process, (C08_empty_filter_not_complementary t).1, Forest.isEmpty, allStandard,
      standardInputs, Forest.has, Forest.find?]
  constructor
  · simp [inputs, combinerInputs, standards, hs [.nil] (by simp) rfl]
  · simp [inputs, combinerInputs, standards, hs [f, .nil] (by simp) hl]

/-- **C124 fails for empty filters** (lost): what was asked for before an empty filter is forgotten
when another filter follows. -/
theorem C124_lost_fails (before after : Filter) : listFilter [before, .nil, after] = after := by
  simp only [listFilter, List.foldl_cons, List.foldl_nil, Forest.isEmpty, if_true]
  cases before with
  | nil => simp
  | cons k v r => simp [Forest.isEmpty, mergeFilters, mergeTree]

/-! ### Examples -/

private def age : Target ℕ :=
  .cons "labels" (.leaf (some 1)) (.cons "predictions" (.leaf (some 0)) (.cons "example_weights" (.leaf none)
    (.cons "features" (.node (.cons "age" (.leaf (some 30)) (.cons "name" (.leaf (some 7)) .nil)))
      (.cons "input" (.leaf (some 99)) .nil))))

private def reqs : List (Request ℕ ℕ) :=
  [.default, .standard (featureFilter ["age"] false [] []), .own fun t => .ok [t.keys.length], .default]

/-- two computations without preprocessors, one that asks for a feature and one with preprocessors of
its own: one shared input with the feature, without the raw input. -/
example : inputs reqs age =
    let shared : List (Input ℕ ℕ) := [.standard
      (.cons "labels" (.leaf (some 1)) (.cons "predictions" (.leaf (some 0)) (.cons "example_weights" (.leaf none)
        (.cons "features" (.node (.cons "age" (.leaf (some 30)) .nil)) .nil))))]
    .ok [shared, shared, [.own 5], shared] := by
  rfl

example : ∀ q ∈ reqs, Valid q := by
  simp [reqs, Valid, featureFilter, std, under, byName, Forest.set, Forest.WF, Tree.WF, Forest.keys]

/-- no labels. -/
example : inputs reqs (.cons "predictions" (.leaf (some 0)) .nil) = .error .valueError := rfl

/-- `CombinedFeaturePreprocessor(["age"], model_names=["m"])`: no features. -/
example : inputs ([.standard (combinedFilter ["age"] false ["m"] [])] : List (Request ℕ ℕ)) age =
    .ok [[.standard (.cons "features" (.node .nil) .nil)]] := rfl

/-- a computation that asks for a feature, one for everything and one for the input: the feature is
missing. -/
example : inputs ([.standard (featureFilter ["age"] false [] []), .standard .nil,
    .standard (inputFilter false)] : List (Request ℕ ℕ)) age =
    let shared : List (Input ℕ ℕ) := [.standard (.cons "input" (.leaf (some 99)) .nil)]
    .ok [shared, shared, shared] := rfl

end TFMA.SharedInputs
