import Verif.Model.Filters
import Mathlib.Tactic.Common
import Mathlib.Tactic.ByCases

/-!
# C08 include/exclude filters, C09 merging filters
-/

namespace TFMA
namespace Filters

variable {α : Type}

/-- Specification of a filter: it selects the leaf at path `p` if following `p` through the filter reaches
an empty (match all) filter at some prefix of `p`.  A None leaf is also selected when the filter continues
below it. -/
def selects : Tree Empty → Path → Bool → Bool
  | .node f, [], isNone => f.isEmpty || isNone
  | .node f, k :: p, isNone => f.isEmpty || (match f.find? k with
    | none => false
    | some sub => selects sub p isNone)

/-- The filter continues below the end of the path. -/
def continuesBelow : Tree Empty → Path → Bool
  | .node f, [] => !f.isEmpty
  | .node f, k :: p => !f.isEmpty && (match f.find? k with
    | none => false
    | some sub => continuesBelow sub p)

/-! ### include -/

theorem leafAt_nil_leaf (a : α) : (Tree.leaf a).leafAt [] = some a := rfl
theorem leafAt_nil_node (f : Forest α) : (Tree.node f).leafAt [] = none := rfl
theorem leafAt_cons_leaf (a : α) (k p) : (Tree.leaf a).leafAt (k :: p) = none := rfl
theorem leafAt_cons_node (f : Forest α) (k p) :
    (Tree.node f).leafAt (k :: p) = (f.find? k).bind (fun t => t.leafAt p) := by
  unfold Tree.leafAt
  simp only [Tree.at?]
  cases h : f.find? k <;> simp

mutual
theorem includeTree_leaf (flt : Tree Empty) (t r : Tree (Option α)) (h : includeTree flt t = .ok r)
    (ht : flt.WF) (p : Path) (a : Option α) :
    r.leafAt p = some a ↔ t.leafAt p = some a ∧ selects flt p a.isNone = true := by
  match flt with
  | .leaf e => exact e.elim
  | .node inc =>
    unfold includeTree at h
    by_cases he : inc.isEmpty = true
    · rw [if_pos he] at h; cases h
      cases p <;> simp [selects, he]
    · rw [if_neg he] at h
      match t with
      | .leaf x => cases h
      | .node tf =>
        simp only at h
        split at h
        · cases h
        · rename_i rf hrf
          cases h
          have hE : inc.isEmpty = false := by simpa using he
          cases p with
          | nil => simp [leafAt_nil_node]
          | cons k p =>
            have := includeItems_leaf inc tf rf hrf (by unfold Tree.WF at ht; exact ht) k p a
            rw [leafAt_cons_node, leafAt_cons_node, this]
            simp [selects, hE]
theorem includeItems_leaf (inc : Filter) (tf rf : Target α) (h : includeItems inc tf = .ok rf)
    (hw : inc.WF) (k : String) (p : Path) (a : Option α) :
    (rf.find? k).bind (fun t => t.leafAt p) = some a ↔
      (tf.find? k).bind (fun t => t.leafAt p) = some a ∧
        (match inc.find? k with | none => false | some sub => selects sub p a.isNone) = true := by
  match inc with
  | .nil => simp [includeItems] at h; subst h; simp [Forest.find?]
  | .cons k' sub rest =>
    unfold Forest.WF at hw
    unfold includeItems at h
    split at h
    · rename_i hnone
      have ih := includeItems_leaf rest tf rf h hw.2.2 k p a
      by_cases hk : k' = k
      · subst hk
        rw [ih]; simp [hnone]
      · rw [ih]; simp [Forest.find?, hk]
    · rename_i hsome
      split at h
      · cases h
      · rename_i r hr
        cases h
        by_cases hk : k' = k
        · subst hk
          simp only [Forest.find?, if_true, hsome, Option.bind_some]
          cases p with
          | nil =>
            simp only [leafAt_nil_leaf, Option.some.injEq]
            constructor
            · rintro rfl
              refine ⟨rfl, ?_⟩
              cases sub with
              | leaf e => exact e.elim
              | node f => simp [selects]
            · exact fun h => h.1
          | cons k2 p => simp [leafAt_cons_leaf]
        · have ih := includeItems_leaf rest tf r hr hw.2.2 k p a
          simp only [Forest.find?, hk, if_false]
          exact ih
    · rename_i v hnn hsome
      split at h
      · cases h
      · rename_i v' hv'
        split at h
        · cases h
        · rename_i r hr
          cases h
          by_cases hk : k' = k
          · subst hk
            simp only [Forest.find?, if_true, hsome, Option.bind_some]
            by_cases hs : subEmpty sub = true
            · rw [if_pos hs] at hv'
              cases hv'
              cases sub with
              | leaf e => exact e.elim
              | node f =>
                have hs' : f.isEmpty = true := hs
                cases p <;> simp [selects, hs']
            · rw [if_neg hs] at hv'
              exact includeTree_leaf sub v v' hv' hw.2.1 p a
          · have ih := includeItems_leaf rest tf r hr hw.2.2 k p a
            simp only [Forest.find?, hk, if_false]
            exact ih
end

mutual
theorem includeTree_ok (flt : Tree Empty) (hw : flt.WF) (t : Tree (Option α)) (ht : t.WF) :
    (∃ r, includeTree flt t = .ok r) ↔
      ∀ p a, t.leafAt p = some a → continuesBelow flt p = true → a = none ∧ p ≠ [] := by
  match flt with
  | .leaf e => exact e.elim
  | .node inc =>
    unfold includeTree
    by_cases he : inc.isEmpty = true
    · rw [if_pos he]
      refine ⟨fun _ p a _ hc => ?_, fun _ => ⟨_, rfl⟩⟩
      cases p <;> simp [continuesBelow, he] at hc
    · rw [if_neg he]
      have hE : inc.isEmpty = false := by simpa using he
      match t with
      | .leaf x =>
        constructor
        · rintro ⟨r, h⟩; cases h
        · intro h
          have := h [] x rfl (by simp [continuesBelow, hE])
          exact absurd rfl this.2
      | .node tf =>
        have ih := includeItems_ok inc (by unfold Tree.WF at hw; exact hw) tf
          (by unfold Tree.WF at ht; exact ht)
        have e1 : (∃ r, (match includeItems inc tf with
            | .error e => Except.error e
            | .ok r => Except.ok (Tree.node r)) = Except.ok r) ↔ ∃ r, includeItems inc tf = .ok r := by
          cases h : includeItems inc tf <;> simp
        refine Iff.trans e1 ?_
        rw [ih]
        constructor
        · intro h p a hp hc
          cases p with
          | nil => simp [leafAt_nil_node] at hp
          | cons k p =>
            rw [leafAt_cons_node] at hp
            simp only [continuesBelow, hE, Bool.not_false, Bool.true_and] at hc
            exact ⟨h k p a hp hc, by simp⟩
        · intro h k p a hp hc
          refine (h (k :: p) a (by rw [leafAt_cons_node]; exact hp) ?_).1
          simpa [continuesBelow, hE] using hc
theorem includeItems_ok (inc : Filter) (hw : inc.WF) (tf : Target α) (ht : tf.WF) :
    (∃ r, includeItems inc tf = .ok r) ↔
      ∀ k p a, (tf.find? k).bind (fun t => t.leafAt p) = some a →
        (match inc.find? k with | none => false | some sub => continuesBelow sub p) = true → a = none := by
  match inc with
  | .nil => simp [includeItems, Forest.find?]
  | .cons k' sub rest =>
    unfold Forest.WF at hw
    unfold includeItems
    have ih := includeItems_ok rest hw.2.2 tf ht
    -- split the universally quantified key into the head key and the others
    have hsplit : (∀ k p a, (tf.find? k).bind (fun t => t.leafAt p) = some a →
        (match (Forest.cons k' sub rest).find? k with
          | none => false | some sub => continuesBelow sub p) = true → a = none) ↔
        (∀ p a, (tf.find? k').bind (fun t => t.leafAt p) = some a →
          continuesBelow sub p = true → a = none) ∧ ∃ r, includeItems rest tf = .ok r := by
      rw [ih]
      constructor
      · intro h
        refine ⟨fun p a hp hc => h k' p a hp (by simp [Forest.find?, hc]), ?_⟩
        intro k p a hp hc
        by_cases hk : k' = k
        · subst hk
          have : rest.find? k' = none := (Forest.find?_eq_none_iff rest k').mpr hw.1
          rw [this] at hc; cases hc
        · exact h k p a hp (by simpa [Forest.find?, hk] using hc)
      · rintro ⟨h1, h2⟩ k p a hp hc
        by_cases hk : k' = k
        · subst hk
          exact h1 p a hp (by simpa [Forest.find?] using hc)
        · exact h2 k p a hp (by simpa [Forest.find?, hk] using hc)
    rw [hsplit]
    split
    · rename_i hnone
      simp [hnone]
    · rename_i hsome
      have e1 : (∃ r, (match includeItems rest tf with
          | .error e => Except.error e
          | .ok r => Except.ok (Forest.cons k' (Tree.leaf none) r)) = Except.ok r) ↔
          ∃ r, includeItems rest tf = .ok r := by
        cases h : includeItems rest tf <;> simp
      refine Iff.trans e1 ?_
      constructor
      · intro h
        refine ⟨?_, h⟩
        intro p a hp _
        rw [hsome] at hp
        cases p with
        | nil => simp only [Option.bind_some, leafAt_nil_leaf, Option.some.injEq] at hp; exact hp.symm
        | cons k p => simp [leafAt_cons_leaf] at hp
      · exact fun h => h.2
    · rename_i v hnn hsome
      have hvw : v.WF := Forest.WF_find? ht hsome
      have e2 : (∃ v', (if subEmpty sub = true then Except.ok v else includeTree sub v) = Except.ok v') ↔
          ∀ p a, v.leafAt p = some a → continuesBelow sub p = true → a = none := by
        by_cases hs : subEmpty sub = true
        · rw [if_pos hs]
          refine ⟨fun _ p a _ hc => ?_, fun _ => ⟨v, rfl⟩⟩
          cases sub with
          | leaf e => exact e.elim
          | node f =>
            have hs' : f.isEmpty = true := hs
            cases p <;> simp [continuesBelow, hs'] at hc
        · rw [if_neg hs, includeTree_ok sub hw.2.1 v hvw]
          constructor
          · exact fun h p a hp hc => (h p a hp hc).1
          · intro h p a hp hc
            refine ⟨h p a hp hc, ?_⟩
            rintro rfl
            have ha := h [] a hp hc
            subst ha
            cases v with
            | leaf x =>
              simp only [leafAt_nil_leaf, Option.some.injEq] at hp
              subst hp
              exact hnn rfl
            | node f => simp [leafAt_nil_node] at hp
      have e1 : (∃ r, (match (if subEmpty sub = true then Except.ok v else includeTree sub v) with
          | .error e => Except.error e
          | .ok v' => match includeItems rest tf with
            | .error e => Except.error e
            | .ok r => Except.ok (Forest.cons k' v' r)) = Except.ok r) ↔
          (∃ v', (if subEmpty sub = true then Except.ok v else includeTree sub v) = Except.ok v') ∧
            ∃ r, includeItems rest tf = .ok r := by
        cases h : (if subEmpty sub = true then Except.ok v else includeTree sub v) with
        | error e => simp
        | ok v' => cases h' : includeItems rest tf <;> simp
      refine Iff.trans e1 ?_
      rw [e2]
      simp [hsome]
end

theorem includeFilter_eq (inc : Filter) (t r : Target α) :
    includeFilter inc t = .ok r ↔ includeTree (.node inc) (.node t) = .ok (.node r) := by
  unfold includeFilter
  cases h : includeTree (.node inc) (.node t) with
  | error e => simp
  | ok v =>
    cases v with
    | node f => simp
    | leaf a =>
      exfalso
      unfold includeTree at h
      split at h
      · cases h
      · simp only at h
        split at h <;> cases h

/-! ### exclude -/

mutual
theorem excludeTree_leaf (exc : Filter) (t : Tree (Option α)) (r : Target α)
    (h : excludeTree exc t = .ok r) (hne : exc.isEmpty = false) (ht : t.WF) (p : Path) (a : Option α) :
    (Tree.node r).leafAt p = some a ↔ t.leafAt p = some a ∧ selects (.node exc) p a.isNone = false := by
  match t with
  | .leaf x => unfold excludeTree at h; cases h
  | .node tf =>
    unfold excludeTree at h
    cases p with
    | nil => simp [leafAt_nil_node]
    | cons k p =>
      have := excludeItems_leaf exc tf r h (by unfold Tree.WF at ht; exact ht) k p a
      rw [leafAt_cons_node, leafAt_cons_node, this]
      simp [selects, hne]
theorem excludeItems_leaf (exc : Filter) (tf rf : Target α) (h : excludeItems exc tf = .ok rf)
    (ht : tf.WF) (k : String) (p : Path) (a : Option α) :
    (rf.find? k).bind (fun t => t.leafAt p) = some a ↔
      (tf.find? k).bind (fun t => t.leafAt p) = some a ∧
        (match exc.find? k with | none => false | some sub => selects sub p a.isNone) = false := by
  match tf with
  | .nil => simp [excludeItems] at h; subst h; simp [Forest.find?]
  | .cons k' v rest =>
    unfold Forest.WF at ht
    have hno : ∀ {r}, excludeItems exc rest = .ok r →
        ((r.find? k').bind (fun t => t.leafAt p) = some a ↔ False) := by
      intro r hr
      have ih := excludeItems_leaf exc rest r hr ht.2.2 k' p a
      rw [ih]
      have : rest.find? k' = none := (Forest.find?_eq_none_iff rest k').mpr ht.1
      simp [this]
    unfold excludeItems at h
    split at h
    · rename_i sub hsub
      by_cases hs : sub.isEmpty = true
      · rw [if_pos hs] at h
        by_cases hk : k' = k
        · subst hk
          rw [hno h]
          simp only [Forest.find?, if_true, Option.bind_some, false_iff, not_and, hsub]
          intro _
          cases p <;> simp [selects, hs]
        · rw [excludeItems_leaf exc rest rf h ht.2.2 k p a]
          simp [Forest.find?, hk]
      · rw [if_neg hs] at h
        have hs' : sub.isEmpty = false := by simpa using hs
        split at h
        · cases h
        · rename_i v' hv'
          split at h
          · cases h
          · rename_i r hr
            have key := excludeTree_leaf sub v v' hv' hs' ht.2.1 p a
            split at h
            · rename_i hve
              cases h
              rw [Forest.isEmpty_iff] at hve
              subst hve
              by_cases hk : k' = k
              · subst hk
                rw [hno hr]
                simp only [Forest.find?, if_true, Option.bind_some, false_iff, hsub]
                rw [← key]
                cases p <;> simp [leafAt_nil_node, leafAt_cons_node, Forest.find?]
              · rw [excludeItems_leaf exc rest rf hr ht.2.2 k p a]
                simp [Forest.find?, hk]
            · cases h
              by_cases hk : k' = k
              · subst hk
                simp only [Forest.find?, if_true, Option.bind_some, hsub]
                exact key
              · simp only [Forest.find?, hk, if_false]
                exact excludeItems_leaf exc rest r hr ht.2.2 k p a
    · rename_i hnone
      split at h
      · cases h
      · rename_i r hr
        cases h
        by_cases hk : k' = k
        · subst hk
          simp [Forest.find?, hnone]
        · simp only [Forest.find?, hk, if_false]
          exact excludeItems_leaf exc rest r hr ht.2.2 k p a
end

/-! ### C08 -/

/-- **C08** (include): include_filter keeps exactly the leaves selected by the filter. -/
theorem C08_include_exact (inc : Filter) (hw : inc.WF) (t r : Target α)
    (h : includeFilter inc t = .ok r) (p : Path) (a : Option α) :
    (Tree.node r).leafAt p = some a ↔
      (Tree.node t).leafAt p = some a ∧ selects (.node inc) p a.isNone = true :=
  includeTree_leaf (.node inc) (.node t) (.node r) ((includeFilter_eq inc t r).mp h)
    (by unfold Tree.WF; exact hw) p a

/-- **C08** (exclude): with a non-empty filter exclude_filter keeps exactly the leaves that are not selected
by the filter. -/
theorem C08_exclude_exact (exc : Filter) (hne : exc.isEmpty = false) (t r : Target α) (ht : t.WF)
    (h : excludeFilter exc t = .ok r) (p : Path) (a : Option α) :
    (Tree.node r).leafAt p = some a ↔
      (Tree.node t).leafAt p = some a ∧ selects (.node exc) p a.isNone = false := by
  refine excludeTree_leaf exc (.node t) r ?_ hne (by unfold Tree.WF; exact ht) p a
  unfold excludeTree; exact h

/-- **C08** (partition).  For a non-empty filter every leaf of the target is in exactly one of the two
results, and both hold only leaves of the target.  `_partial`: false for the empty filter, see
`C08_empty_filter_not_complementary`. -/
theorem C08_partition_partial (f : Filter) (hw : f.WF) (hne : f.isEmpty = false) (t ri re : Target α)
    (ht : t.WF) (hi : includeFilter f t = .ok ri) (he : excludeFilter f t = .ok re) (p : Path)
    (a : Option α) :
    ((Tree.node t).leafAt p = some a ↔
      (Tree.node ri).leafAt p = some a ∨ (Tree.node re).leafAt p = some a) ∧
    ¬ ((Tree.node ri).leafAt p = some a ∧ (Tree.node re).leafAt p = some a) := by
  rw [C08_include_exact f hw t ri hi p a, C08_exclude_exact f hne t re ht he p a]
  cases selects (.node f) p a.isNone <;> simp

/-- **C08** (when include_filter fails): exactly when the filter continues below a leaf that is not None. -/
theorem C08_include_succeeds_iff (inc : Filter) (hw : inc.WF) (t : Target α) (ht : t.WF) :
    (∃ r, includeFilter inc t = .ok r) ↔
      ∀ p a, (Tree.node t).leafAt p = some a → continuesBelow (.node inc) p = true → a = none := by
  have h1 : (∃ r, includeFilter inc t = .ok r) ↔ ∃ r, includeTree (.node inc) (.node t) = .ok r := by
    constructor
    · rintro ⟨r, h⟩; exact ⟨_, (includeFilter_eq inc t r).mp h⟩
    · rintro ⟨r, h⟩
      cases r with
      | node f => exact ⟨f, (includeFilter_eq inc t f).mpr h⟩
      | leaf a =>
        exfalso
        unfold includeTree at h
        split at h
        · cases h
        · simp only at h
          split at h <;> cases h
  rw [h1, includeTree_ok (.node inc) (by unfold Tree.WF; exact hw) (.node t) (by unfold Tree.WF; exact ht)]
  constructor
  · exact fun h p a hp hc => (h p a hp hc).1
  · intro h p a hp hc
    refine ⟨h p a hp hc, ?_⟩
    rintro rfl
    simp [leafAt_nil_node] at hp

/-- **C08 fails for the empty filter**: both functions return the whole target, although the documentation of
exclude_filter says an empty dict matches (hence excludes) all values. -/
theorem C08_empty_filter_not_complementary (t : Target α) :
    includeFilter .nil t = .ok t ∧ excludeFilter .nil t = .ok t := by
  constructor
  · unfold includeFilter includeTree; rfl
  · unfold excludeFilter
    induction t using Forest.rec (motive_1 := fun _ => True) with
    | leaf => trivial
    | node => trivial
    | nil => rfl
    | cons k v rest _ ih => unfold excludeItems; simp [Forest.find?, ih]

mutual
theorem includeTree_idem (flt : Tree Empty) (hw : flt.WF) (t r : Tree (Option α))
    (h : includeTree flt t = .ok r) : includeTree flt r = .ok r := by
  match flt with
  | .leaf e => exact e.elim
  | .node inc =>
    unfold includeTree at h ⊢
    by_cases he : inc.isEmpty = true
    · rw [if_pos he]
    · rw [if_neg he] at h ⊢
      match t with
      | .leaf x => cases h
      | .node tf =>
        simp only at h
        split at h
        · cases h
        · rename_i rf hrf
          cases h
          simp only
          rw [includeItems_idem inc (by unfold Tree.WF at hw; exact hw) tf rf hrf rf (fun _ _ => rfl)]
theorem includeItems_idem (inc : Filter) (hw : inc.WF) (tf rf : Target α)
    (h : includeItems inc tf = .ok rf) (big : Target α)
    (hbig : ∀ k ∈ inc.keys, big.find? k = rf.find? k) : includeItems inc big = .ok rf := by
  match inc with
  | .nil => simpa [includeItems] using h
  | .cons k' sub rest =>
    unfold Forest.WF at hw
    have hkeys : ∀ r, includeItems rest tf = .ok r → r.find? k' = none := by
      intro r hr
      have hsub : ∀ (inc : Filter) (r : Target α), includeItems inc tf = .ok r →
          ∀ k ∈ r.keys, k ∈ inc.keys := by
        intro inc
        induction inc using Forest.rec (motive_1 := fun _ => True) with
        | leaf => trivial
        | node => trivial
        | nil => intro r hr k hk; simp [includeItems] at hr; subst hr; exact hk
        | cons k1 s1 rest1 _ ih =>
          intro r hr k hk
          unfold includeItems at hr
          split at hr
          · exact List.mem_cons_of_mem _ (ih r hr k hk)
          · split at hr
            · cases hr
            · rename_i r1 hr1
              cases hr
              simp only [Forest.keys, List.mem_cons] at hk ⊢
              exact hk.imp id (ih r1 hr1 k)
          · split at hr
            · cases hr
            · split at hr
              · cases hr
              · rename_i r1 hr1
                cases hr
                simp only [Forest.keys, List.mem_cons] at hk ⊢
                exact hk.imp id (ih r1 hr1 k)
      rw [Forest.find?_eq_none_iff]
      exact fun hm => hw.1 (hsub rest r hr k' hm)
    have hne : ∀ k ∈ rest.keys, k' ≠ k := fun k hk e => hw.1 (e ▸ hk)
    unfold includeItems at h
    split at h
    · rename_i hnone
      have h0 : big.find? k' = none := by
        rw [hbig k' (by simp [Forest.keys]), hkeys rf h]
      unfold includeItems
      rw [h0]
      exact includeItems_idem rest hw.2.2 tf rf h big fun k hk => hbig k (by simp [Forest.keys, hk])
    · rename_i hsome
      split at h
      · cases h
      · rename_i r hr
        cases h
        have h0 : big.find? k' = some (.leaf none) := by
          rw [hbig k' (by simp [Forest.keys])]; simp [Forest.find?]
        unfold includeItems
        rw [h0]
        simp only
        rw [includeItems_idem rest hw.2.2 tf r hr big]
        intro k hk
        rw [hbig k (by simp [Forest.keys, hk])]; simp [Forest.find?, hne k hk]
    · rename_i v hnn hsome
      split at h
      · cases h
      · rename_i v' hv'
        split at h
        · cases h
        · rename_i r hr
          cases h
          have h0 : big.find? k' = some v' := by
            rw [hbig k' (by simp [Forest.keys])]; simp [Forest.find?]
          have hrest : includeItems rest big = .ok r := by
            apply includeItems_idem rest hw.2.2 tf r hr big
            intro k hk
            rw [hbig k (by simp [Forest.keys, hk])]; simp [Forest.find?, hne k hk]
          unfold includeItems
          by_cases hs : subEmpty sub = true
          · rw [if_pos hs] at hv'
            cases hv'
            rw [h0]
            match v with
            | .leaf none => exact absurd rfl hnn
            | .leaf (some x) => simp [hs, hrest]
            | .node f => simp [hs, hrest]
          · rw [if_neg hs] at hv'
            have hi := includeTree_idem sub hw.2.1 v v' hv'
            have : ∃ f, v' = .node f := by
              cases sub with
              | leaf e => exact e.elim
              | node s =>
                unfold includeTree at hv'
                rw [if_neg (by simpa [subEmpty] using hs)] at hv'
                split at hv'
                · cases hv'
                · split at hv'
                  · cases hv'
                  · cases hv'; exact ⟨_, rfl⟩
            obtain ⟨f, rfl⟩ := this
            rw [h0]
            simp only
            rw [if_neg hs, hi]
            simp [hrest]
end

mutual
theorem excludeTree_idem (exc : Filter) (t : Tree (Option α)) (r : Target α)
    (h : excludeTree exc t = .ok r) : excludeItems exc r = .ok r := by
  match t with
  | .leaf x => unfold excludeTree at h; cases h
  | .node tf => unfold excludeTree at h; exact excludeItems_idem exc tf r h
theorem excludeItems_idem (exc : Filter) (tf rf : Target α) (h : excludeItems exc tf = .ok rf) :
    excludeItems exc rf = .ok rf := by
  match tf with
  | .nil => simp [excludeItems] at h; subst h; rfl
  | .cons k' v rest =>
    unfold excludeItems at h
    split at h
    · rename_i sub hsub
      split at h
      · exact excludeItems_idem exc rest rf h
      · rename_i hs
        split at h
        · cases h
        · rename_i v' hv'
          split at h
          · cases h
          · rename_i r hr
            split at h
            · cases h; exact excludeItems_idem exc rest rf hr
            · rename_i hve
              cases h
              have h1 := excludeTree_idem sub v v' hv'
              have h2 := excludeItems_idem exc rest r hr
              unfold excludeItems
              rw [hsub]
              simp only
              rw [if_neg hs]
              unfold excludeTree
              rw [h1, h2]
              simp [hve]
    · rename_i hnone
      split at h
      · cases h
      · rename_i r hr
        cases h
        unfold excludeItems
        rw [hnone]
        simp [excludeItems_idem exc rest r hr]
end

/-- **C08** (idempotence of include_filter; the results are equal including the order of keys). -/
theorem C08_include_idempotent (inc : Filter) (hw : inc.WF) (t r : Target α)
    (h : includeFilter inc t = .ok r) : includeFilter inc r = .ok r := by
  rw [includeFilter_eq] at h ⊢
  exact includeTree_idem (.node inc) (by unfold Tree.WF; exact hw) _ _ h

/-- **C08** (idempotence of exclude_filter). -/
theorem C08_exclude_idempotent (exc : Filter) (t r : Target α) (h : excludeFilter exc t = .ok r) :
    excludeFilter exc r = .ok r := excludeItems_idem exc t r h

/-! ### C09 -/

theorem onlySecond_find? (f1 f2 : Filter) (k : String) :
    (onlySecond f1 f2).find? k = if f1.has k then none else f2.find? k := by
  induction f2 using Forest.rec (motive_1 := fun _ => True) with
  | leaf => trivial
  | node => trivial
  | nil => simp [onlySecond, Forest.find?]
  | cons k' t rest _ ih =>
    unfold onlySecond
    by_cases hk : f1.has k' = true
    · rw [if_pos hk, ih]
      by_cases h : k' = k
      · subst h; simp [hk]
      · simp [Forest.find?, h]
    · rw [if_neg hk]
      simp only [Forest.find?, ih]
      by_cases h : k' = k
      · subst h; simp [hk]
      · simp [h]

theorem mergeItems_find? (f1 f2 : Filter) (k : String) :
    (mergeItems f1 f2).find? k = match f1.find? k with
      | none => none
      | some t => match f2.find? k with
        | none => some t
        | some t2 => some (mergeTree t t2) := by
  induction f1 using Forest.rec (motive_1 := fun _ => True) with
  | leaf => trivial
  | node => trivial
  | nil => simp [mergeItems, Forest.find?]
  | cons k' t rest _ ih =>
    unfold mergeItems
    by_cases h : k' = k
    · subst h
      cases h2 : f2.find? k' <;> simp [Forest.find?, h2]
    · cases h2 : f2.find? k' <;> simp [Forest.find?, h, ih]

theorem mergedItems_find? (f1 f2 : Filter) (k : String) :
    ((mergeItems f1 f2).append (onlySecond f1 f2)).find? k =
      match f1.find? k, f2.find? k with
      | none, x => x
      | some t, none => some t
      | some t, some t2 => some (mergeTree t t2) := by
  rw [Forest.find?_append, mergeItems_find?, onlySecond_find?, Forest.has]
  cases f1.find? k <;> cases f2.find? k <;> simp

theorem merged_not_empty {f1 f2 : Filter} (h1 : ¬ f1.isEmpty = true) :
    ((mergeItems f1 f2).append (onlySecond f1 f2)).isEmpty = false := by
  cases f1 with
  | nil => exact absurd rfl h1
  | cons k t rest =>
    unfold mergeItems
    cases f2.find? k <;> rfl

/-- a merged filter selects what either filter selects. -/
theorem selects_merge (t1 t2 : Tree Empty) (p : Path) (n : Bool) :
    selects (mergeTree t1 t2) p n = (selects t1 p n || selects t2 p n) := by
  induction p generalizing t1 t2 with
  | nil =>
    cases t1 with
    | leaf e => exact e.elim
    | node f1 =>
      cases t2 with
      | leaf e => exact e.elim
      | node f2 =>
        unfold mergeTree
        by_cases h1 : f1.isEmpty = true
        · simp [selects, h1]
        · by_cases h2 : f2.isEmpty = true
          · simp [selects, h1, h2]
          · rw [if_neg h1, if_neg h2]
            simp [selects, h1, h2, merged_not_empty h1]
  | cons k p ih =>
    cases t1 with
    | leaf e => exact e.elim
    | node f1 =>
      cases t2 with
      | leaf e => exact e.elim
      | node f2 =>
        unfold mergeTree
        by_cases h1 : f1.isEmpty = true
        · simp [selects, h1]
        · by_cases h2 : f2.isEmpty = true
          · simp [selects, h1, h2]
          · rw [if_neg h1, if_neg h2]
            simp only [selects, merged_not_empty h1, Bool.false_or, mergedItems_find?]
            have h1' : f1.isEmpty = false := by simpa using h1
            have h2' : f2.isEmpty = false := by simpa using h2
            cases e1 : f1.find? k <;> cases e2 : f2.find? k <;> simp [h1', h2', ih]

theorem continues_merge (t1 t2 : Tree Empty) (p : Path) :
    continuesBelow (mergeTree t1 t2) p = true → continuesBelow t1 p = true ∨ continuesBelow t2 p = true := by
  induction p generalizing t1 t2 with
  | nil =>
    cases t1 with
    | leaf e => exact e.elim
    | node f1 =>
      cases t2 with
      | leaf e => exact e.elim
      | node f2 =>
        unfold mergeTree
        by_cases h1 : f1.isEmpty = true
        · simp [continuesBelow, h1]
        · have h1' : f1.isEmpty = false := by simpa using h1
          intro _; left; simp [continuesBelow, h1']
  | cons k p ih =>
    cases t1 with
    | leaf e => exact e.elim
    | node f1 =>
      cases t2 with
      | leaf e => exact e.elim
      | node f2 =>
        unfold mergeTree
        by_cases h1 : f1.isEmpty = true
        · simp [continuesBelow, h1]
        · by_cases h2 : f2.isEmpty = true
          · simp [continuesBelow, h1, h2]
          · rw [if_neg h1, if_neg h2]
            have h1' : f1.isEmpty = false := by simpa using h1
            have h2' : f2.isEmpty = false := by simpa using h2
            simp only [continuesBelow, merged_not_empty h1, Bool.not_false, Bool.true_and,
              mergedItems_find?, h1', h2']
            cases e1 : f1.find? k <;> cases e2 : f2.find? k <;> simp
            exact ih _ _

mutual
theorem mergeTree_wf (t1 t2 : Tree Empty) (h1 : t1.WF) (h2 : t2.WF) : (mergeTree t1 t2).WF := by
  match t1, t2 with
  | .leaf e, _ => exact e.elim
  | _, .leaf e => exact e.elim
  | .node f1, .node f2 =>
    unfold Tree.WF at h1 h2
    unfold mergeTree
    split
    · unfold Tree.WF; exact h1
    · split
      · unfold Tree.WF; exact h2
      · unfold Tree.WF
        have hos : ∀ f2 : Filter, f2.WF → (onlySecond f1 f2).WF ∧
            ∀ k ∈ (onlySecond f1 f2).keys, k ∈ f2.keys ∧ f1.has k = false := by
          intro f2
          induction f2 using Forest.rec (motive_1 := fun _ => True) with
          | leaf => trivial
          | node => trivial
          | nil => intro _; unfold onlySecond Forest.WF; simp [Forest.keys]
          | cons k t rest _ ih =>
            intro hw
            unfold Forest.WF at hw
            obtain ⟨i1, i2⟩ := ih hw.2.2
            unfold onlySecond
            split
            · refine ⟨i1, fun k' hk' => ?_⟩
              exact ⟨List.mem_cons_of_mem _ (i2 k' hk').1, (i2 k' hk').2⟩
            · rename_i hnot
              constructor
              · unfold Forest.WF
                exact ⟨fun hm => hw.1 (i2 k hm).1, hw.2.1, i1⟩
              · intro k' hk'
                simp only [Forest.keys, List.mem_cons] at hk' ⊢
                rcases hk' with rfl | hk'
                · exact ⟨Or.inl rfl, by simpa using hnot⟩
                · exact ⟨Or.inr (i2 k' hk').1, (i2 k' hk').2⟩
        have happ : ∀ a b : Filter, a.WF → b.WF → (∀ k ∈ a.keys, k ∉ b.keys) → (a.append b).WF := by
          intro a b
          induction a using Forest.rec (motive_1 := fun _ => True) with
          | leaf => trivial
          | node => trivial
          | nil => intro _ hb _; exact hb
          | cons k t rest _ ih =>
            intro ha hb hd
            unfold Forest.WF at ha
            simp only [Forest.append]
            unfold Forest.WF
            refine ⟨?_, ha.2.1, ih ha.2.2 hb fun k' hk' => hd k' (List.mem_cons_of_mem _ hk')⟩
            rw [Forest.keys_append, List.mem_append, not_or]
            exact ⟨ha.1, hd k (by simp [Forest.keys])⟩
        obtain ⟨o1, o2⟩ := hos f2 h2
        obtain ⟨m1, m2⟩ := mergeItems_wf f1 f2 h1 h2
        refine happ _ _ m1 o1 ?_
        intro k hk hk2
        have := (o2 k hk2).2
        rw [m2] at hk
        obtain ⟨t, ht⟩ := (Forest.mem_keys_iff f1 k).mp hk
        simp [Forest.has, ht] at this
theorem mergeItems_wf (f1 f2 : Filter) (h1 : f1.WF) (h2 : f2.WF) :
    (mergeItems f1 f2).WF ∧ (mergeItems f1 f2).keys = f1.keys := by
  match f1 with
  | .nil => unfold mergeItems; exact ⟨h1, rfl⟩
  | .cons k t rest =>
    unfold Forest.WF at h1
    obtain ⟨i1, i2⟩ := mergeItems_wf rest f2 h1.2.2 h2
    unfold mergeItems
    split
    · rename_i t2 ht2
      refine ⟨?_, by simp [Forest.keys, i2]⟩
      unfold Forest.WF
      exact ⟨by rw [i2]; exact h1.1, mergeTree_wf t t2 h1.2.1 (Forest.WF_find? h2 ht2), i1⟩
    · refine ⟨?_, by simp [Forest.keys, i2]⟩
      unfold Forest.WF
      exact ⟨by rw [i2]; exact h1.1, h1.2.1, i1⟩
end

theorem mergeFilters_node (f1 f2 : Filter) :
    Tree.node (mergeFilters f1 f2) = mergeTree (.node f1) (.node f2) := by
  unfold mergeFilters
  cases h : mergeTree (.node f1) (.node f2) with
  | leaf e => exact e.elim
  | node r => rfl

/-- **C09**: the merged filter keeps exactly the leaves kept by the first or by the second filter. -/
theorem C09_merge_union (f1 f2 : Filter) (h1 : f1.WF) (h2 : f2.WF) (t r r1 r2 : Target α)
    (hm : includeFilter (mergeFilters f1 f2) t = .ok r) (hr1 : includeFilter f1 t = .ok r1)
    (hr2 : includeFilter f2 t = .ok r2) (p : Path) (a : Option α) :
    (Tree.node r).leafAt p = some a ↔
      (Tree.node r1).leafAt p = some a ∨ (Tree.node r2).leafAt p = some a := by
  have hw : (mergeFilters f1 f2).WF := by
    have := mergeTree_wf (.node f1) (.node f2) (by unfold Tree.WF; exact h1) (by unfold Tree.WF; exact h2)
    rw [← mergeFilters_node] at this
    unfold Tree.WF at this; exact this
  rw [C08_include_exact _ hw t r hm, C08_include_exact f1 h1 t r1 hr1, C08_include_exact f2 h2 t r2 hr2,
    mergeFilters_node, selects_merge, Bool.or_eq_true]
  tauto

/-- **C09** (an empty filter keeps everything, merged with anything). -/
theorem C09_merge_empty (f : Filter) (t : Target α) :
    includeFilter (mergeFilters .nil f) t = .ok t ∧ includeFilter (mergeFilters f .nil) t = .ok t := by
  constructor
  · unfold mergeFilters mergeTree; exact (C08_empty_filter_not_complementary t).1
  · unfold mergeFilters mergeTree
    by_cases h : f.isEmpty = true
    · rw [if_pos h]
      rw [Forest.isEmpty_iff] at h; subst h
      exact (C08_empty_filter_not_complementary t).1
    · rw [if_neg h]
      exact (C08_empty_filter_not_complementary t).1

/-- **C09** (merging does not introduce failures): if both filters can be applied so can the merged one. -/
theorem C09_merge_succeeds (f1 f2 : Filter) (h1 : f1.WF) (h2 : f2.WF) (t : Target α) (ht : t.WF)
    (hr1 : ∃ r1, includeFilter f1 t = .ok r1) (hr2 : ∃ r2, includeFilter f2 t = .ok r2) :
    ∃ r, includeFilter (mergeFilters f1 f2) t = .ok r := by
  have hw : (mergeFilters f1 f2).WF := by
    have := mergeTree_wf (.node f1) (.node f2) (by unfold Tree.WF; exact h1) (by unfold Tree.WF; exact h2)
    rw [← mergeFilters_node] at this
    unfold Tree.WF at this; exact this
  rw [C08_include_succeeds_iff _ hw t ht]
  rw [C08_include_succeeds_iff f1 h1 t ht] at hr1
  rw [C08_include_succeeds_iff f2 h2 t ht] at hr2
  intro p a hp hc
  rw [mergeFilters_node] at hc
  rcases continues_merge _ _ p hc with h | h
  · exact hr1 p a hp h
  · exact hr2 p a hp h

/-! ### concrete cases -/

/-- `{"a": {"x": 1, "y": None}, "b": 2}` -/
def demoTarget : Target ℕ :=
  .cons "a" (.node (.cons "x" (.leaf (some 1)) (.cons "y" (.leaf none) .nil)))
    (.cons "b" (.leaf (some 2)) .nil)

/-- `{"a": {"x": {}}}` -/
def demoFilter : Filter := .cons "a" (.node (.cons "x" (.node .nil) .nil)) .nil

/-- `{"b": {}}` -/
def demoFilter2 : Filter := .cons "b" (.node .nil) .nil

example : includeFilter demoFilter demoTarget =
    .ok (.cons "a" (.node (.cons "x" (.leaf (some 1)) .nil)) .nil) := by
  simp [includeFilter, includeTree, includeItems, demoFilter, demoTarget, Forest.find?, Forest.isEmpty,
    subEmpty]

example : excludeFilter demoFilter demoTarget =
    .ok (.cons "a" (.node (.cons "y" (.leaf none) .nil)) (.cons "b" (.leaf (some 2)) .nil)) := by
  simp [excludeFilter, excludeItems, excludeTree, demoFilter, demoTarget, Forest.find?, Forest.isEmpty]

example : demoTarget.WF ∧ demoFilter.WF ∧ demoFilter.isEmpty = false := by
  simp [demoTarget, demoFilter, Forest.WF, Tree.WF, Forest.keys, Forest.isEmpty]

example : ∃ r, includeFilter (mergeFilters demoFilter demoFilter2) demoTarget = .ok r ∧
    (Tree.node r).leafAt ["a", "x"] = some (some 1) ∧ (Tree.node r).leafAt ["a", "y"] = none ∧
    (Tree.node r).leafAt ["b"] = some (some 2) := by
  simp [mergeFilters, mergeTree, mergeItems, onlySecond, includeFilter, includeTree, includeItems, demoFilter, demoFilter2,
    demoTarget, Forest.find?, Forest.isEmpty, Forest.has, Forest.append, subEmpty, Tree.leafAt, Tree.at?]

end Filters
end TFMA
