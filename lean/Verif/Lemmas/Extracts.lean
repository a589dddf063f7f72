import Verif.Model.Extracts
import Mathlib.Tactic.Common
import Mathlib.Data.List.Basic

/-!
# Lemmas about nested dictionaries being filled leaf by leaf, relative to a reference structure
-/

namespace TFMA

variable {α β : Type}

theorem Tree.leafAt_nil_leaf (a : α) : (Tree.leaf a).leafAt [] = some a := rfl
theorem Tree.leafAt_nil_node (f : Forest α) : (Tree.node f).leafAt [] = none := rfl
theorem Tree.leafAt_cons_leaf (a : α) (k p) : (Tree.leaf a).leafAt (k :: p) = none := rfl
theorem Tree.leafAt_cons_node (f : Forest α) (k p) :
    (Tree.node f).leafAt (k :: p) = (f.find? k).bind (fun t => t.leafAt p) := by
  unfold Tree.leafAt
  simp only [Tree.at?]
  cases h : f.find? k <;> simp

/-- is the value a leaf. -/
def Tree.isLeaf : Tree α → Bool
  | .leaf _ => true
  | .node _ => false

/-- `f` has only keys of `t`, with leaves where `t` has leaves and dictionaries where `t` has dictionaries. -/
def Sub (f : Tree α) (t : Tree β) : Prop :=
  ∀ p x, f.at? p = some x → ∃ y, t.at? p = some y ∧ x.isLeaf = y.isLeaf

theorem at?_cons_node (f : Forest α) (k : String) (p : Path) :
    (Tree.node f).at? (k :: p) = (f.find? k).bind (fun t => t.at? p) := by
  simp only [Tree.at?]
  cases f.find? k <;> rfl

theorem Sub_nil (g : Forest β) : Sub (Tree.node (Forest.nil : Forest α)) (.node g) := by
  intro p x hx
  cases p with
  | nil => cases hx; exact ⟨_, rfl, rfl⟩
  | cons k p => simp [at?_cons_node, Forest.find?] at hx

theorem Sub_find? {f : Forest α} {t : Forest β} (h : Sub (.node f) (.node t)) {k : String} {x : Tree α}
    (hx : f.find? k = some x) : ∃ y, t.find? k = some y ∧ Sub x y := by
  obtain ⟨y, hy, _⟩ := h [k] x (by simp [at?_cons_node, hx, Tree.at?])
  rw [at?_cons_node] at hy
  cases e : t.find? k with
  | none => simp [e] at hy
  | some z =>
    refine ⟨z, rfl, ?_⟩
    intro p w hw
    obtain ⟨v, hv, hl⟩ := h (k :: p) w (by simp [at?_cons_node, hx, hw])
    rw [at?_cons_node, e] at hv
    exact ⟨v, hv, hl⟩

theorem Sub_isLeaf {x : Tree α} {y : Tree β} (h : Sub x y) : x.isLeaf = y.isLeaf := by
  obtain ⟨z, hz, hl⟩ := h [] x rfl
  cases hz; exact hl

theorem Sub_leaf (a : α) (b : β) : Sub (Tree.leaf a) (Tree.leaf b) := by
  intro p x hx
  cases p with
  | nil => cases hx; exact ⟨_, rfl, rfl⟩
  | cons k p => simp [Tree.at?] at hx

theorem Sub_set {f : Forest α} {t : Forest β} (h : Sub (.node f) (.node t)) {k : String} {x : Tree α}
    {y : Tree β} (hy : t.find? k = some y) (hxy : Sub x y) : Sub (.node (f.set k x)) (.node t) := by
  intro p w hw
  cases p with
  | nil => cases hw; exact ⟨_, rfl, rfl⟩
  | cons k2 p =>
    rw [at?_cons_node, Forest.find?_set] at hw
    by_cases hk : k = k2
    · subst hk
      rw [if_pos rfl] at hw
      obtain ⟨v, hv, hl⟩ := hxy p w (by simpa using hw)
      exact ⟨v, by rw [at?_cons_node, hy]; exact hv, hl⟩
    · rw [if_neg hk] at hw
      exact h (k2 :: p) w (by rw [at?_cons_node]; exact hw)

theorem leafAt_set (f : Forest α) (k : String) (x : Tree α) (k2 : String) (q : Path) :
    (Tree.node (f.set k x)).leafAt (k2 :: q) = if k = k2 then x.leafAt q
      else (Tree.node f).leafAt (k2 :: q) := by
  rw [Tree.leafAt_cons_node, Tree.leafAt_cons_node, Forest.find?_set]
  by_cases h : k = k2 <;> simp [h]

/-- a path below a leaf of the reference structure leads nowhere. -/
theorem leafAt_of_Sub_leaf {x : Tree α} {b : β} (h : Sub x (Tree.leaf b)) (q : Path) (hq : q ≠ []) :
    x.leafAt q = none := by
  have : x.isLeaf = true := Sub_isLeaf h
  cases x with
  | leaf a =>
    cases q with
    | nil => exact absurd rfl hq
    | cons k q => rfl
  | node f => simp [Tree.isLeaf] at this

namespace Extracts

open VarLen

/-- **setting one leaf** succeeds relative to a reference structure that has a leaf there, and changes only
that leaf. -/
theorem setPath_ok (p : Path) (hp : p ≠ []) (v : Leaf α) (f : Forest (Leaf α)) (t : Forest β)
    (hs : Sub (.node f) (.node t)) (b : β) (ht : (Tree.node t).leafAt p = some b) :
    ∃ f', setPath p v f = .ok f' ∧ Sub (.node f') (.node t) ∧
      ∀ q, (Tree.node f').leafAt q = if q = p then some v else (Tree.node f).leafAt q := by
  induction p generalizing f t with
  | nil => exact absurd rfl hp
  | cons k p ih =>
    rw [Tree.leafAt_cons_node] at ht
    cases hy : t.find? k with
    | none => simp [hy] at ht
    | some y =>
      have hty : y.leafAt p = some b := by simpa [hy] using ht
      cases p with
      | nil =>
        have hyl : ∃ b, y = .leaf b := by
          cases y with
          | leaf b => exact ⟨b, rfl⟩
          | node g => simp [Tree.leafAt_nil_node] at hty
        obtain ⟨b', rfl⟩ := hyl
        refine ⟨f.set k (.leaf v), rfl, Sub_set hs hy (Sub_leaf v b'), ?_⟩
        intro q
        cases q with
        | nil => simp [Tree.leafAt_nil_node]
        | cons k2 q =>
          rw [leafAt_set]
          by_cases hk : k = k2
          · subst hk
            rw [if_pos rfl]
            cases q with
            | nil => simp [Tree.leafAt_nil_leaf]
            | cons k3 q =>
              rw [if_neg (by simp)]
              rw [Tree.leafAt_cons_leaf, Tree.leafAt_cons_node]
              cases e : f.find? k with
              | none => rfl
              | some x =>
                obtain ⟨y', hy', hsub⟩ := Sub_find? hs e
                rw [hy] at hy'; cases hy'
                simp [leafAt_of_Sub_leaf hsub (k3 :: q) (by simp)]
          · rw [if_neg hk, if_neg (by simp [Ne.symm hk])]
      | cons k' p =>
        have hyn : ∃ g, y = .node g := by
          cases y with
          | leaf b => simp [Tree.leafAt_cons_leaf] at hty
          | node g => exact ⟨g, rfl⟩
        obtain ⟨g, rfl⟩ := hyn
        have finish : ∀ sub : Forest (Leaf α), Sub (.node sub) (.node g) →
            (∀ q, q ≠ [] → (Tree.node sub).leafAt q = (Tree.node f).leafAt (k :: q)) →
            ∃ f' g', setPath (k' :: p) v sub = .ok g' ∧ f' = f.set k (.node g') ∧
              Sub (.node f') (.node t) ∧
              ∀ q, (Tree.node f').leafAt q = if q = k :: k' :: p then some v else (Tree.node f).leafAt q := by
          intro sub hsub hsame
          obtain ⟨g', h1, h2, h3⟩ := ih (by simp) sub g hsub hty
          refine ⟨f.set k (.node g'), g', h1, rfl, Sub_set hs hy h2, ?_⟩
          intro q
          cases q with
          | nil => simp [Tree.leafAt_nil_node]
          | cons k2 q =>
            rw [leafAt_set]
            by_cases hk : k = k2
            · subst hk
              rw [if_pos rfl, h3 q]
              cases q with
              | nil =>
                rw [if_neg (by simp), if_neg (by simp), Tree.leafAt_nil_node, Tree.leafAt_cons_node]
                cases e : f.find? k with
                | none => rfl
                | some x =>
                  obtain ⟨y', hy', hsx⟩ := Sub_find? hs e
                  rw [hy] at hy'; cases hy'
                  have := Sub_isLeaf hsx
                  cases x with
                  | leaf a => simp [Tree.isLeaf] at this
                  | node h => simp [Tree.leafAt_nil_node]
              | cons k3 q =>
                rw [hsame (k3 :: q) (by simp)]
                simp
            · rw [if_neg hk, if_neg (by simp [Ne.symm hk])]
        unfold setPath
        cases e : f.find? k with
        | none =>
          obtain ⟨f', g', h1, h2, h3, h4⟩ := finish .nil (Sub_nil g) (by
            intro q hq
            cases q with
            | nil => exact absurd rfl hq
            | cons k3 q => simp [Tree.leafAt_cons_node, Forest.find?, e])
          simp only [h1]
          exact ⟨_, rfl, h2 ▸ h3, h2 ▸ h4⟩
        | some x =>
          obtain ⟨y', hy', hsub⟩ := Sub_find? hs e
          rw [hy] at hy'; cases hy'
          cases x with
          | leaf a =>
            have := Sub_isLeaf hsub
            simp [Tree.isLeaf] at this
          | node sub =>
            obtain ⟨f', g', h1, h2, h3, h4⟩ := finish sub hsub (by
              intro q hq
              rw [Tree.leafAt_cons_node, e]; rfl)
            simp only [h1]
            exact ⟨_, rfl, h2 ▸ h3, h2 ▸ h4⟩

/-- the value at a path in row `i` of a list of results. -/
def rowLeaf (rs : List (Forest (Leaf α))) (i : ℕ) (q : Path) : Option (Leaf α) :=
  (rs[i]?).bind fun f => (Tree.node f).leafAt q

theorem putRows_ok (p : Path) (hp : p ≠ []) (t : Forest β) (b : β) (ht : (Tree.node t).leafAt p = some b)
    (rs : List (Forest (Leaf α))) (cs : List (Leaf α)) (hs : ∀ f ∈ rs, Sub (.node f) (.node t)) :
    ∃ rs', putRows p rs cs = .ok rs' ∧ (∀ f ∈ rs', Sub (.node f) (.node t)) ∧
      rs'.length = max rs.length cs.length ∧
      ∀ i q, rowLeaf rs' i q = if q = p ∧ i < cs.length then cs[i]? else rowLeaf rs i q := by
  induction cs generalizing rs with
  | nil =>
    refine ⟨rs, by cases rs <;> rfl, hs, by simp, ?_⟩
    intro i q
    rw [if_neg (by simp)]
  | cons c cs ih =>
    -- the head is set in the first result (or in a new one)
    have head : ∀ f0 : Forest (Leaf α), Sub (.node f0) (.node t) → ∀ rest : List (Forest (Leaf α)),
        (∀ f ∈ rest, Sub (.node f) (.node t)) →
        ∃ f' rs', setPath p c f0 = .ok f' ∧ putRows p rest cs = .ok rs' ∧
          (∀ f ∈ f' :: rs', Sub (.node f) (.node t)) ∧
          (f' :: rs').length = max (rest.length + 1) (cs.length + 1) ∧
          ∀ i q, rowLeaf (f' :: rs') i q =
            if q = p ∧ i < (c :: cs).length then (c :: cs)[i]? else rowLeaf (f0 :: rest) i q := by
      intro f0 h0 rest hrest
      obtain ⟨f', h1, h2, h3⟩ := setPath_ok p hp c f0 t h0 b ht
      obtain ⟨rs', h4, h5, h6, h7⟩ := ih rest hrest
      refine ⟨f', rs', h1, h4, ?_, by simp [h6], ?_⟩
      · intro f hf
        simp only [List.mem_cons] at hf
        rcases hf with rfl | hf
        · exact h2
        · exact h5 f hf
      · intro i q
        cases i with
        | zero =>
          simp only [rowLeaf, List.getElem?_cons_zero, Option.bind_some, h3 q, List.length_cons]
          by_cases hq : q = p <;> simp [hq]
        | succ i =>
          have := h7 i q
          simp only [rowLeaf, List.getElem?_cons_succ, List.length_cons] at this ⊢
          rw [this]
          by_cases hq : q = p <;> simp [hq]
    cases rs with
    | nil =>
      obtain ⟨f', rs', h1, h2, h3, h4, h5⟩ := head .nil (Sub_nil t) [] (by simp)
      refine ⟨f' :: rs', ?_, h3, by simpa using h4, ?_⟩
      · unfold putRows; simp [h1, h2]
      · intro i q
        rw [h5 i q]
        by_cases hc : q = p ∧ i < (c :: cs).length
        · rw [if_pos hc, if_pos hc]
        · rw [if_neg hc, if_neg hc]
          cases i with
          | zero =>
            cases q with
            | nil => simp [rowLeaf, Tree.leafAt_nil_node]
            | cons k q => simp [rowLeaf, Tree.leafAt_cons_node, Forest.find?]
          | succ i => simp [rowLeaf]
    | cons r rs =>
      obtain ⟨f', rs', h1, h2, h3, h4, h5⟩ := head r (hs r (by simp)) rs fun f hf => hs f (by simp [hf])
      refine ⟨f' :: rs', ?_, h3, by simpa using h4, h5⟩
      unfold putRows; simp [h1, h2]

mutual
/-- the list of leaves visited describes the leaves of the tree. -/
theorem treeLeaves_mem (keys : Path) (t : Tree (Leaf α)) (ht : t.WF) (q : Path) (v : Leaf α) :
    (q, v) ∈ treeLeaves keys t ↔ ∃ p, q = keys ++ p ∧ t.leafAt p = some v := by
  match t with
  | .leaf a =>
    simp only [treeLeaves, List.mem_singleton, Prod.mk.injEq]
    constructor
    · rintro ⟨rfl, rfl⟩; exact ⟨[], by simp, rfl⟩
    · rintro ⟨p, rfl, h⟩
      cases p with
      | nil => simp [Tree.leafAt_nil_leaf] at h; exact ⟨by simp, h.symm⟩
      | cons k p => simp [Tree.leafAt_cons_leaf] at h
  | .node f =>
    unfold Tree.WF at ht
    simp only [treeLeaves]
    rw [forestLeaves_mem keys f ht q v]
theorem forestLeaves_mem (keys : Path) (f : Forest (Leaf α)) (hf : f.WF) (q : Path) (v : Leaf α) :
    (q, v) ∈ forestLeaves keys f ↔ ∃ p, q = keys ++ p ∧ (Tree.node f).leafAt p = some v := by
  match f with
  | .nil =>
    simp only [forestLeaves, List.not_mem_nil, false_iff, not_exists, not_and]
    rintro p - h
    cases p with
    | nil => simp [Tree.leafAt_nil_node] at h
    | cons k p => simp [Tree.leafAt_cons_node, Forest.find?] at h
  | .cons k t rest =>
    unfold Forest.WF at hf
    simp only [forestLeaves, List.mem_append]
    rw [treeLeaves_mem (keys ++ [k]) t hf.2.1 q v, forestLeaves_mem keys rest hf.2.2 q v]
    constructor
    · rintro (⟨p, rfl, h⟩ | ⟨p, rfl, h⟩)
      · exact ⟨k :: p, by simp, by simpa [Tree.leafAt_cons_node, Forest.find?] using h⟩
      · refine ⟨p, rfl, ?_⟩
        cases p with
        | nil => simp [Tree.leafAt_nil_node] at h
        | cons k2 p =>
          rw [Tree.leafAt_cons_node] at h ⊢
          have hk : k ≠ k2 := by
            rintro rfl
            rw [(Forest.find?_eq_none_iff rest k).mpr hf.1] at h
            simp at h
          simpa [Forest.find?, hk] using h
    · rintro ⟨p, rfl, h⟩
      cases p with
      | nil => simp [Tree.leafAt_nil_node] at h
      | cons k2 p =>
        rw [Tree.leafAt_cons_node] at h
        by_cases hk : k = k2
        · subst hk
          left; exact ⟨p, by simp, by simpa [Forest.find?] using h⟩
        · right
          refine ⟨k2 :: p, rfl, ?_⟩
          rw [Tree.leafAt_cons_node]
          simpa [Forest.find?, hk] using h
end

/-- what addAll leaves in row `i` at path `q`: the row of the last processed leaf with that path. -/
theorem addAll_ok (keep expand : Bool) (t : Forest (Leaf α)) (rows : Path → List (Leaf α))
    (ls : List (Path × Leaf α))
    (hls : ∀ q v, (q, v) ∈ ls → (Tree.node t).leafAt q = some v ∧ rowsOf keep expand v = .ok (rows q))
    (rs : List (Forest (Leaf α))) (hs : ∀ f ∈ rs, Sub (.node f) (.node t)) :
    ∃ rs', addAll keep expand rs ls = .ok rs' ∧ (∀ f ∈ rs', Sub (.node f) (.node t)) ∧
      rs'.length = (ls.map fun l => (rows l.1).length).foldl max rs.length ∧
      ∀ i q, rowLeaf rs' i q =
        if q ∈ ls.map Prod.fst ∧ i < (rows q).length then (rows q)[i]? else rowLeaf rs i q := by
  induction ls generalizing rs with
  | nil => exact ⟨rs, rfl, hs, rfl, by simp⟩
  | cons l ls ih =>
    obtain ⟨p, v⟩ := l
    obtain ⟨h1, h2⟩ := hls p v (by simp)
    have hp : p ≠ [] := by rintro rfl; simp [Tree.leafAt_nil_node] at h1
    obtain ⟨rs1, e1, s1, l1, c1⟩ := putRows_ok p hp t v h1 rs (rows p) hs
    obtain ⟨rs2, e2, s2, l2, c2⟩ := ih (fun q w hq => hls q w (by simp [hq])) rs1 s1
    refine ⟨rs2, ?_, s2, ?_, ?_⟩
    · unfold addAll; rw [h2]; simp only [e1, e2]
    · rw [l2, l1]; rfl
    · intro i q
      rw [c2 i q, c1 i q]
      by_cases hq : q = p
      · subst hq
        by_cases hi : i < (rows q).length <;> simp [hi]
      · have hiff : q ∈ ((p, v) :: ls).map Prod.fst ↔ q ∈ ls.map Prod.fst := by
          simp [hq]
        rw [if_neg (c := q = p ∧ _) (fun h => hq h.1)]
        simp only [hiff]

theorem setPath_wf (p : Path) (v : Leaf α) (f f' : Forest (Leaf α)) (hf : f.WF)
    (h : setPath p v f = .ok f') : f'.WF := by
  induction p generalizing f f' with
  | nil => simp [setPath] at h
  | cons k p ih =>
    cases p with
    | nil =>
      simp only [setPath, Except.ok.injEq] at h
      subst h
      exact Forest.WF_set hf (by unfold Tree.WF; trivial)
    | cons k' p =>
      unfold setPath at h
      split at h
      · split at h
        · cases h
        · rename_i g hg
          cases h
          exact Forest.WF_set hf (by unfold Tree.WF; exact ih _ _ (by unfold Forest.WF; trivial) hg)
      · rename_i sub hsub
        split at h
        · cases h
        · rename_i g hg
          cases h
          have := Forest.WF_find? hf hsub
          unfold Tree.WF at this
          exact Forest.WF_set hf (by unfold Tree.WF; exact ih _ _ this hg)
      · cases h

theorem putRows_wf (p : Path) (rs : List (Forest (Leaf α))) (cs : List (Leaf α)) (rs' : List (Forest (Leaf α)))
    (hs : ∀ f ∈ rs, f.WF) (h : putRows p rs cs = .ok rs') : ∀ f ∈ rs', f.WF := by
  induction cs generalizing rs rs' with
  | nil =>
    have : putRows p rs [] = .ok rs := by cases rs <;> rfl
    rw [this] at h; cases h; exact hs
  | cons c cs ih =>
    cases rs with
    | nil =>
      unfold putRows at h
      split at h
      · cases h
      · rename_i f hf
        split at h
        · cases h
        · rename_i r hr
          cases h
          intro g hg
          simp only [List.mem_cons] at hg
          rcases hg with rfl | hg
          · exact setPath_wf p c .nil _ (by unfold Forest.WF; trivial) hf
          · exact ih [] r (by simp) hr g hg
    | cons r0 rs =>
      unfold putRows at h
      split at h
      · cases h
      · rename_i f hf
        split at h
        · cases h
        · rename_i r hr
          cases h
          intro g hg
          simp only [List.mem_cons] at hg
          rcases hg with rfl | hg
          · exact setPath_wf p c r0 _ (hs r0 (by simp)) hf
          · exact ih rs r (fun f hf => hs f (by simp [hf])) hr g hg

theorem addAll_wf (keep expand : Bool) (ls : List (Path × Leaf α)) (rs rs' : List (Forest (Leaf α)))
    (hs : ∀ f ∈ rs, f.WF) (h : addAll keep expand rs ls = .ok rs') : ∀ f ∈ rs', f.WF := by
  induction ls generalizing rs with
  | nil => unfold addAll at h; cases h; exact hs
  | cons l ls ih =>
    obtain ⟨p, v⟩ := l
    unfold addAll at h
    split at h
    · cases h
    · split at h
      · cases h
      · rename_i rs1 hrs1
        exact ih rs1 (putRows_wf p rs _ rs1 hs hrs1) h

theorem addEmpty_wf (ps : List Path) (f f' : Forest (Leaf α)) (hf : f.WF) (h : addEmpty ps f = .ok f') :
    f'.WF := by
  induction ps generalizing f with
  | nil => unfold addEmpty at h; cases h; exact hf
  | cons p ps ih =>
    unfold addEmpty at h
    split at h
    · cases h
    · rename_i f1 hf1
      exact ih f1 (setPath_wf p _ f f1 hf hf1) h

theorem addEmpty_ok (t : Forest β) (ps : List Path)
    (hps : ∀ p ∈ ps, ∃ b, (Tree.node t).leafAt p = some b) (f : Forest (Leaf α))
    (hs : Sub (.node f) (.node t)) :
    ∃ f', addEmpty ps f = .ok f' ∧ Sub (.node f') (.node t) ∧
      ∀ q, (Tree.node f').leafAt q = if q ∈ ps then some .none else (Tree.node f).leafAt q := by
  induction ps generalizing f with
  | nil => exact ⟨f, rfl, hs, by simp⟩
  | cons p ps ih =>
    obtain ⟨b, hb⟩ := hps p (by simp)
    have hp : p ≠ [] := by rintro rfl; simp [Tree.leafAt_nil_node] at hb
    obtain ⟨f1, e1, s1, c1⟩ := setPath_ok p hp .none f t hs b hb
    obtain ⟨f2, e2, s2, c2⟩ := ih (fun q hq => hps q (by simp [hq])) f1 s1
    refine ⟨f2, ?_, s2, ?_⟩
    · unfold addEmpty; rw [e1]; exact e2
    · intro q
      rw [c2 q, c1 q]
      by_cases h1 : q ∈ ps
      · simp [h1]
      · by_cases h2 : q = p <;> simp [h1, h2]

theorem mapE_ok {γ δ : Type} (g : γ → Except Err δ) (l : List γ) (h : ∀ x ∈ l, ∃ y, g x = .ok y) :
    ∃ l', mapE g l = .ok l' ∧ l'.length = l.length ∧ ∀ (i : ℕ) (x : γ), l[i]? = some x → ∃ y, l'[i]? = some y ∧ g x = .ok y := by
  induction l with
  | nil => exact ⟨[], rfl, rfl, by simp⟩
  | cons x l ih =>
    obtain ⟨y, hy⟩ := h x (by simp)
    obtain ⟨l', e, hl, hi⟩ := ih fun z hz => h z (by simp [hz])
    refine ⟨y :: l', by unfold mapE; simp [hy, e], by simp [hl], ?_⟩
    intro i z hz
    cases i with
    | zero => simp only [List.getElem?_cons_zero, Option.some.injEq] at hz; subst hz; exact ⟨y, by simp, hy⟩
    | succ i => simp only [List.getElem?_cons_succ] at hz ⊢; exact hi i z hz

/-! ### merging -/

mutual
theorem mergeTree_ok (n index : ℕ) (target : Forest (List (Leaf α))) (t : Forest β)
    (hs : Sub (.node target) (.node t)) (k : String) (x : Tree (Leaf α)) (y : Tree β)
    (hy : t.find? k = some y) (hx : Sub x y) (hxw : x.WF) :
    ∃ target', mergeTree n index target k x = .ok target' ∧ Sub (.node target') (.node t) ∧
      ∀ q, (Tree.node target').leafAt q = match q with
        | [] => none
        | k2 :: q => if k = k2 then
            (match x.leafAt q with
              | some v => some ((((Tree.node target).leafAt (k :: q)).getD
                  (List.replicate n (Leaf.nd [0] []))).set index v)
              | none => (Tree.node target).leafAt (k :: q))
            else (Tree.node target).leafAt (k2 :: q) := by
  match x with
  | .leaf v =>
    have hyl : ∃ b, y = .leaf b := by
      have := Sub_isLeaf hx
      cases y with
      | leaf b => exact ⟨b, rfl⟩
      | node g => simp [Tree.isLeaf] at this
    obtain ⟨b, rfl⟩ := hyl
    have fin : ∀ l0 : List (Leaf α), ((Tree.node target).leafAt [k]).getD (List.replicate n (Leaf.nd [0] [])) = l0 →
        ∀ q, (Tree.node (target.set k (.leaf (l0.set index v)))).leafAt q = match q with
        | [] => none
        | k2 :: q => if k = k2 then
            (match (Tree.leaf v).leafAt q with
              | some v => some ((((Tree.node target).leafAt (k :: q)).getD
                  (List.replicate n (Leaf.nd [0] []))).set index v)
              | none => (Tree.node target).leafAt (k :: q))
            else (Tree.node target).leafAt (k2 :: q) := by
      intro l0 hl0 q
      cases q with
      | nil => rfl
      | cons k2 q =>
        rw [leafAt_set]
        by_cases hk : k = k2
        · subst hk
          simp only [if_true]
          cases q with
          | nil => simp only [Tree.leafAt_nil_leaf]; rw [hl0]
          | cons k3 q =>
            simp only [Tree.leafAt_cons_leaf]
            rw [Tree.leafAt_cons_node]
            cases e : target.find? k with
            | none => rfl
            | some z =>
              obtain ⟨y', hy', hz⟩ := Sub_find? hs e
              rw [hy] at hy'; cases hy'
              simp [leafAt_of_Sub_leaf hz (k3 :: q) (by simp)]
        · simp only [if_neg hk]
    unfold mergeTree
    cases e : target.find? k with
    | none =>
      exact ⟨_, rfl, Sub_set hs hy (Sub_leaf _ b), fin _ (by simp [Tree.leafAt_cons_node, e])⟩
    | some z =>
      obtain ⟨y', hy', hz⟩ := Sub_find? hs e
      rw [hy] at hy'; cases hy'
      have := Sub_isLeaf hz
      cases z with
      | node g => simp [Tree.isLeaf] at this
      | leaf l =>
        exact ⟨_, rfl, Sub_set hs hy (Sub_leaf _ b), fin _ (by simp [Tree.leafAt_cons_node, e, Tree.leafAt_nil_leaf])⟩
  | .node f =>
    have hyn : ∃ g, y = .node g := by
      have := Sub_isLeaf hx
      cases y with
      | leaf b => simp [Tree.isLeaf] at this
      | node g => exact ⟨g, rfl⟩
    obtain ⟨g, rfl⟩ := hyn
    unfold Tree.WF at hxw
    have fin : ∀ sub : Forest (List (Leaf α)), Sub (.node sub) (.node g) →
        (∀ q, q ≠ [] → (Tree.node sub).leafAt q = (Tree.node target).leafAt (k :: q)) →
        ∃ sub', mergeItems n index sub f = .ok sub' ∧ Sub (.node (target.set k (.node sub'))) (.node t) ∧
        ∀ q, (Tree.node (target.set k (.node sub'))).leafAt q = match q with
        | [] => none
        | k2 :: q => if k = k2 then
            (match (Tree.node f).leafAt q with
              | some v => some ((((Tree.node target).leafAt (k :: q)).getD
                  (List.replicate n (Leaf.nd [0] []))).set index v)
              | none => (Tree.node target).leafAt (k :: q))
            else (Tree.node target).leafAt (k2 :: q) := by
      intro sub hsub hsame
      obtain ⟨sub', h1, h2, h3⟩ := mergeItems_ok n index sub g hsub f hx hxw
      refine ⟨sub', h1, Sub_set hs hy h2, ?_⟩
      intro q
      cases q with
      | nil => rfl
      | cons k2 q =>
        rw [leafAt_set]
        by_cases hk : k = k2
        · subst hk
          simp only [if_true]
          rw [h3 q]
          cases q with
          | nil =>
            simp only [Tree.leafAt_nil_node]
            rw [Tree.leafAt_cons_node]
            cases e : target.find? k with
            | none => rfl
            | some z =>
              obtain ⟨y', hy', hz⟩ := Sub_find? hs e
              rw [hy] at hy'; cases hy'
              have := Sub_isLeaf hz
              cases z with
              | leaf a => simp [Tree.isLeaf] at this
              | node h => simp [Tree.leafAt_nil_node]
          | cons k3 q =>
            rw [hsame (k3 :: q) (by simp)]
        · simp only [if_neg hk]
    unfold mergeTree
    cases e : target.find? k with
    | none =>
      obtain ⟨sub', h1, h2, h3⟩ := fin .nil (Sub_nil g) (by
        intro q hq
        cases q with
        | nil => exact absurd rfl hq
        | cons k3 q => simp [Tree.leafAt_cons_node, Forest.find?, e])
      simp only [h1]
      exact ⟨_, rfl, h2, h3⟩
    | some z =>
      obtain ⟨y', hy', hz⟩ := Sub_find? hs e
      rw [hy] at hy'; cases hy'
      cases z with
      | leaf a => have := Sub_isLeaf hz; simp [Tree.isLeaf] at this
      | node sub =>
        obtain ⟨sub', h1, h2, h3⟩ := fin sub hz (by
          intro q hq
          rw [Tree.leafAt_cons_node, e]; rfl)
        simp only [h1]
        exact ⟨_, rfl, h2, h3⟩
theorem mergeItems_ok (n index : ℕ) (target : Forest (List (Leaf α))) (t : Forest β)
    (hs : Sub (.node target) (.node t)) (f : Forest (Leaf α)) (hf : Sub (.node f) (.node t)) (hfw : f.WF) :
    ∃ target', mergeItems n index target f = .ok target' ∧ Sub (.node target') (.node t) ∧
      ∀ q, (Tree.node target').leafAt q = match (Tree.node f).leafAt q with
        | some v => some ((((Tree.node target).leafAt q).getD (List.replicate n (Leaf.nd [0] []))).set index v)
        | none => (Tree.node target).leafAt q := by
  match f with
  | .nil =>
    refine ⟨target, by unfold mergeItems; rfl, hs, ?_⟩
    intro q
    cases q with
    | nil => rfl
    | cons k q => simp [Tree.leafAt_cons_node, Forest.find?]
  | .cons k x rest =>
    unfold Forest.WF at hfw
    obtain ⟨y, hy, hxy⟩ := Sub_find? hf (show (Forest.cons k x rest).find? k = some x by simp [Forest.find?])
    obtain ⟨t1, e1, s1, c1⟩ := mergeTree_ok n index target t hs k x y hy hxy hfw.2.1
    have hrest : Sub (Tree.node rest) (.node t) := by
      intro p w hw
      cases p with
      | nil => cases hw; exact ⟨_, rfl, rfl⟩
      | cons k2 p =>
        have hk : k ≠ k2 := by
          rintro rfl
          rw [at?_cons_node, (Forest.find?_eq_none_iff rest k).mpr hfw.1] at hw
          simp at hw
        refine hf (k2 :: p) w ?_
        rw [at?_cons_node] at hw ⊢
        simpa [Forest.find?, hk] using hw
    obtain ⟨t2, e2, s2, c2⟩ := mergeItems_ok n index t1 t s1 rest hrest hfw.2.2
    refine ⟨t2, ?_, s2, ?_⟩
    · unfold mergeItems; rw [e1]; exact e2
    · intro q
      rw [c2 q, c1 q]
      cases q with
      | nil => rfl
      | cons k2 q =>
        simp only [Tree.leafAt_cons_node (Forest.cons k x rest), Forest.find?]
        by_cases hk : k = k2
        · subst hk
          have hn : (Tree.node rest).leafAt (k :: q) = none := by
            rw [Tree.leafAt_cons_node, (Forest.find?_eq_none_iff rest k).mpr hfw.1]; rfl
          simp [hn]
        · simp [hk, Tree.leafAt_cons_node rest]
end

/-- the list collected at path `q`: entry `i` is what the `i`-th extract holds there. -/
theorem mergeAll_ok (n : ℕ) (t : Forest β) (xs : List (Forest (Leaf α)))
    (hx : ∀ f ∈ xs, Sub (.node f) (.node t) ∧ f.WF) (i : ℕ) (target : Forest (List (Leaf α)))
    (hs : Sub (.node target) (.node t)) :
    ∃ target', mergeAll n i target xs = .ok target' ∧ Sub (.node target') (.node t) ∧
      ∀ q, ((∃ l, (Tree.node target).leafAt q = some l) ∨ ∃ f ∈ xs, ∃ v, (Tree.node f).leafAt q = some v) →
        ((∀ l, (Tree.node target).leafAt q = some l → l.length = n)) → i + xs.length ≤ n →
        ∃ l, (Tree.node target').leafAt q = some l ∧ l.length = n ∧
          ∀ j, j < n → l[j]? = if i ≤ j ∧ j < i + xs.length then
              (match rowLeaf xs (j - i) q with
                | some v => some v
                | none => (((Tree.node target).leafAt q).getD (List.replicate n (Leaf.nd [0] [])))[j]?)
            else (((Tree.node target).leafAt q).getD (List.replicate n (Leaf.nd [0] [])))[j]? := by
  induction xs generalizing i target with
  | nil =>
    refine ⟨target, rfl, hs, ?_⟩
    intro q hq hl _
    rcases hq with ⟨l, e⟩ | ⟨f, hf, _⟩
    · refine ⟨l, e, hl l e, ?_⟩
      intro j hj
      rw [if_neg (by simp), e]; rfl
    · cases hf
  | cons x xs ih =>
    obtain ⟨hxs, hxw⟩ := hx x (by simp)
    obtain ⟨t1, e1, s1, c1⟩ := mergeItems_ok n i target t hs x hxs hxw
    obtain ⟨t2, e2, s2, c2⟩ := ih (fun f hf => hx f (by simp [hf])) (i + 1) t1 s1
    refine ⟨t2, ?_, s2, ?_⟩
    · unfold mergeAll; rw [e1]; exact e2
    · intro q hq hl hn
      simp only [List.length_cons] at hn
      have hex : (∃ l, (Tree.node t1).leafAt q = some l) ∨ ∃ f ∈ xs, ∃ v, (Tree.node f).leafAt q = some v := by
        rcases hq with ⟨l, e⟩ | ⟨f, hf, v, hv⟩
        · left
          rw [c1 q]
          cases (Tree.node x).leafAt q with
          | none => exact ⟨l, e⟩
          | some v => exact ⟨_, rfl⟩
        · simp only [List.mem_cons] at hf
          rcases hf with rfl | hf
          · left; rw [c1 q, hv]; exact ⟨_, rfl⟩
          · right; exact ⟨f, hf, v, hv⟩
      have hgetD : (((Tree.node target).leafAt q).getD (List.replicate n (Leaf.nd [0] []))).length = n := by
        cases e : (Tree.node target).leafAt q with
        | none => simp
        | some l => simpa using hl l e
      have hlen1 : ∀ l, (Tree.node t1).leafAt q = some l → l.length = n := by
        intro l hl1
        rw [c1 q] at hl1
        cases e : (Tree.node x).leafAt q with
        | none => rw [e] at hl1; exact hl l hl1
        | some v => rw [e] at hl1; cases hl1; simpa using hgetD
      obtain ⟨l, h1, h2, h3⟩ := c2 q hex hlen1 (by omega)
      refine ⟨l, h1, h2, ?_⟩
      intro j hj
      rw [h3 j hj]
      have hprev : (((Tree.node t1).leafAt q).getD (List.replicate n (Leaf.nd [0] [])))[j]? =
          if j = i then (match (Tree.node x).leafAt q with
            | some v => some v
            | none => (((Tree.node target).leafAt q).getD (List.replicate n (Leaf.nd [0] [])))[j]?)
          else (((Tree.node target).leafAt q).getD (List.replicate n (Leaf.nd [0] [])))[j]? := by
        rw [c1 q]
        cases e : (Tree.node x).leafAt q with
        | none => simp
        | some v =>
          simp only [Option.getD_some]
          by_cases hji : j = i
          · subst hji
            rw [if_pos rfl, List.getElem?_set_self (by rw [hgetD]; exact hj)]
          · rw [if_neg hji, List.getElem?_set_ne (Ne.symm hji)]
      rw [hprev]
      by_cases hji : j = i
      · subst hji
        rw [if_neg (by omega), if_pos rfl, if_pos ⟨Nat.le_refl _, by simp⟩]
        simp [rowLeaf]
      · rw [if_neg hji]
        by_cases hgt : i < j
        · have e : j - i = (j - (i + 1)) + 1 := by omega
          have hr : rowLeaf (x :: xs) (j - i) q = rowLeaf xs (j - (i + 1)) q := by
            rw [e]; simp [rowLeaf]
          rw [hr]
          by_cases hlt : j < i + (xs.length + 1)
          · rw [if_pos ⟨by omega, by omega⟩, if_pos ⟨by omega, by simp; omega⟩]
          · rw [if_neg (by omega), if_neg (by simp; omega)]
        · rw [if_neg (by omega), if_neg (by omega)]

mutual
theorem mergeTree_wf (n index : ℕ) (target target' : Forest (List (Leaf α))) (ht : target.WF) (k : String)
    (x : Tree (Leaf α)) (h : mergeTree n index target k x = .ok target') : target'.WF := by
  match x with
  | .leaf v =>
    unfold mergeTree at h
    split at h
    · cases h; exact Forest.WF_set ht (by unfold Tree.WF; trivial)
    · cases h; exact Forest.WF_set ht (by unfold Tree.WF; trivial)
    · cases h
  | .node f =>
    unfold mergeTree at h
    split at h
    · split at h
      · cases h
      · rename_i g hg
        cases h
        refine Forest.WF_set ht ?_
        unfold Tree.WF
        exact mergeItems_wf n index .nil g (by unfold Forest.WF; trivial) f hg
    · rename_i sub hsub
      split at h
      · cases h
      · rename_i g hg
        cases h
        refine Forest.WF_set ht ?_
        have := Forest.WF_find? ht hsub
        unfold Tree.WF at this ⊢
        exact mergeItems_wf n index sub g this f hg
    · cases h
theorem mergeItems_wf (n index : ℕ) (target target' : Forest (List (Leaf α))) (ht : target.WF)
    (f : Forest (Leaf α)) (h : mergeItems n index target f = .ok target') : target'.WF := by
  match f with
  | .nil => unfold mergeItems at h; cases h; exact ht
  | .cons k x rest =>
    unfold mergeItems at h
    split at h
    · cases h
    · rename_i t1 ht1
      exact mergeItems_wf n index t1 target' (mergeTree_wf n index target t1 ht k x ht1) rest h
end

theorem mergeAll_wf (n i : ℕ) (target target' : Forest (List (Leaf α))) (ht : target.WF)
    (xs : List (Forest (Leaf α))) (h : mergeAll n i target xs = .ok target') : target'.WF := by
  induction xs generalizing i target with
  | nil => unfold mergeAll at h; cases h; exact ht
  | cons x xs ih =>
    unfold mergeAll at h
    split at h
    · cases h
    · rename_i t1 ht1
      exact ih (i + 1) t1 (mergeItems_wf n i target t1 ht x ht1) h

mutual
theorem mergeListsTree_ok (sq : Bool) (x : Tree (List (Leaf α))) (hw : x.WF)
    (h : ∀ q l, x.leafAt q = some l → ∃ v, mergeLeaf sq l = .ok v) :
    ∃ r, mergeListsTree sq x = .ok r ∧ ∀ q, r.leafAt q = match x.leafAt q with
      | some l => (match mergeLeaf sq l with | .ok v => some v | .error _ => none)
      | none => none := by
  match x with
  | .leaf l =>
    obtain ⟨v, hv⟩ := h [] l rfl
    refine ⟨.leaf v, by unfold mergeListsTree; rw [hv], ?_⟩
    intro q
    cases q with
    | nil => simp [Tree.leafAt_nil_leaf, hv]
    | cons k q => simp [Tree.leafAt_cons_leaf]
  | .node f =>
    unfold Tree.WF at hw
    obtain ⟨g, h1, h2⟩ := mergeListsItems_ok sq f hw (by
      intro k x hx q l hl
      exact h (k :: q) l (by rw [Tree.leafAt_cons_node, hx]; exact hl))
    refine ⟨.node g, by unfold mergeListsTree; rw [h1], ?_⟩
    intro q
    cases q with
    | nil => rfl
    | cons k q => exact h2 k q
theorem mergeListsItems_ok (sq : Bool) (f : Forest (List (Leaf α))) (hw : f.WF)
    (h : ∀ k x, f.find? k = some x → ∀ q l, x.leafAt q = some l → ∃ v, mergeLeaf sq l = .ok v) :
    ∃ g, mergeListsItems sq f = .ok g ∧ ∀ k q, (Tree.node g).leafAt (k :: q) =
      match (Tree.node f).leafAt (k :: q) with
      | some l => (match mergeLeaf sq l with | .ok v => some v | .error _ => none)
      | none => none := by
  match f with
  | .nil =>
    exact ⟨.nil, by unfold mergeListsItems; rfl, by
      intro k q; simp [Tree.leafAt_cons_node, Forest.find?]⟩
  | .cons k x rest =>
    unfold Forest.WF at hw
    obtain ⟨x', h1, h2⟩ := mergeListsTree_ok sq x hw.2.1 (h k x (by simp [Forest.find?]))
    obtain ⟨g, h3, h4⟩ := mergeListsItems_ok sq rest hw.2.2 (by
      intro k2 x2 hx2
      have hk : k ≠ k2 := by
        rintro rfl
        exact hw.1 ((Forest.mem_keys_iff rest k).mpr ⟨x2, hx2⟩)
      exact h k2 x2 (by simpa [Forest.find?, hk] using hx2))
    refine ⟨.cons k x' g, by unfold mergeListsItems; rw [h1]; simp [h3], ?_⟩
    intro k2 q
    by_cases hk : k = k2
    · subst hk
      simp only [Tree.leafAt_cons_node, Forest.find?, if_true, Option.bind_some]
      exact h2 q
    · have := h4 k2 q
      simp only [Tree.leafAt_cons_node, Forest.find?, if_neg hk] at this ⊢
      exact this
end

end Extracts
end TFMA
