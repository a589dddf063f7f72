import Verif.Model.Slicer
import Verif.Py.DictLemmas
import Mathlib.Data.List.Sort
import Mathlib.Data.List.Perm.Basic
import Mathlib.Data.List.Dedup
import Mathlib.Logic.Function.Basic

namespace TFMA
namespace Slicer

/-! ### conversions -/

theorem toType_idem (c : NumCodec) (v : Val) : toType c (toType c v) = toType c v := by
  cases v with
  | int i => rfl
  | flt q => rfl
  | str s =>
    simp only [toType]
    by_cases h : '.' ∈ s.toList
    · simp only [h, if_true]
      cases hp : c.parseFloat s with
      | none => simp [h, hp]
      | some q => rfl
    · simp only [h, if_false]
      cases hp : c.parseInt s with
      | none => simp [h, hp]
      | some q => rfl

/-! ### sorting -/

theorem rank_injective : Function.Injective rank := by
  rintro ⟨k, v⟩ ⟨k', v'⟩ h
  cases v <;> cases v' <;> simp [rank] at h <;> simp_all

theorem sortEntries_perm (l : List Entry) : (sortEntries l).Perm l :=
  List.mergeSort_perm _ _

theorem sortEntries_sorted (l : List Entry) :
    (sortEntries l).Pairwise (fun a b => rank a ≤ rank b) := by
  have := List.pairwise_mergeSort (le := fun a b : Entry => decide (rank a ≤ rank b))
    (by intro a b c hab hbc; simp only [decide_eq_true_eq] at *; exact le_trans hab hbc)
    (by intro a b; simp only [Bool.or_eq_true, decide_eq_true_eq]; exact le_total _ _) l
  simpa [sortEntries] using this

theorem sorted_unique {l₁ l₂ : List Entry} (hp : l₁.Perm l₂)
    (h₁ : l₁.Pairwise (fun a b => rank a ≤ rank b)) (h₂ : l₂.Pairwise (fun a b => rank a ≤ rank b)) :
    l₁ = l₂ :=
  hp.eq_of_pairwise (fun _ _ _ _ hab hba => rank_injective (le_antisymm hab hba)) h₁ h₂

theorem sortEntries_eq_iff (l key : List Entry) :
    key = sortEntries l ↔ key.Perm l ∧ key.Pairwise (fun a b => rank a ≤ rank b) := by
  constructor
  · rintro rfl; exact ⟨sortEntries_perm l, sortEntries_sorted l⟩
  · rintro ⟨h1, h2⟩
    exact sorted_unique (h1.trans (sortEntries_perm l).symm) h2 (sortEntries_sorted l)

/-! ### frozenset and spec construction -/

theorem frozensetE_sub (l : List Entry) : ∀ e ∈ frozensetE l, e ∈ l := by
  induction l with
  | nil => simp [frozensetE]
  | cons a l ih =>
    intro e he
    simp only [frozensetE, List.mem_cons, List.mem_filter] at he
    rcases he with rfl | ⟨he, _⟩
    · simp
    · exact List.mem_cons_of_mem _ (ih e he)

theorem frozensetE_canon_mem (l : List Entry) (x) :
    x ∈ (frozensetE l).map canonE ↔ x ∈ l.map canonE := by
  induction l with
  | nil => simp [frozensetE]
  | cons a l ih =>
    simp only [frozensetE, List.map_cons, List.mem_cons]
    rw [← ih]
    simp only [List.mem_map, List.mem_filter, entryEq, Bool.not_eq_true', decide_eq_false_iff_not]
    constructor
    · rintro (h | ⟨e, ⟨he, _⟩, rfl⟩)
      · exact Or.inl h
      · exact Or.inr ⟨e, he, rfl⟩
    · rintro (h | ⟨e, he, rfl⟩)
      · exact Or.inl h
      · by_cases hh : canonE a = canonE e
        · exact Or.inl hh.symm
        · exact Or.inr ⟨e, ⟨he, hh⟩, rfl⟩

theorem frozensetE_canon_nodup (l : List Entry) : ((frozensetE l).map canonE).Nodup := by
  induction l with
  | nil => simp [frozensetE]
  | cons a l ih =>
    simp only [frozensetE, List.map_cons, List.nodup_cons]
    constructor
    · simp only [List.mem_map, List.mem_filter, entryEq, Bool.not_eq_true', decide_eq_false_iff_not]
      rintro ⟨e, ⟨_, hne⟩, h⟩
      exact hne h.symm
    · exact ih.sublist (List.Sublist.map _ List.filter_sublist)

theorem mkSpec_ok {c : NumCodec} {cols : List String} {feats : List Entry} {s : Spec}
    (h : mkSpec c cols feats = .ok s) :
    s.columns = cols.eraseDups ∧
    s.features = frozensetE (feats.map (fun e => (e.1, toType c e.2))) ∧
    ∀ e ∈ s.features, e.1 ∉ s.columns := by
  unfold mkSpec at h
  simp only at h
  split at h
  · cases h
  · rename_i hany
    cases h
    refine ⟨rfl, rfl, ?_⟩
    intro e he hc
    apply hany
    exact List.any_eq_true.mpr ⟨e, he, by simpa using hc⟩

theorem nodup_eraseDups {α : Type} [DecidableEq α] (l : List α) : l.eraseDups.Nodup := by
  induction hn : l.length using Nat.strong_induction_on generalizing l with
  | _ n ih =>
    cases l with
    | nil => simp
    | cons a l =>
      rw [List.eraseDups_cons, List.nodup_cons]
      constructor
      · simp
      · refine ih _ ?_ _ rfl
        subst hn
        exact lt_of_le_of_lt (List.length_filter_le _ _) (by simp)

theorem mkSpec_columns_nodup {c : NumCodec} {cols feats s} (h : mkSpec c cols feats = .ok s) :
    s.columns.Nodup := by
  rw [(mkSpec_ok h).1]; exact nodup_eraseDups _

theorem mkSpec_features_typed {c : NumCodec} {cols feats s} (h : mkSpec c cols feats = .ok s) :
    ∀ e ∈ s.features, toType c e.2 = e.2 := by
  intro e he
  rw [(mkSpec_ok h).2.1] at he
  have := frozensetE_sub _ _ he
  obtain ⟨e', _, rfl⟩ := List.mem_map.mp this
  exact toType_idem _ _

/-! ### is_slice_applicable -/

/-- canonical form of a key entry after `_to_type`. -/
def canonT (c : NumCodec) (e : Entry) : String × CVal := canonE (e.1, toType c e.2)

theorem any_entryEq (e : Entry) (l : List Entry) :
    l.any (fun f => entryEq e f) = true ↔ canonE e ∈ l.map canonE := by
  simp only [List.any_eq_true, entryEq, decide_eq_true_eq, List.mem_map]
  constructor
  · rintro ⟨x, hx, h⟩; exact ⟨x, hx, h.symm⟩
  · rintro ⟨x, hx, h⟩; exact ⟨x, hx, h.symm⟩

theorem map_eraseP_entryEq (e : Entry) (l : List Entry) :
    (l.eraseP (fun f => entryEq e f)).map canonE = (l.map canonE).erase (canonE e) := by
  induction l with
  | nil => simp
  | cons a l ih =>
    by_cases h : canonE e = canonE a
    · simp [entryEq, h]
    · have h' : ¬ canonE a = canonE e := fun x => h x.symm
      simp [entryEq, h, h']
      simpa [entryEq] using ih

theorem applicableLoop_iff (c : NumCodec) (key : SliceKey) (cols : List String) (feats : List Entry)
    (hc : cols.Nodup) :
    applicableLoop c key cols feats = true ↔
      ∃ g : String → CVal,
        (key.map (canonT c)).Perm (feats.map canonE ++ cols.map (fun k => (k, g k))) := by
  induction key generalizing cols feats with
  | nil =>
    simp only [applicableLoop, Bool.and_eq_true, List.isEmpty_iff, List.map_nil]
    constructor
    · rintro ⟨rfl, rfl⟩; exact ⟨fun _ => .txt "", by simp⟩
    · rintro ⟨g, h⟩
      have := h.length_eq
      simp at this
      exact ⟨List.length_eq_zero_iff.mp (by omega), List.length_eq_zero_iff.mp (by omega)⟩
  | cons kv rest ih =>
    obtain ⟨k, v⟩ := kv
    simp only [applicableLoop, List.map_cons]
    have hce : canonT c (k, v) = canonE (k, toType c v) := rfl
    by_cases hF : canonE (k, toType c v) ∈ feats.map canonE
    · have h1 := (any_entryEq (k, toType c v) feats).mpr hF
      rw [if_pos h1, ih _ _ hc]
      refine exists_congr fun g => ?_
      rw [map_eraseP_entryEq, hce]
      constructor
      · intro h
        refine (List.Perm.cons _ h).trans ?_
        rw [← List.cons_append]
        exact List.Perm.append_right _ (List.perm_cons_erase hF).symm
      · intro h
        have := h.erase (canonE (k, toType c v))
        rw [List.erase_cons_head, List.erase_append_left _ hF] at this
        exact this
    · have h1 : ¬ (feats.any (fun f => entryEq (k, toType c v) f) = true) :=
        fun h => hF ((any_entryEq _ _).mp h)
      rw [if_neg h1]
      by_cases hk : k ∈ cols
      · rw [if_pos hk, ih _ _ (hc.erase k)]
        have hk' : k ∉ cols.erase k := by
          intro hm; exact (List.Nodup.mem_erase_iff hc).mp hm |>.1 rfl
        constructor
        · rintro ⟨g, h⟩
          refine ⟨Function.update g k (canonE (k, toType c v)).2, ?_⟩
          have e1 : (cols.map (fun x => (x, Function.update g k (canonE (k, toType c v)).2 x))).Perm
              (canonE (k, toType c v) :: (cols.erase k).map (fun x => (x, g x))) := by
            refine ((List.perm_cons_erase hk).map _).trans ?_
            rw [List.map_cons]
            have : (k, Function.update g k (canonE (k, toType c v)).2 k) = canonE (k, toType c v) := by
              simp [canonE]
            rw [this]
            refine List.Perm.cons _ ?_
            rw [List.map_congr_left]
            intro x hx
            have : x ≠ k := fun e => hk' (e ▸ hx)
            simp [Function.update_of_ne this]
          refine List.Perm.trans ?_ (List.Perm.append_left _ e1).symm
          rw [hce]
          exact (List.Perm.cons _ h).trans List.perm_middle.symm
        · rintro ⟨g, h⟩
          refine ⟨g, ?_⟩
          have hmem : canonE (k, toType c v) ∈ feats.map canonE ++ cols.map (fun k => (k, g k)) :=
            h.subset (by simp [hce])
          have hg : canonE (k, toType c v) = (k, g k) := by
            rcases List.mem_append.mp hmem with hm | hm
            · exact absurd hm hF
            · obtain ⟨x, _, hx⟩ := List.mem_map.mp hm
              have : x = k := congrArg Prod.fst hx
              rw [← hx, this]
          have := h.erase (canonE (k, toType c v))
          rw [hce, List.erase_cons_head, List.erase_append_right _ hF] at this
          refine this.trans (List.Perm.append_left _ ?_)
          have e2 : (cols.map (fun k => (k, g k))).Perm ((k, g k) :: (cols.erase k).map (fun k => (k, g k))) := by
            have := (List.perm_cons_erase hk).map (fun k => (k, g k))
            simpa using this
          have := e2.erase (canonE (k, toType c v))
          rw [hg, List.erase_cons_head] at this
          rw [hg]
          exact this
      · rw [if_neg hk]
        simp only [Bool.false_eq_true, false_iff, not_exists]
        intro g h
        have hmem : canonE (k, toType c v) ∈ feats.map canonE ++ cols.map (fun k => (k, g k)) :=
          h.subset (by simp [hce])
        rcases List.mem_append.mp hmem with hm | hm
        · exact hF hm
        · obtain ⟨x, hx, hxe⟩ := List.mem_map.mp hm
          have : x = k := congrArg Prod.fst hxe
          exact hk (this ▸ hx)

end Slicer
end TFMA
