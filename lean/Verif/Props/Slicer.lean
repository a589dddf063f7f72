import Verif.Lemmas.SlicerGen
import Mathlib.Data.List.Nodup
import Mathlib.Algebra.BigOperators.Group.List.Basic

/-!
# C01 – C04: slice generation, applicability, fan-out
-/

namespace TFMA
namespace Slicer

/-- A codec with which the examples below can be evaluated: it knows the numbers 5 and 1.5. -/
def demoCodec : NumCodec where
  parseInt := fun s => if s = "5" then some 5 else none
  parseFloat := fun s => if s = "1.5" then some (3 / 2) else none
  showInt := fun i => if i = 5 then "5" else "?"
  showFloat := fun q => if q = 3 / 2 then "1.5" else "?"

/-- **C01** (soundness and completeness of generation).  Whenever generation succeeds, the generated keys
are exactly the keys the spec describes for the example. -/
theorem C01_generate_exact (c : NumCodec) (cols : List String) (feats : List Entry) (s : Spec)
    (hs : mkSpec c cols feats = .ok s) (a : Accessor) (ks : List SliceKey)
    (hg : s.generateSlices c a = .ok ks) (key : SliceKey) :
    key ∈ ks ↔ Describes c s.columns s.features a key := by
  have hn := mkSpec_columns_nodup hs
  unfold Spec.generateSlices at hg
  rcases checkFeatures_spec c a s.features with ⟨h1, h2⟩ | ⟨h1, h2⟩
  · rw [h1] at hg
    simp only at hg
    split at hg
    · cases hg
    · rename_i hcm
      cases hg
      obtain ⟨col, hc, hno⟩ := columnMatches_ok hcm
      simp only [List.not_mem_nil, false_iff]
      rintro ⟨_, choice, hch, _⟩
      obtain ⟨r, hr, _⟩ := hch col hc
      exact hno r hr
    · rename_i ms hcm
      cases hg
      have hms := columnMatches_ok hcm
      simp only [List.mem_map]
      constructor
      · rintro ⟨part, hp, rfl⟩
        obtain ⟨choice, h3, rfl⟩ := (product_columns a s.columns hn ms hms part).mp hp
        refine ⟨h2, choice, h3, ?_, sortEntries_sorted _⟩
        exact (sortEntries_perm _).trans ((sortEntries_perm s.features).append_right _)
      · rintro ⟨_, choice, h3, h4, h5⟩
        refine ⟨_, (product_columns a s.columns hn ms hms _).mpr ⟨choice, h3, rfl⟩, ?_⟩
        exact ((sortEntries_eq_iff _ key).mpr
          ⟨h4.trans ((sortEntries_perm s.features).symm.append_right _), h5⟩).symm
  · rw [h1] at hg
    cases hg
    simp only [List.not_mem_nil, false_iff]
    rintro ⟨h3, _⟩
    exact h2 h3

/-- **C01** (when generation fails).  The only possible error is a ValueError, and it happens only when a
column holds bytes that are not UTF-8; in particular a missing feature is never an error. -/
theorem C01_generate_error (c : NumCodec) (s : Spec) (a : Accessor) (e : Err)
    (hg : s.generateSlices c a = .error e) :
    e = .valueError ∧ ∃ col ∈ s.columns, ∃ b, Observed a col (.bytes b) ∧ ¬ b.IsValidUTF8 := by
  unfold Spec.generateSlices at hg
  rcases checkFeatures_spec c a s.features with ⟨h1, _⟩ | ⟨h1, _⟩
  · rw [h1] at hg
    simp only at hg
    split at hg
    · rename_i e' he
      cases hg
      exact columnMatches_error he
    · cases hg
    · cases hg
  · rw [h1] at hg; cases hg

/-- How the value of a pair of a spec is read, independently of the code: numbers stay as they are; a text that
contains a full stop is read as a float and any other text as an int, and stays text if it does not read as one. -/
inductive Denotes (c : NumCodec) : Val → Val → Prop where
  | int (i : Int) : Denotes c (.int i) (.int i)
  | float (q : ℚ) : Denotes c (.flt q) (.flt q)
  | textFloat {s : String} {q : ℚ} : '.' ∈ s.toList → c.parseFloat s = some q → Denotes c (.str s) (.flt q)
  | textInt {s : String} {i : Int} : '.' ∉ s.toList → c.parseInt s = some i → Denotes c (.str s) (.int i)
  | noFloat {s : String} : '.' ∈ s.toList → c.parseFloat s = none → Denotes c (.str s) (.str s)
  | noInt {s : String} : '.' ∉ s.toList → c.parseInt s = none → Denotes c (.str s) (.str s)

/-- **C01** (values of pairs).  The conversion applied to the values of a spec is exactly `Denotes`. -/
theorem C01_value_reading (c : NumCodec) (v w : Val) : toType c v = w ↔ Denotes c v w := by
  constructor
  · rintro rfl
    cases v with
    | int i => exact .int i
    | flt q => exact .float q
    | str s =>
      unfold toType
      by_cases hs : '.' ∈ s.toList
      · simp only [hs, if_true]
        cases e : c.parseFloat s with
        | none => exact .noFloat hs e
        | some q => exact .textFloat hs e
      · simp only [hs, if_false]
        cases e : c.parseInt s with
        | none => exact .noInt hs e
        | some q => exact .textInt hs e
  · intro h
    cases h with
    | int i => rfl
    | float q => rfl
    | textFloat h1 h2 => simp [toType, h1, h2]
    | textInt h1 h2 => simp [toType, h1, h2]
    | noFloat h1 h2 => simp [toType, h1, h2]
    | noInt h1 h2 => simp [toType, h1, h2]

/-- **C01** (what the spec consists of).  An accepted spec has each given column once, each given pair
(with its value converted to a number where it reads as one) up to python equality once, and no column
is also a fixed feature; specs in which a column is also a fixed feature are rejected. -/
theorem C01_spec_contents (c : NumCodec) (cols : List String) (feats : List Entry) :
    (∀ s, mkSpec c cols feats = .ok s →
      (∀ k, k ∈ s.columns ↔ k ∈ cols) ∧ s.columns.Nodup ∧
      (∀ e ∈ s.features, ∃ e' ∈ feats, e = (e'.1, toType c e'.2)) ∧
      (∀ e' ∈ feats, ∃ e ∈ s.features, e.1 = e'.1 ∧ e.2.canon = (toType c e'.2).canon) ∧
      s.features.Pairwise (fun e f => ¬ (e.1 = f.1 ∧ e.2.canon = f.2.canon))) ∧
    ((∃ s, mkSpec c cols feats = .ok s) ↔ ∀ e ∈ feats, e.1 ∉ cols) := by
  have key : ∀ e' ∈ feats, ∃ e ∈ frozensetE (feats.map (fun e => (e.1, toType c e.2))),
      canonE e = canonE (e'.1, toType c e'.2) := by
    intro e' he'
    have := (frozensetE_canon_mem (feats.map (fun e => (e.1, toType c e.2)))
      (canonE (e'.1, toType c e'.2))).mpr
      (List.mem_map.mpr ⟨_, List.mem_map.mpr ⟨e', he', rfl⟩, rfl⟩)
    obtain ⟨e, he, h⟩ := List.mem_map.mp this
    exact ⟨e, he, h⟩
  constructor
  · intro s hs
    obtain ⟨h1, h2, h3⟩ := mkSpec_ok hs
    refine ⟨?_, mkSpec_columns_nodup hs, ?_, ?_, ?_⟩
    · intro k; rw [h1, List.mem_eraseDups]
    · intro e he
      rw [h2] at he
      obtain ⟨e', he', h⟩ := List.mem_map.mp (frozensetE_sub _ _ he)
      exact ⟨e', he', h.symm⟩
    · intro e' he'
      obtain ⟨e, he, h⟩ := key e' he'
      rw [h2]
      refine ⟨e, he, ?_⟩
      simpa [canonE] using h
    · rw [h2]
      have := frozensetE_canon_nodup (feats.map (fun e => (e.1, toType c e.2)))
      rw [List.Nodup, List.pairwise_map] at this
      refine this.imp ?_
      rintro ⟨a, b⟩ ⟨a', b'⟩ h ⟨h1, h2⟩
      apply h
      simp only at h1 h2
      simp [canonE, h1, h2]
  · constructor
    · rintro ⟨s, hs⟩ e' he' hmem
      obtain ⟨h1, h2, h3⟩ := mkSpec_ok hs
      obtain ⟨e, he, h⟩ := key e' he'
      rw [← h2] at he
      apply h3 e he
      rw [h1, List.mem_eraseDups]
      have : e.1 = e'.1 := by
        have := congrArg Prod.fst h
        simpa [canonE] using this
      rw [this]; exact hmem
    · intro h
      refine ⟨⟨cols.eraseDups, frozensetE (feats.map (fun e => (e.1, toType c e.2)))⟩, ?_⟩
      unfold mkSpec
      simp only
      rw [if_neg]
      simp only [List.any_eq_true, decide_eq_true_eq, not_exists, not_and, List.mem_eraseDups]
      intro e he
      obtain ⟨e', he', h'⟩ := List.mem_map.mp (frozensetE_sub _ _ he)
      rw [← h']; exact h e' he'

/-- **C01** (overall spec).  The overall spec generates the empty slice key exactly once for any
example. -/
theorem C01_overall (c : NumCodec) (s : Spec) (hs : s.isOverall = true) (a : Accessor) :
    s.generateSlices c a = .ok [[]] := by
  simp only [Spec.isOverall, Bool.and_eq_true, List.isEmpty_iff] at hs
  unfold Spec.generateSlices
  rw [hs.1, hs.2]
  simp [checkFeatures, columnMatches, product, sortEntries]

/-- **C02**: a generated key is applicable to its spec. -/
theorem C02_generated_applicable (c : NumCodec) (cols : List String) (feats : List Entry) (s : Spec)
    (hs : mkSpec c cols feats = .ok s) (a : Accessor) (ks : List SliceKey)
    (hg : s.generateSlices c a = .ok ks) (key : SliceKey) (hk : key ∈ ks) :
    s.isSliceApplicable c key = true := by
  obtain ⟨_, choice, _, hp, _⟩ := (C01_generate_exact c cols feats s hs a ks hg key).mp hk
  refine (applicableLoop_iff c key s.columns s.features (mkSpec_columns_nodup hs)).mpr
    ⟨fun k => (toType c (choice k)).canon, ?_⟩
  have := hp.map (canonT c)
  rw [List.map_append, List.map_map] at this
  have h1 : s.features.map (canonT c) = s.features.map canonE := by
    refine List.map_congr_left fun e he => ?_
    simp [canonT, canonE, mkSpec_features_typed hs e he]
  rw [h1] at this
  exact this

/-- **C03** (characterisation).  A key is applicable exactly when its entries, with values converted to
numbers where they read as numbers, are the fixed pairs of the spec (each once) together with one entry
for each column. -/
theorem C03_applicable_iff (c : NumCodec) (cols : List String) (feats : List Entry) (s : Spec)
    (hs : mkSpec c cols feats = .ok s) (key : SliceKey) :
    s.isSliceApplicable c key = true ↔
      ∃ choice : String → CVal,
        (key.map (fun e => (e.1, (toType c e.2).canon))).Perm
          (s.features.map (fun e => (e.1, e.2.canon)) ++ s.columns.map (fun k => (k, choice k))) :=
  applicableLoop_iff c key s.columns s.features (mkSpec_columns_nodup hs)

/-- **C03** (order independence). -/
theorem C03_applicable_perm (c : NumCodec) (cols : List String) (feats : List Entry) (s : Spec)
    (hs : mkSpec c cols feats = .ok s) (key key' : SliceKey) (hp : key.Perm key') :
    s.isSliceApplicable c key = s.isSliceApplicable c key' := by
  rw [Bool.eq_iff_iff, C03_applicable_iff c cols feats s hs, C03_applicable_iff c cols feats s hs]
  exact exists_congr fun g =>
    ⟨fun h => (hp.symm.map _).trans h, fun h => (hp.map _).trans h⟩

/-- **C03** (overall spec). -/
theorem C03_overall_only_empty (c : NumCodec) (s : Spec) (hs : s.isOverall = true) (key : SliceKey) :
    s.isSliceApplicable c key = true ↔ key = [] := by
  simp only [Spec.isOverall, Bool.and_eq_true, List.isEmpty_iff] at hs
  unfold Spec.isSliceApplicable
  rw [hs.1, hs.2]
  cases key with
  | nil => simp [applicableLoop]
  | cons e rest => simp [applicableLoop]

/-- **C03** (independence of the order in which columns and features were configured): two specs built
from permuted arguments accept the same keys. -/
theorem C03_spec_order_irrelevant (c : NumCodec) (cols cols' : List String) (feats feats' : List Entry)
    (s s' : Spec) (hs : mkSpec c cols feats = .ok s) (hs' : mkSpec c cols' feats' = .ok s')
    (hc : cols.Perm cols') (hf : feats.Perm feats') (key : SliceKey) :
    s.isSliceApplicable c key = s'.isSliceApplicable c key := by
  have e1 : s.columns.Perm s'.columns := by
    rw [List.perm_ext_iff_of_nodup (mkSpec_columns_nodup hs) (mkSpec_columns_nodup hs')]
    intro k
    rw [(mkSpec_ok hs).1, (mkSpec_ok hs').1, List.mem_eraseDups, List.mem_eraseDups, hc.mem_iff]
  have e2 : (s.features.map canonE).Perm (s'.features.map canonE) := by
    rw [(mkSpec_ok hs).2.1, (mkSpec_ok hs').2.1,
      List.perm_ext_iff_of_nodup (frozensetE_canon_nodup _) (frozensetE_canon_nodup _)]
    intro x
    rw [frozensetE_canon_mem, frozensetE_canon_mem, ((hf.map _).map canonE).mem_iff]
  rw [Bool.eq_iff_iff, C03_applicable_iff c cols feats s hs, C03_applicable_iff c cols' feats' s' hs']
  refine exists_congr fun g => ?_
  have := e2.append (e1.map (fun k => (k, g k)))
  exact ⟨fun h => h.trans this, fun h => h.trans this.symm⟩

/-! ### C04 -/

/-- `k` and `k'` are the same slice key for python. -/
def SameKey (k k' : SliceKey) : Prop := k.map canonE = k'.map canonE

instance (k k' : SliceKey) : Decidable (SameKey k k') := by unfold SameKey; infer_instance

theorem keySet_count (ks : List SliceKey) (k : SliceKey) :
    (keySet ks).countP (fun k' => decide (SameKey k k')) =
      if ∃ k' ∈ ks, SameKey k k' then 1 else 0 := by
  induction ks with
  | nil => simp [keySet]
  | cons a ks ih =>
    simp only [keySet, List.countP_cons, List.countP_filter]
    by_cases h : SameKey k a
    · have h0 : (keySet ks).countP (fun k' => decide (SameKey k k') && !keyEq a k') = 0 := by
        rw [List.countP_eq_zero]
        intro k' _
        simp only [Bool.and_eq_true, decide_eq_true_eq, Bool.not_eq_true', keyEq,
          decide_eq_false_iff_not, not_and, not_not]
        intro h'
        exact h.symm.trans h'
      rw [h0]
      simp [h]
    · have h1 : (keySet ks).countP (fun k' => decide (SameKey k k') && !keyEq a k') =
          (keySet ks).countP (fun k' => decide (SameKey k k')) := by
        refine List.countP_congr fun k' _ => ?_
        simp only [Bool.and_eq_true, decide_eq_true_eq, Bool.not_eq_true', keyEq,
          decide_eq_false_iff_not, and_iff_left_iff_imp]
        intro h' h2
        exact h (h'.trans h2.symm)
      rw [h1, ih]
      simp [h]

theorem keySet_sub (ks : List SliceKey) : ∀ k ∈ keySet ks, k ∈ ks := by
  induction ks with
  | nil => simp [keySet]
  | cons a ks ih =>
    intro k hk
    simp only [keySet, List.mem_cons, List.mem_filter] at hk
    rcases hk with rfl | ⟨hk, _⟩
    · simp
    · exact List.mem_cons_of_mem _ (ih k hk)

theorem keySet_same (ks : List SliceKey) (k : SliceKey) :
    (∃ k' ∈ keySet ks, SameKey k k') ↔ ∃ k' ∈ ks, SameKey k k' := by
  have := keySet_count ks k
  constructor
  · rintro ⟨k', h, h2⟩; exact ⟨k', keySet_sub _ _ h, h2⟩
  · intro h
    rw [if_pos h] at this
    have hp : 0 < (keySet ks).countP (fun k' => decide (SameKey k k')) := by omega
    obtain ⟨k', h1, h2⟩ := List.countP_pos_iff.mp hp
    exact ⟨k', h1, by simpa using h2⟩

theorem getSlices_mem (c : NumCodec) (a : Accessor) (specs : List Spec) (ks : List SliceKey)
    (h : getSlices c a specs = .ok ks) (k : SliceKey) :
    k ∈ ks ↔ ∃ s ∈ specs, ∃ ks', s.generateSlices c a = .ok ks' ∧ k ∈ ks' := by
  induction specs generalizing ks with
  | nil => simp [getSlices] at h; subst h; simp
  | cons s ss ih =>
    unfold getSlices at h
    split at h
    · cases h
    · rename_i ks1 h1
      split at h
      · cases h
      · rename_i rest hr
        cases h
        rw [List.mem_append, ih rest hr]
        simp [h1]

/-- The example belongs to slice `k`: one of the specs describes the key for it, or the key was already
attached to the example. -/
def Belongs (c : NumCodec) (specs : List Spec) (existing : List SliceKey) (a : Accessor)
    (k : SliceKey) : Prop :=
  (∃ s ∈ specs, ∃ k', Describes c s.columns s.features a k' ∧ SameKey k k') ∨
  (∃ k' ∈ existing, SameKey k k')

/-- Specs that come from the constructor. -/
def Constructed (c : NumCodec) (specs : List Spec) : Prop :=
  ∀ s ∈ specs, ∃ cols feats, mkSpec c cols feats = .ok s

theorem getSlices_ok_all {c : NumCodec} {a : Accessor} {specs : List Spec} {ks : List SliceKey}
    (h : getSlices c a specs = .ok ks) : ∀ s ∈ specs, ∃ ks', s.generateSlices c a = .ok ks' := by
  induction specs generalizing ks with
  | nil => simp
  | cons s ss ih =>
    unfold getSlices at h
    split at h
    · cases h
    · rename_i ks1 h1
      split at h
      · cases h
      · rename_i rest hr
        intro s' hs'
        rcases List.mem_cons.mp hs' with rfl | hs'
        · exact ⟨_, h1⟩
        · exact ih hr s' hs'

open Classical in
/-- **C04** (one example): it is emitted exactly once under a slice key it belongs to and not at all under
any other key. -/
theorem C04_once_per_slice {ε : Type} (c : NumCodec) (specs : List Spec) (hs : Constructed c specs)
    (existing : List SliceKey) (a : Accessor) (ex : ε) (out : List (SliceKey × ε))
    (h : fanoutOne c specs existing a ex = .ok out) (k : SliceKey) :
    out.countP (fun p => decide (SameKey k p.1)) = if Belongs c specs existing a k then 1 else 0 := by
  unfold fanoutOne at h
  split at h
  · cases h
  · rename_i ks hk
    cases h
    rw [List.countP_map]
    have : ((fun p : SliceKey × ε => decide (SameKey k p.1)) ∘ fun k => (k, ex)) =
        fun k' => decide (SameKey k k') := rfl
    rw [this, keySet_count]
    have e : (∃ k' ∈ keySet (ks ++ existing), SameKey k k') ↔ Belongs c specs existing a k := by
      rw [keySet_same]
      simp only [List.mem_append, getSlices_mem c a specs ks hk, Belongs]
      constructor
      · rintro ⟨k', (⟨s, hsm, ks', hg, hk'⟩ | hk'), hsame⟩
        · obtain ⟨cols, feats, hmk⟩ := hs s hsm
          exact Or.inl ⟨s, hsm, k', (C01_generate_exact c cols feats s hmk a ks' hg k').mp hk', hsame⟩
        · exact Or.inr ⟨k', hk', hsame⟩
      · rintro (⟨s, hsm, k', hd, hsame⟩ | ⟨k', hk', hsame⟩)
        · obtain ⟨cols, feats, hmk⟩ := hs s hsm
          obtain ⟨ks', hg⟩ := getSlices_ok_all hk s hsm
          exact ⟨k', Or.inl ⟨s, hsm, ks', hg, (C01_generate_exact c cols feats s hmk a ks' hg k').mpr hd⟩,
            hsame⟩
        · exact ⟨k', Or.inr hk', hsame⟩
    by_cases hb : Belongs c specs existing a k
    · rw [if_pos hb, if_pos (e.mpr hb)]
    · rw [if_neg hb, if_neg (fun h => hb (e.mp h))]

open Classical in
/-- **C04** (a whole collection): the number of elements under a slice key is the number of examples that
belong to the slice. -/
theorem C04_slice_size {ε : Type} (c : NumCodec) (specs : List Spec) (hs : Constructed c specs)
    (exs : List (List SliceKey × Accessor × ε)) (out : List (SliceKey × ε))
    (h : fanout c specs exs = .ok out) (k : SliceKey) :
    out.countP (fun p => decide (SameKey k p.1)) =
      exs.countP (fun x => decide (Belongs c specs x.1 x.2.1 k)) := by
  induction exs generalizing out with
  | nil => simp [fanout] at h; subst h; rfl
  | cons x exs ih =>
    obtain ⟨existing, a, ex⟩ := x
    unfold fanout at h
    split at h
    · cases h
    · rename_i ps hps
      split at h
      · cases h
      · rename_i qs hqs
        cases h
        rw [List.countP_append, ih qs hqs, C04_once_per_slice c specs hs existing a ex ps hps k,
          List.countP_cons]
        simp only [decide_eq_true_eq]
        exact Nat.add_comm _ _

/-! ### concrete cases -/

/-- column gender with two values, fixed age 5 stored as text, default dictionary unused. -/
def demoAccessor : Accessor :=
  ⟨[[("gender", some [.bytes "f".toByteArray, .str "m"]), ("age", some [.str "5"])], [("age", none)]],
   [("gender", some [.str "x"])]⟩

example : mkSpec demoCodec ["gender", "gender"] [("age", .str "5")] =
    .ok ⟨["gender"], [("age", .int 5)]⟩ := by
  simp [mkSpec, frozensetE, toType, demoCodec, List.eraseDups_cons]

example : Describes demoCodec ["gender"] [("age", .int 5)] demoAccessor
    [("age", .int 5), ("gender", .str "f")] := by
  refine ⟨?_, fun _ => .str "f", ?_, List.Perm.refl _, ?_⟩
  · intro e he
    rw [List.mem_singleton] at he; subst he
    refine ⟨.str "5", Or.inl ⟨_, List.mem_cons_self, _, rfl, by simp⟩, ?_⟩
    exact Meets.intText (c := demoCodec) 5
  · intro col hc
    rw [List.mem_singleton] at hc; subst hc
    exact ⟨.bytes "f".toByteArray, Or.inl ⟨_, List.mem_cons_self, _, rfl, by simp⟩, Reads.bytes _⟩
  · refine List.pairwise_pair.mpr (le_of_lt ?_)
    rw [rank, rank, Prod.Lex.toLex_lt_toLex]
    exact Or.inl (by decide +kernel)

example : (Spec.isSliceApplicable demoCodec ⟨["gender"], [("age", .int 5)]⟩
    [("gender", .str "f"), ("age", .str "5")]) = true := by decide +kernel

example : (Spec.isSliceApplicable demoCodec ⟨["gender"], [("age", .int 5)]⟩
    [("gender", .str "f"), ("gender", .str "m"), ("age", .int 5)]) = false := by decide +kernel

/-- two specs generating the same key: the example still counts once. -/
example : (fanoutOne demoCodec [⟨[], []⟩, ⟨[], []⟩] [[]] ⟨[], []⟩ (7 : ℕ)) = .ok [([], 7)] := by
  simp [fanoutOne, getSlices, Spec.generateSlices, checkFeatures, columnMatches, product, sortEntries,
    keySet, keyEq]

end Slicer
end TFMA
