import Verif.Model.Loading
import Verif.Props.Slicer
import Verif.Props.SliceKeys

/-!
# C50: loading results filtered by slice
-/

namespace TFMA
namespace Slicer

/-- A slice key belongs to a spec: its entries, numbers in text read as numbers, are the fixed pairs of the spec together with
one entry for each column. -/
def OfSpec (c : NumCodec) (key : SliceKey) (s : Spec) : Prop :=
  ∃ choice : String → CVal, (key.map (fun e => (e.1, (toType c e.2).canon))).Perm
    (s.features.map (fun e => (e.1, e.2.canon)) ++ s.columns.map (fun k => (k, choice k)))

/-- The result is for a slice that belongs to one of the specs. -/
def Requested (c : NumCodec) (specs : List Spec) : ResultKey → Prop
  | .slice k => ∃ s ∈ specs, OfSpec c k s
  | .cross _ _ => False

/-- The key is for one slice and can be stored without loss. -/
def PlainKey : ResultKey → Prop
  | .slice k => ∀ e ∈ k, Storable e.2
  | .cross _ _ => False

private theorem matches_iff (c : NumCodec) (specs : List Spec) (hs : Constructed c specs) (k : SliceKey) :
    sliceKeyMatches c k specs = true ↔ ∃ s ∈ specs, OfSpec c k s := by
  unfold sliceKeyMatches
  rw [List.any_eq_true]
  refine exists_congr fun s => and_congr_right fun hm => ?_
  obtain ⟨cols, feats, h⟩ := hs s hm
  exact C03_applicable_iff c cols feats s h k

open Classical in
/-- C50, the part that holds: storing results for single slices and loading them with at least one spec gives exactly the
records of the results whose slice belongs to one of the specs, in order.
Missing: comparisons of slices (`C50_cross_partial`, `C50_cross_as_overall`) and floats that are rounded when stored
(`C50_rounded_lost`). -/
theorem C50_load_partial {V : Type} (c : NumCodec) (R : SingleRounding) (specs : List Spec) (hs : Constructed c specs)
    (hne : specs ≠ []) (results : List (ResultKey × V)) (h : ∀ r ∈ results, PlainKey r.1) :
    ∃ stored, store R results = .ok stored ∧ stored.map Stored.value = results.map Prod.snd ∧
      ∃ loaded, load c specs stored = .ok loaded ∧
        store R (results.filter fun r => decide (Requested c specs r.1)) = .ok loaded := by
  induction results with
  | nil => exact ⟨[], rfl, rfl, [], rfl, rfl⟩
  | cons r results ih =>
    obtain ⟨stored, h1, h2, loaded, h3, h4⟩ := ih fun r hr => h r (List.mem_cons_of_mem _ hr)
    obtain ⟨key, v⟩ := r
    cases key with
    | cross b d => exact (h _ List.mem_cons_self).elim
    | slice k =>
      have hk : ∀ e ∈ k, Storable e.2 := h _ List.mem_cons_self
      obtain ⟨p, hp, hd⟩ := C07_roundtrip_partial R k hk
      have hst : storeKey R (.slice k) = .ok (.slice p) := by simp [storeKey, hp, Except.map]
      have hcons : ∀ (l : List (ResultKey × V)) (s : List (Stored V)), store R l = .ok s →
          store R ((.slice k, v) :: l) = .ok (⟨.slice p, v⟩ :: s) := by
        intro l s hl
        unfold store at hl ⊢
        simp only [mapE, hst, Except.map]
        simp only [Except.map] at hl
        rw [hl]
      refine ⟨⟨.slice p, v⟩ :: stored, hcons _ _ h1, by simp [h2], ?_⟩
      have hm := matches_iff c specs hs k
      have hle : specs.isEmpty = false := by cases specs with
        | nil => exact absurd rfl hne
        | cons _ _ => rfl
      by_cases hq : ∃ s ∈ specs, OfSpec c k s
      · refine ⟨⟨.slice p, v⟩ :: loaded, ?_, ?_⟩
        · simp [load, hle, StoredKey.sliceKey, hd, hm.2 hq, h3, Except.map]
        · have hd' : decide (Requested c specs (.slice k)) = true := decide_eq_true (p := Requested c specs (.slice k)) hq
          rw [List.filter_cons_of_pos (p := fun r : ResultKey × V => decide (Requested c specs r.1)) hd']
          exact hcons _ _ h4
      · refine ⟨loaded, ?_, ?_⟩
        · have : sliceKeyMatches c k specs = false := by
            rw [Bool.eq_false_iff]; exact fun hh => hq (hm.1 hh)
          simp [load, hle, StoredKey.sliceKey, hd, this, h3]
        · rw [List.filter_cons_of_neg (by
            rw [decide_eq_false (p := Requested c specs (.slice k)) hq]; exact Bool.false_ne_true)]
          exact h4

/-- C50: without specs all records are returned, whatever they are. -/
theorem C50_no_specs {V : Type} (c : NumCodec) (stored : List (Stored V)) : load c [] stored = .ok stored := by
  induction stored with
  | nil => rfl
  | cons r l ih => simp [load, ih, Except.map]

/-- C50: loading never invents or reorders records, and the records of comparisons are returned all or none: all if one of the
specs is the overall spec. -/
theorem C50_cross_partial {V : Type} (c : NumCodec) (specs : List Spec) (hs : Constructed c specs) (hne : specs ≠ [])
    (stored loaded : List (Stored V)) (h : load c specs stored = .ok loaded) :
    loaded.Sublist stored ∧
      (∀ r ∈ stored, ∀ p, r.key = .cross p → (∃ s ∈ specs, s.isOverall = true) → r ∈ loaded) ∧
      (∀ r ∈ loaded, ∀ p, r.key = .cross p → ∃ s ∈ specs, s.isOverall = true) := by
  have hover : sliceKeyMatches c [] specs = true ↔ ∃ s ∈ specs, s.isOverall = true := by
    rw [matches_iff c specs hs]
    refine exists_congr fun s => and_congr_right fun hm => ?_
    constructor
    · rintro ⟨g, hg⟩
      have := hg.length_eq
      simp only [List.map_nil, List.length_nil, List.length_append, List.length_map] at this
      unfold Spec.isOverall
      have h1 : s.features = [] := List.length_eq_zero_iff.1 (by omega)
      have h2 : s.columns = [] := List.length_eq_zero_iff.1 (by omega)
      simp [h1, h2]
    · intro ho
      simp only [Spec.isOverall, Bool.and_eq_true, List.isEmpty_iff] at ho
      exact ⟨fun _ => .txt "", by simp [ho.1, ho.2]⟩
  have hle : specs.isEmpty = false := by cases specs with
    | nil => exact absurd rfl hne
    | cons _ _ => rfl
  induction stored generalizing loaded with
  | nil =>
    cases h
    exact ⟨List.Sublist.refl _, by simp, by simp⟩
  | cons r stored ih =>
    simp only [load, hle, Bool.false_eq_true, if_false] at h
    cases hd : deserializeKey r.key.sliceKey with
    | error e => rw [hd] at h; cases h
    | ok k =>
      rw [hd] at h
      simp only at h
      have hcross : ∀ p, r.key = .cross p → k = [] := by
        intro p hp
        rw [hp] at hd
        cases hd; rfl
      by_cases hm : sliceKeyMatches c k specs = true
      · rw [if_neg (by simp [hm])] at h
        cases hl : load c specs stored with
        | error e => rw [hl] at h; cases h
        | ok rest =>
          rw [hl] at h
          cases h
          obtain ⟨i1, i2, i3⟩ := ih rest hl
          refine ⟨i1.cons_cons r, ?_, ?_⟩
          · intro r' hr' p hp ho
            rcases List.mem_cons.1 hr' with rfl | hr'
            · exact List.mem_cons_self
            · exact List.mem_cons_of_mem _ (i2 r' hr' p hp ho)
          · intro r' hr' p hp
            rcases List.mem_cons.1 hr' with rfl | hr'
            · rw [hcross p hp] at hm
              exact hover.1 hm
            · exact i3 r' hr' p hp
      · rw [if_pos (by simpa using hm)] at h
        obtain ⟨i1, i2, i3⟩ := ih loaded h
        refine ⟨i1.cons r, ?_, i3⟩
        intro r' hr' p hp ho
        rcases List.mem_cons.1 hr' with rfl | hr'
        · rw [hcross p hp] at hm
          exact absurd (hover.2 ho) hm
        · exact i2 r' hr' p hp ho

/-- C50 does not hold for comparisons: loading the overall slice also returns the record of the comparison of two other
slices. -/
theorem C50_cross_as_overall (c : NumCodec) (R : SingleRounding) :
    ∃ stored, store R [(.cross [("country", .str "de")] [("country", .str "fr")], 7)] = .ok stored ∧
      load c [⟨[], []⟩] stored = .ok stored ∧ stored ≠ [] :=
  ⟨_, rfl, rfl, by simp⟩

/-- C50 does not hold for floats that are not in single precision: the very spec that generated the slice does not load it. -/
theorem C50_rounded_lost (c : NumCodec) (R : SingleRounding) (q : ℚ) (hq : ¬ Single q) :
    ∃ stored, store R [(.slice [("age", .flt q)], 7)] = .ok stored ∧
      (⟨[], [("age", .flt q)]⟩ : Spec).isSliceApplicable c [("age", .flt q)] = true ∧
      load c [⟨[], [("age", .flt q)]⟩] stored = .ok [] := by
  refine ⟨_, rfl, ?_, ?_⟩
  · simp [Spec.isSliceApplicable, applicableLoop, toType, entryEq, canonE]
  · have hne : R.round q ≠ q := fun h => hq (h ▸ R.single q)
    have : entryEq ("age", toType c (.flt (R.round q))) ("age", .flt q) = false := by
      simp [entryEq, canonE, toType, Val.canon, hne]
    simp [load, StoredKey.sliceKey, deserializeKey, mapE, deserializeEntry, sliceKeyMatches, Spec.isSliceApplicable,
      applicableLoop, this]

/-- C50: specs given as an iterator are used up by the first record, so later records are dropped although they match. -/
theorem C50_iterator (c : NumCodec) : ∃ stored : List (Stored ℕ),
    load c [⟨["country"], []⟩] stored = .ok stored ∧ loadIterator c [⟨["country"], []⟩] stored = .ok (stored.take 1) ∧
      stored.length = 2 :=
  ⟨[⟨.slice [⟨"country", some (.int64Value 1)⟩], 0⟩, ⟨.slice [⟨"country", some (.int64Value 2)⟩], 1⟩], rfl, rfl, rfl⟩

/-- A case with several slices and two specs. -/
example (c : NumCodec) (R : SingleRounding) (specs : List Spec) (hs : Constructed c specs) (hne : specs ≠ []) :=
  C50_load_partial (V := ℕ) c R specs hs hne
    [(.slice [], 1), (.slice [("age", .int 3)], 2), (.slice [("age", .flt (1 / 2)), ("country", .str "de")], 3)] (by
      intro r hr
      simp only [List.mem_cons, List.not_mem_nil, or_false] at hr
      rcases hr with rfl | rfl | rfl
      · intro e he; cases he
      · intro e he
        rw [List.mem_singleton] at he
        subst he
        exact ⟨by norm_num, by norm_num⟩
      · intro e he
        simp only [List.mem_cons, List.not_mem_nil, or_false] at he
        rcases he with rfl | rfl
        · exact ⟨1, -1, by norm_num, by norm_num⟩
        · trivial)

end Slicer
end TFMA
