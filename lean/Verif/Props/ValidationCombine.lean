import Verif.Props.ValidationFailures
import Verif.Lemmas.DictCombine
import Mathlib.Data.Multiset.Basic
import Mathlib.Algebra.Order.Group.Multiset

/-!
# C37–C39: combination of the validation results of all slices
-/

namespace TFMA
namespace Validation

open Slicer MetricKeys Beam

variable {c : NumCodec} {baseline : Option String}

/-! ### Specification -/

/-- A spec is mentioned in a result. -/
def Mentions (r : Result) (k : HashKey) : Prop := ∃ d ∈ r.details, d.hashKey = k

/-- The specs that need a matching slice: those of the thresholds of models other than the baseline. -/
def Required (baseline : Option String) (th : Thresholds) (k : HashKey) : Prop :=
  ∃ key ts s t, (key, ts) ∈ th ∧ baseline ≠ some key.modelName ∧ (s, t) ∈ ts ∧ (detailSpec s).hashKey = k

/-- The number of matching slices that is recorded for a spec (none if not recorded): the count of the first entry. -/
def recorded : List Detail → HashKey → Option ℤ
  | [], _ => none
  | d :: ds, k => if d.hashKey = k then some d.count else recorded ds k

theorem recorded_isSome (ds : List Detail) (k : HashKey) :
    (recorded ds k).isSome ↔ ∃ d ∈ ds, d.hashKey = k := by
  induction ds with
  | nil => simp [recorded]
  | cons d ds ih =>
    by_cases h : d.hashKey = k <;> simp [recorded, h, ih]

theorem recorded_append (a b : List Detail) (k : HashKey) :
    recorded (a ++ b) k = (recorded a k).or (recorded b k) := by
  induction a with
  | nil => rfl
  | cons d a ih => by_cases h : d.hashKey = k <;> simp [recorded, h, ih]

/-! ### Merging of the details -/

/-- A table of details filed under their own key. -/
def Filed (h : Dict HashKey Detail) : Prop := Dict.WF h ∧ ∀ p ∈ h, p.2.hashKey = p.1

theorem mem_of_mem_del {h : Dict HashKey Detail} {k : HashKey} {p : HashKey × Detail} (hp : p ∈ Dict.del h k) :
    p ∈ h := by
  induction h with
  | nil => exact hp
  | cons q h ih =>
    obtain ⟨k', v⟩ := q
    rw [Dict.del] at hp
    split at hp
    · exact List.mem_cons_of_mem _ (ih hp)
    · rcases List.mem_cons.1 hp with rfl | hp
      · exact List.mem_cons_self
      · exact List.mem_cons_of_mem _ (ih hp)

theorem hashed_filed (ds : List Detail) (acc : Dict HashKey Detail) (h : Filed acc) : Filed (hashed ds acc) := by
  induction ds generalizing acc with
  | nil => exact h
  | cons d ds ih =>
    rw [hashed]
    apply ih
    split
    · exact h
    · refine ⟨Dict.WF_set h.1 _ _, ?_⟩
      rintro ⟨k, d'⟩ hp
      have := Dict.get?_of_mem (Dict.WF_set h.1 _ _) hp
      rw [Dict.get?_set] at this
      split at this
      · rename_i hk
        cases this
        first
        | exact hk
        | exact hk.symm
      · exact h.2 _ (Dict.mem_of_get? this)

theorem hashed_get (ds : List Detail) (acc : Dict HashKey Detail) (k : HashKey) :
    (Dict.get? (hashed ds acc) k).map Detail.count = ((Dict.get? acc k).map Detail.count).or (recorded ds k) := by
  induction ds generalizing acc with
  | nil => simp [hashed, recorded]
  | cons d ds ih =>
    rw [hashed, ih]
    by_cases hk : d.hashKey = k
    · by_cases hh : Dict.has acc d.hashKey
      · rw [if_pos hh]
        subst hk
        obtain ⟨x, hx⟩ := Option.isSome_iff_exists.1 hh
        simp [hx]
      · rw [if_neg hh]
        subst hk
        have : Dict.get? acc d.hashKey = none := by simpa [Dict.has] using hh
        simp [Dict.get?_set_self, this, recorded]
    · have : Dict.get? (if Dict.has acc d.hashKey then acc else Dict.set acc d.hashKey d) k = Dict.get? acc k := by
        split
        · rfl
        · rw [Dict.get?_set_ne]
          first
          | exact hk
          | exact fun h => hk h.symm
      rw [this]
      simp [recorded, hk]

theorem mergeInto_fst (a : List Detail) (h : Dict HashKey Detail) (hf : Filed h) (k : HashKey) :
    recorded (mergeInto a h).1 k =
      (recorded a k).map fun n => n + ((Dict.get? h k).map Detail.count).getD 0 := by
  induction a generalizing h with
  | nil => rfl
  | cons d a ih =>
    rw [mergeInto]
    cases hg : Dict.get? h d.hashKey with
    | none =>
      simp only
      by_cases hk : d.hashKey = k
      · subst hk
        simp [recorded, hg]
      · simp only [recorded, hk, if_false]
        exact ih h hf
    | some d' =>
      simp only
      by_cases hk : d.hashKey = k
      · subst hk
        have : ({ d with count := d.count + d'.count } : Detail).hashKey = d.hashKey := rfl
        simp [recorded, this, hg]
      · have : ({ d with count := d.count + d'.count } : Detail).hashKey = d.hashKey := rfl
        simp only [recorded, this, hk, if_false]
        rw [ih _ ⟨Dict.WF_del hf.1 _, fun p hp => hf.2 p (mem_of_mem_del hp)⟩]
        rw [Dict.get?_del, if_neg]
        first
        | exact hk
        | exact fun h => hk h.symm

theorem mergeInto_snd (a : List Detail) (h : Dict HashKey Detail) (hf : Filed h) :
    Filed (mergeInto a h).2 ∧ ∀ k, Dict.get? (mergeInto a h).2 k =
      if (recorded a k).isSome then none else Dict.get? h k := by
  induction a generalizing h with
  | nil => exact ⟨hf, fun k => rfl⟩
  | cons d a ih =>
    rw [mergeInto]
    cases hg : Dict.get? h d.hashKey with
    | none =>
      simp only
      obtain ⟨h1, h2⟩ := ih h hf
      refine ⟨h1, fun k => ?_⟩
      rw [h2 k]
      by_cases hk : d.hashKey = k
      · subst hk; simp [recorded, hg]
      · simp [recorded, hk]
    | some d' =>
      simp only
      obtain ⟨h1, h2⟩ := ih (Dict.del h d.hashKey) ⟨Dict.WF_del hf.1 _, fun p hp => hf.2 p (mem_of_mem_del hp)⟩
      refine ⟨h1, fun k => ?_⟩
      rw [h2 k, Dict.get?_del]
      by_cases hk : d.hashKey = k
      · subst hk; simp [recorded]
      · simp [recorded, hk]

theorem recorded_table (h : Dict HashKey Detail) (hf : ∀ p ∈ h, p.2.hashKey = p.1) (k : HashKey) :
    recorded (h.map Prod.snd) k = (Dict.get? h k).map Detail.count := by
  induction h with
  | nil => rfl
  | cons p h ih =>
    obtain ⟨k', d⟩ := p
    have := hf (k', d) (by simp)
    simp only at this
    rw [List.map_cons, recorded, this, Dict.get?_cons]
    by_cases hk : k' = k
    · simp [hk]
    · simp only [hk, if_false]
      exact ih fun p hp => hf p (by simp [hp])

theorem recorded_mergeDetails (a b : List Detail) (k : HashKey) :
    recorded (mergeDetails a b) k = optOp (· + ·) (recorded a k) (recorded b k) := by
  have hf : Filed (hashed b []) := hashed_filed b [] ⟨Dict.WF_nil, by simp⟩
  obtain ⟨h1, h2⟩ := mergeInto_snd a _ hf
  unfold mergeDetails
  simp only
  rw [recorded_append, mergeInto_fst a _ hf, recorded_table _ h1.2, h2 k]
  have hb : (Dict.get? (hashed b []) k).map Detail.count = recorded b k := by
    rw [hashed_get]; simp [Dict.get?]
  cases ha : recorded a k with
  | none => simp [hb]
  | some n =>
    rw [hb]
    cases recorded b k <;> simp [optOp]

/-- The keys of the details. -/
def keysOf (ds : List Detail) : List HashKey := ds.map Detail.hashKey

theorem mergeInto_keys (a : List Detail) (h : Dict HashKey Detail) : keysOf (mergeInto a h).1 = keysOf a := by
  induction a generalizing h with
  | nil => rfl
  | cons d a ih =>
    rw [mergeInto]
    cases hg : Dict.get? h d.hashKey with
    | none => simp only [keysOf, List.map_cons] at ih ⊢; rw [ih]
    | some d' => simp only [keysOf, List.map_cons] at ih ⊢; rw [ih]; rfl

theorem keysOf_table (h : Dict HashKey Detail) (hf : ∀ p ∈ h, p.2.hashKey = p.1) :
    keysOf (h.map Prod.snd) = Dict.keys h := by
  unfold keysOf Dict.keys
  rw [List.map_map]
  exact List.map_congr_left fun p hp => hf p hp

theorem mergeDetails_nodup (a b : List Detail) (ha : (keysOf a).Nodup) : (keysOf (mergeDetails a b)).Nodup := by
  have hf : Filed (hashed b []) := hashed_filed b [] ⟨Dict.WF_nil, by simp⟩
  obtain ⟨h1, h2⟩ := mergeInto_snd a _ hf
  unfold mergeDetails
  simp only
  have happ : keysOf ((mergeInto a (hashed b [])).1 ++ (mergeInto a (hashed b [])).2.map Prod.snd) =
      keysOf a ++ Dict.keys (mergeInto a (hashed b [])).2 := by
    rw [← mergeInto_keys a (hashed b []), ← keysOf_table _ h1.2]
    simp [keysOf]
  rw [happ]
  apply List.Nodup.append ha h1.1
  intro k h3 h4
  rw [Dict.mem_keys_iff] at h4
  obtain ⟨v, hv⟩ := h4
  rw [h2] at hv
  have : (recorded a k).isSome := by
    rw [recorded_isSome]
    obtain ⟨d, h5, h6⟩ := List.mem_map.1 h3
    exact ⟨d, h5, h6⟩
  rw [if_pos this] at hv
  cases hv

/-! ### The combiner -/

/-- Summary of an accumulator: whether there was an input, the conjunction of the verdicts, the failures, the recorded
counts. -/
abbrev Summary := Bool × Bool × Multiset (Key × List Failure) × (HashKey → Option ℤ)

def summary : Option Result → Summary
  | none => (false, true, 0, fun _ => none)
  | some r => (true, r.ok, r.perSlice, recorded r.details)

def sop (a b : Summary) : Summary := (a.1 || b.1, a.2.1 && b.2.1, a.2.2.1 + b.2.2.1, pw (· + ·) a.2.2.2 b.2.2.2)

def AccInv (a : Option Result) : Prop := ∀ r, a = some r → (keysOf r.details).Nodup ∧ r.missingThresholds = false ∧
  r.missingSlices = [] ∧ r.missingCross = [] ∧ r.rubberStamp = false

private theorem summary_plus (a b : Option Result) : summary (plus a b) = sop (summary a) (summary b) := by
  cases b with
  | none =>
    cases a <;> simp [plus, summary, sop] <;> (funext k; simp [pw])
  | some x =>
    cases a with
    | none =>
      simp only [plus, summary, sop, Option.getD_none, Bool.or_true, Bool.true_and, List.nil_append,
        zero_add, Prod.mk.injEq, true_and]
      funext k
      simp [pw, recorded_mergeDetails, recorded]
    | some r =>
      simp only [plus, summary, sop, Option.getD_some, Bool.or_true, Prod.mk.injEq, true_and]
      refine ⟨by simp, ?_⟩
      funext k
      simp [pw, recorded_mergeDetails]

private theorem inv_plus (a b : Option Result) (ha : AccInv a) : AccInv (plus a b) := by
  intro r hr
  cases b with
  | none => exact ha r hr
  | some x =>
    cases a with
    | none => cases hr; exact ⟨mergeDetails_nodup _ _ (by simp [keysOf]), rfl, rfl, rfl, rfl⟩
    | some r' =>
      obtain ⟨h1, h2⟩ := ha r' rfl
      cases hr
      exact ⟨mergeDetails_nodup _ _ h1, h2⟩

private theorem combiner_hom : OHom combiner sop (false, true, 0, fun _ => none)
    (fun r => some (summary (some r))) summary AccInv where
  assoc a b d := by
    simp only [sop, Bool.or_assoc, Bool.and_assoc, add_assoc]
    rw [pw_assoc (fun a b d => by simp [add_assoc])]
  comm a b := by
    simp only [sop]
    rw [Bool.or_comm, Bool.and_comm, add_comm a.2.2.1, pw_comm (fun a b => by simp [add_comm])]
  left a := by simp [sop, pw_left]
  inv_create := by intro r hr; cases hr
  inv_add a x b ha hb := by cases hb; exact inv_plus a (some x) ha
  create := rfl
  add a x _ := by
    show some (summary (plus a (some x))) = _
    rw [summary_plus]; rfl
  merge a as h := by
    refine ⟨_, rfl, ?_, foldl_hom summary_plus a as⟩
    have ha := h a (by simp)
    clear h
    induction as generalizing a with
    | nil => exact ha
    | cons x as ih => exact ih _ (inv_plus a x ha)

private theorem fold_sop (rs : List Result) :
    (rs.map fun r => summary (some r)).foldr sop (false, true, 0, fun _ => none) =
      (!rs.isEmpty, rs.all Result.ok, ((rs.flatMap Result.perSlice : List (Key × List Failure)) : Multiset (Key × List Failure)),
        fun k => optFold (· + ·) (rs.filterMap fun r => recorded r.details k)) := by
  induction rs with
  | nil => rfl
  | cons r rs ih =>
    rw [List.map_cons, List.foldr_cons, ih]
    simp only [sop, summary, Bool.true_or, List.isEmpty_cons, Bool.not_false, List.all_cons, List.flatMap_cons,
      Multiset.coe_add, Prod.mk.injEq, true_and]
    funext k
    simp only [pw, List.filterMap_cons]
    cases recorded r.details k <;> simp [optFold]

/-- Every execution gives an accumulator with this summary. -/
private theorem run_summary {s : Sched Result} {rs : List Result} (p : s.inputs.Perm rs) :
    ∃ acc, combiner.run s = .ok acc ∧ AccInv acc ∧ summary acc =
      (!rs.isEmpty, rs.all Result.ok, ((rs.flatMap Result.perSlice : List (Key × List Failure)) : Multiset (Key × List Failure)),
        fun k => optFold (· + ·) (rs.filterMap fun r => recorded r.details k)) := by
  have h := orun_eq combiner_hom p
  rw [total_some, fold_sop] at h
  cases hr : combiner.run s with
  | error e => rw [hr] at h; simp [Except.toOption] at h
  | ok acc =>
    rw [hr] at h
    simp only [Except.toOption, Option.map_some, Option.some.injEq] at h
    exact ⟨acc, rfl, run_inv combiner_hom.hom hr, h⟩

private theorem sum_ones (l : List ℤ) (h : ∀ x ∈ l, x = 1) : l.foldr (· + ·) 0 = (l.length : ℤ) := by
  induction l with
  | nil => rfl
  | cons x l ih =>
    rw [List.foldr_cons, ih fun y hy => h y (by simp [hy]), h x (by simp)]
    simp; omega

/-! ### Missing slices -/

private theorem missingSpecs_spec (ts : List SliceThreshold) (present : List HashKey) :
    (∀ k, k ∈ (missingSpecs ts present).2 ↔ k ∈ present ∨ ∃ s t, (s, t) ∈ ts ∧ (detailSpec s).hashKey = k) ∧
    (∀ k, k ∈ (missingSpecs ts present).1.map SliceSpec.hashKey ↔
      k ∉ present ∧ ∃ s t, (s, t) ∈ ts ∧ (detailSpec s).hashKey = k) ∧
    ((missingSpecs ts present).1.map SliceSpec.hashKey).Nodup := by
  induction ts generalizing present with
  | nil => simp [missingSpecs]
  | cons p rest ih =>
    obtain ⟨s, t⟩ := p
    by_cases hp : (detailSpec s).hashKey ∈ present
    · have heq : missingSpecs ((s, t) :: rest) present = missingSpecs rest present := by
        rw [missingSpecs]; simp only [hp, if_true]
      rw [heq]
      obtain ⟨h1, h2, h3⟩ := ih present
      refine ⟨fun k => ?_, fun k => ?_, h3⟩
      · rw [h1]
        constructor
        · rintro (h | ⟨s', t', h, h'⟩)
          · exact .inl h
          · exact .inr ⟨s', t', by simp [h], h'⟩
        · rintro (h | ⟨s', t', h, h'⟩)
          · exact .inl h
          · rcases List.mem_cons.1 h with heq | h
            · cases heq; rw [← h']; exact .inl hp
            · exact .inr ⟨s', t', h, h'⟩
      · rw [h2]
        constructor
        · rintro ⟨h, s', t', h', h''⟩
          exact ⟨h, s', t', by simp [h'], h''⟩
        · rintro ⟨h, s', t', h', h''⟩
          rcases List.mem_cons.1 h' with heq | h'
          · cases heq; rw [h''] at hp; exact absurd hp h
          · exact ⟨h, s', t', h', h''⟩
    · have heq : missingSpecs ((s, t) :: rest) present =
          (detailSpec s :: (missingSpecs rest ((detailSpec s).hashKey :: present)).1,
            (missingSpecs rest ((detailSpec s).hashKey :: present)).2) := by
        rw [missingSpecs]; simp only [hp, if_false]
      rw [heq]
      obtain ⟨h1, h2, h3⟩ := ih ((detailSpec s).hashKey :: present)
      refine ⟨fun k => ?_, fun k => ?_, ?_⟩
      · simp only [h1, List.mem_cons]
        constructor
        · rintro ((h | h) | ⟨s', t', h, h'⟩)
          · exact .inr ⟨s, t, by simp, h.symm⟩
          · exact .inl h
          · exact .inr ⟨s', t', by simp [h], h'⟩
        · rintro (h | ⟨s', t', h, h'⟩)
          · exact .inl (.inr h)
          · rcases h with heq | h
            · cases heq; exact .inl (.inl h'.symm)
            · exact .inr ⟨s', t', h, h'⟩
      · simp only [List.map_cons, List.mem_cons, h2]
        constructor
        · rintro (h | ⟨h, s', t', h', h''⟩)
          · subst h; exact ⟨hp, s, t, by simp, rfl⟩
          · exact ⟨fun h''' => h (.inr h'''), s', t', by simp [h'], h''⟩
        · rintro ⟨h, s', t', h', h''⟩
          by_cases hk : k = (detailSpec s).hashKey
          · exact .inl hk
          · rcases h' with heq | h'
            · cases heq; exact absurd h''.symm hk
            · exact .inr ⟨by simp [hk, h], s', t', h', h''⟩
      · simp only [List.map_cons, List.nodup_cons]
        exact ⟨fun h => ((h2 _).1 h).1 (by simp), h3⟩

private theorem missingLoop_spec (th : Thresholds) (present : List HashKey) :
    (∀ k, k ∈ (missingLoop baseline th present).map SliceSpec.hashKey ↔ k ∉ present ∧ Required baseline th k) ∧
    ((missingLoop baseline th present).map SliceSpec.hashKey).Nodup := by
  induction th generalizing present with
  | nil => simp [missingLoop, Required]
  | cons p rest ih =>
    obtain ⟨key, ts⟩ := p
    unfold missingLoop
    split
    · rename_i hb
      obtain ⟨h1, h2⟩ := ih present
      refine ⟨fun k => ?_, h2⟩
      rw [h1]
      refine and_congr_right fun _ => ?_
      constructor
      · rintro ⟨key', ts', s, t, h3, h4⟩
        exact ⟨key', ts', s, t, by simp [h3], h4⟩
      · rintro ⟨key', ts', s, t, h3, h4, h5⟩
        rcases List.mem_cons.1 h3 with heq | h3
        · cases heq; exact absurd hb h4
        · exact ⟨key', ts', s, t, h3, h4, h5⟩
    · rename_i hb
      obtain ⟨j1, j2, j3⟩ := missingSpecs_spec ts present
      obtain ⟨h1, h2⟩ := ih (missingSpecs ts present).2
      simp only [List.map_append]
      refine ⟨fun k => ?_, ?_⟩
      · rw [List.mem_append, j2, h1, j1]
        constructor
        · rintro (⟨h3, s, t, h4, h5⟩ | ⟨h3, key', ts', s, t, h4, h5⟩)
          · exact ⟨h3, key, ts, s, t, by simp, hb, h4, h5⟩
          · exact ⟨fun h => h3 (.inl h), key', ts', s, t, by simp [h4], h5⟩
        · rintro ⟨h3, key', ts', s, t, h4, h5, h6, h7⟩
          by_cases hin : ∃ s t, (s, t) ∈ ts ∧ (detailSpec s).hashKey = k
          · exact .inl ⟨h3, hin⟩
          · rcases List.mem_cons.1 h4 with heq | h4
            · cases heq; exact absurd ⟨s, t, h6, h7⟩ hin
            · exact .inr ⟨by rintro (h | h); exacts [h3 h, hin h], key', ts', s, t, h4, h5, h6, h7⟩
      · apply List.Nodup.append j3 h2
        intro k h3 h4
        exact ((h1 k).1 h4).1 ((j1 k).2 (.inr ((j2 k).1 h3).2))

private theorem mem_missing (th : Thresholds) (ds : List Detail) :
    (∀ k, k ∈ (missingSlices baseline th ds).map SliceSpec.hashKey ↔ recorded ds k = none ∧ Required baseline th k) ∧
    ((missingSlices baseline th ds).map SliceSpec.hashKey).Nodup := by
  obtain ⟨h1, h2⟩ := missingLoop_spec (baseline := baseline) th (Dict.keys (hashed ds []))
  refine ⟨fun k => ?_, h2⟩
  unfold missingSlices
  rw [h1]
  refine and_congr_left fun _ => ?_
  rw [← Dict.get?_eq_none_iff]
  have := hashed_get ds [] k
  simp only [Dict.get?, Option.map_none, Option.none_or] at this
  rw [← this]
  simp

private theorem optFold_recorded (rs : List Result) (k : HashKey) :
    optFold (· + ·) (rs.filterMap fun r => recorded r.details k) = none ↔ ∀ r ∈ rs, ¬ Mentions r k := by
  rw [optFold_eq (e := (0 : ℤ)) (by simp)]
  simp only [ite_eq_left_iff, reduceCtorEq, imp_false, not_not, List.filterMap_eq_nil_iff]
  refine forall₂_congr fun r _ => ?_
  unfold Mentions
  rw [← recorded_isSome]
  simp

private theorem details_eq (th : Thresholds) (rub : Bool) (acc : Option Result) :
    (extract baseline th rub acc).details = (acc.getD { ok := false }).details := by
  unfold extract
  dsimp only
  split_ifs <;> rfl

private theorem perSlice_eq (th : Thresholds) (rub : Bool) (acc : Option Result) :
    (extract baseline th rub acc).perSlice = (acc.getD { ok := false }).perSlice := by
  unfold extract
  dsimp only
  split_ifs <;> rfl

/-- The recorded counts of the result. -/
private theorem extract_details (th : Thresholds) (rub : Bool) (acc : Option Result) (k : HashKey) :
    recorded (extract baseline th rub acc).details k = (summary acc).2.2.2 k := by
  rw [details_eq]
  cases acc <;> rfl

/-- C37: for every order, bundling and merge tree the verdict is: with thresholds configured, there is a result, all
results are ok and every spec of a threshold of a non-baseline model is mentioned by a result; with no thresholds
configured, the model is rubber stamped. -/
theorem C37_verdict {s : Sched Result} {rs : List Result} (p : s.inputs.Perm rs) (th : Thresholds) (rub : Bool) :
    ∃ acc, combiner.run s = .ok acc ∧ ((extract baseline th rub acc).ok = true ↔
      (th = [] ∧ rub = true) ∨ (th ≠ [] ∧ rs ≠ [] ∧ (∀ r ∈ rs, r.ok = true) ∧
        ∀ k, Required baseline th k → ∃ r ∈ rs, Mentions r k)) := by
  obtain ⟨acc, h1, -, h3⟩ := run_summary p
  refine ⟨acc, h1, ?_⟩
  by_cases hth : th = []
  · subst hth
    have hm : ∀ ds, missingSlices baseline [] ds = [] := fun _ => rfl
    unfold extract
    cases acc <;> cases rub <;> simp [hm]
  · have hmiss : missingSlices baseline th (acc.getD { ok := false }).details = [] ↔
        ∀ k, Required baseline th k → ∃ r ∈ rs, Mentions r k := by
      have hrec : ∀ k, recorded (acc.getD { ok := false }).details k = none ↔ ∀ r ∈ rs, ¬ Mentions r k := by
        intro k
        rw [← optFold_recorded]
        have : (summary acc).2.2.2 k = optFold (· + ·) (rs.filterMap fun r => recorded r.details k) := by rw [h3]
        rw [← this]
        cases acc <;> rfl
      rw [← List.map_eq_nil_iff (f := SliceSpec.hashKey), List.eq_nil_iff_forall_not_mem]
      refine forall_congr' fun k => ?_
      rw [(mem_missing th _).1 k, hrec]
      constructor
      · intro h hr
        by_contra hc
        exact h ⟨fun r hr' hm => hc ⟨r, hr', hm⟩, hr⟩
      · rintro h ⟨h4, h5⟩
        obtain ⟨r, h6, h7⟩ := h h5
        exact h4 r h6 h7
    have hok : (acc.getD { ok := false }).ok = true ↔ rs ≠ [] ∧ ∀ r ∈ rs, r.ok = true := by
      cases acc with
      | none =>
        simp only [summary, Prod.mk.injEq] at h3
        have : rs = [] := by simpa using h3.1
        simp [this]
      | some r =>
        simp only [summary, Prod.mk.injEq] at h3
        have hne : rs ≠ [] := by intro h; subst h; simp at h3
        simp [hne, h3.2.1]
    simp only [hth, false_and, false_or, ne_eq, not_false_eq_true, true_and]
    rw [← hmiss, ← and_assoc, show (¬ rs = [] ∧ ∀ r ∈ rs, r.ok = true) ↔ (acc.getD { ok := false }).ok = true from hok.symm]
    unfold extract
    simp only [hth, if_false]
    by_cases hm : missingSlices baseline th (acc.getD { ok := false }).details = [] <;> cases rub <;> simp [hm]

/-- C37: the failures reported are those of all results, for every order, bundling and merge tree. -/
theorem C37_failures {s : Sched Result} {rs : List Result} (p : s.inputs.Perm rs) (th : Thresholds) (rub : Bool) :
    ∃ acc, combiner.run s = .ok acc ∧ (extract baseline th rub acc).perSlice.Perm (rs.flatMap Result.perSlice) := by
  obtain ⟨acc, h1, -, h3⟩ := run_summary p
  refine ⟨acc, h1, ?_⟩
  have : (((extract baseline th rub acc).perSlice : List _) : Multiset (Key × List Failure)) = (summary acc).2.2.1 := by
    rw [perSlice_eq]
    cases acc <;> rfl
  rw [h3] at this
  exact Quotient.exact this

/-- C37: the flags of the result: thresholds are reported missing exactly when there are none and the model is not
rubber stamped, and the rubber stamp is passed on. -/
theorem C37_flags {s : Sched Result} {rs : List Result} (p : s.inputs.Perm rs) (th : Thresholds) (rub : Bool) :
    ∃ acc, combiner.run s = .ok acc ∧
      ((extract baseline th rub acc).missingThresholds = true ↔ th = [] ∧ rub = false) ∧
      (extract baseline th rub acc).rubberStamp = rub := by
  obtain ⟨acc, h1, h2, -⟩ := run_summary p
  refine ⟨acc, h1, ?_⟩
  have hacc : (acc.getD { ok := false }).missingThresholds = false ∧ (acc.getD { ok := false }).rubberStamp = false := by
    cases acc with
    | none => exact ⟨rfl, rfl⟩
    | some r => exact ⟨(h2 r rfl).2.1, (h2 r rfl).2.2.2.2⟩
  unfold extract
  by_cases hth : th = []
  · cases rub <;> simp [hth, apply_ite, hacc]
  · cases rub <;> simp [hth, apply_ite, hacc]

/-- C38: for every order, bundling and merge tree, there is at most one entry for each spec in the merged details and
its number of matching slices is the number of slices whose results mention the spec. -/
theorem C38_counts {s : Sched Result} {rs : List Result} (p : s.inputs.Perm rs)
    (hone : ∀ r ∈ rs, ∀ d ∈ r.details, d.count = 1) (th : Thresholds) (rub : Bool) :
    ∃ acc, combiner.run s = .ok acc ∧ (keysOf (extract baseline th rub acc).details).Nodup ∧
      (∀ d ∈ (extract baseline th rub acc).details,
        d.count = ((rs.filter fun r => decide (d.hashKey ∈ keysOf r.details)).length : ℤ)) ∧
      ∀ k, (∃ d ∈ (extract baseline th rub acc).details, d.hashKey = k) ↔ ∃ r ∈ rs, Mentions r k := by
  obtain ⟨acc, h1, h2, h3⟩ := run_summary p
  refine ⟨acc, h1, ?_, ?_, ?_⟩
  · have hk : (keysOf (acc.getD { ok := false }).details).Nodup := by
      cases acc with
      | none => simp [keysOf]
      | some r => exact (h2 r rfl).1
    rw [details_eq]; exact hk
  · intro d hd
    have hk : (keysOf (extract baseline th rub acc).details).Nodup := by
      have hk : (keysOf (acc.getD { ok := false }).details).Nodup := by
        cases acc with
        | none => simp [keysOf]
        | some r => exact (h2 r rfl).1
      rw [details_eq]; exact hk
    have hrec : recorded (extract baseline th rub acc).details d.hashKey = some d.count := by
      revert hd hk
      generalize (extract baseline th rub acc).details = ds
      intro hd hk
      induction ds with
      | nil => cases hd
      | cons x ds ih =>
        simp only [keysOf, List.map_cons, List.nodup_cons] at hk
        rcases List.mem_cons.1 hd with rfl | hd
        · simp [recorded]
        · have : ¬ x.hashKey = d.hashKey := fun h => hk.1 (h ▸ List.mem_map.2 ⟨d, hd, rfl⟩)
          simp only [recorded, this, if_false]
          exact ih hd hk.2
    rw [extract_details, h3] at hrec
    simp only at hrec
    rw [optFold_eq (e := (0 : ℤ)) (by simp)] at hrec
    split at hrec
    · cases hrec
    · simp only [Option.some.injEq] at hrec
      rw [← hrec, sum_ones]
      · congr 1
        clear hrec
        rename_i hne
        clear hne h3 p
        induction rs with
        | nil => rfl
        | cons r rs ih =>
          have ih := ih fun r' hr' => hone r' (by simp [hr'])
          simp only [List.filterMap_cons, List.filter_cons]
          by_cases hm : d.hashKey ∈ keysOf r.details
          · have hs : (recorded r.details d.hashKey).isSome := by
              rw [recorded_isSome]
              obtain ⟨x, h5, h6⟩ := List.mem_map.1 hm
              exact ⟨x, h5, h6⟩
            obtain ⟨n, hn⟩ := Option.isSome_iff_exists.1 hs
            simp [hn, hm, ih]
          · have hs : recorded r.details d.hashKey = none := by
              cases hr : recorded r.details d.hashKey with
              | none => rfl
              | some n =>
                exfalso
                have := (recorded_isSome r.details d.hashKey).1 (by simp [hr])
                obtain ⟨x, h5, h6⟩ := this
                exact hm (List.mem_map.2 ⟨x, h5, h6⟩)
            simp [hs, hm, ih]
      · intro x hx
        obtain ⟨r, hr, hx⟩ := List.mem_filterMap.1 hx
        have : ∀ ds : List Detail, (∀ d ∈ ds, d.count = 1) → recorded ds d.hashKey = some x → x = 1 := by
          intro ds h
          induction ds with
          | nil => intro h; cases h
          | cons y ds ih =>
            rw [recorded]
            split
            · intro h'; cases h'; exact h y (by simp)
            · exact ih fun d hd => h d (by simp [hd])
        exact this _ (hone r hr) hx
  · intro k
    rw [← recorded_isSome, extract_details, h3]
    simp only
    have := optFold_recorded rs k
    cases ho : optFold (· + ·) (rs.filterMap fun r => recorded r.details k) with
    | none =>
      have := this.1 ho
      simp only [Option.isSome_none, Bool.false_eq_true, false_iff]
      rintro ⟨r, h5, h6⟩
      exact this r h5 h6
    | some n =>
      simp only [Option.isSome_some, true_iff]
      by_contra hc
      rw [ho] at this
      have := this.2 fun r hr hm => hc ⟨r, hr, hm⟩
      cases this

/-- C39: for every order, bundling and merge tree the specs that are listed as missing are exactly the specs of
thresholds of non-baseline models that no result mentions, each once. -/
theorem C39_missing {s : Sched Result} {rs : List Result} (p : s.inputs.Perm rs) (th : Thresholds) (rub : Bool) :
    ∃ acc, combiner.run s = .ok acc ∧
      (∀ k, (k ∈ (extract baseline th rub acc).missingSlices.map (fun s => HashKey.single (specKey s)) ∨
          k ∈ (extract baseline th rub acc).missingCross.map (fun x => HashKey.cross (specKey x.1) (x.2.map specKey))) ↔
        Required baseline th k ∧ ∀ r ∈ rs, ¬ Mentions r k) ∧
      ((extract baseline th rub acc).missingSlices.map specKey).Nodup ∧
      ((extract baseline th rub acc).missingCross.map fun x => (specKey x.1, x.2.map specKey)).Nodup := by
  obtain ⟨acc, h1, h2, h3⟩ := run_summary p
  refine ⟨acc, h1, ?_⟩
  have hrec : ∀ k, recorded (acc.getD { ok := false }).details k = none ↔ ∀ r ∈ rs, ¬ Mentions r k := by
    intro k
    rw [← optFold_recorded]
    have : (summary acc).2.2.2 k = optFold (· + ·) (rs.filterMap fun r => recorded r.details k) := by rw [h3]
    rw [← this]
    cases acc <;> rfl
  have hz : (acc.getD { ok := false }).missingSlices = [] ∧ (acc.getD { ok := false }).missingCross = [] := by
    cases acc with
    | none => exact ⟨rfl, rfl⟩
    | some r => exact ⟨(h2 r rfl).2.2.1, (h2 r rfl).2.2.2.1⟩
  have hs : (extract baseline th rub acc).missingSlices =
      (missingSlices baseline th (acc.getD { ok := false }).details).filterMap SliceSpec.asSingle := by
    unfold extract
    cases rub <;> simp only [Bool.false_eq_true, if_false, if_true] <;> split_ifs <;> simp_all
  have hx : (extract baseline th rub acc).missingCross =
      (missingSlices baseline th (acc.getD { ok := false }).details).filterMap SliceSpec.asCross := by
    unfold extract
    cases rub <;> simp only [Bool.false_eq_true, if_false, if_true] <;> split_ifs <;> simp_all
  rw [hs, hx]
  obtain ⟨m1, m2⟩ := mem_missing (baseline := baseline) th (acc.getD { ok := false }).details
  revert m1 m2
  generalize missingSlices baseline th (acc.getD { ok := false }).details = l
  intro m1 m2
  refine ⟨fun k => ?_, ?_, ?_⟩
  · rw [← hrec k, and_comm, ← m1 k]
    clear m1 m2
    induction l with
    | nil => simp
    | cons x l ih =>
      cases x <;> simp only [List.filterMap_cons, List.map_cons, List.mem_cons, ← ih, SliceSpec.hashKey,
        SliceSpec.asSingle, SliceSpec.asCross] <;> tauto
  · clear m1
    induction l with
    | nil => simp
    | cons x l ih =>
      simp only [List.map_cons, List.nodup_cons] at m2
      cases x with
      | single s =>
        simp only [List.filterMap_cons, SliceSpec.asSingle, SliceSpec.asCross, List.map_cons, List.nodup_cons]
        refine ⟨fun h => m2.1 ?_, ih m2.2⟩
        obtain ⟨s', h5, h6⟩ := List.mem_map.1 h
        obtain ⟨y, h7, h8⟩ := List.mem_filterMap.1 h5
        cases y with
        | single s'' => cases h8; exact List.mem_map.2 ⟨_, h7, by simp [SliceSpec.hashKey, h6]⟩
        | cross _ _ => cases h8
      | cross b cs => exact ih m2.2
  · clear m1
    induction l with
    | nil => simp
    | cons x l ih =>
      simp only [List.map_cons, List.nodup_cons] at m2
      cases x with
      | single s => exact ih m2.2
      | cross b cs =>
        simp only [List.filterMap_cons, SliceSpec.asSingle, SliceSpec.asCross, List.map_cons, List.nodup_cons]
        refine ⟨fun h => m2.1 ?_, ih m2.2⟩
        obtain ⟨s', h5, h6⟩ := List.mem_map.1 h
        obtain ⟨y, h7, h8⟩ := List.mem_filterMap.1 h5
        cases y with
        | single s'' => cases h8
        | cross _ _ => cases h8; exact List.mem_map.2 ⟨_, h7, by simpa [SliceSpec.hashKey] using h6⟩

/-- Without cross slices a detail is read as it was written. -/
def NoCross (rs : List Result) : Prop := ∀ r ∈ rs, ∀ d ∈ r.details, ∃ s, d.spec = .single s

private theorem hashKey_of_single {d : Detail} (h : ∃ s, d.spec = .single s) : d.hashKey = d.spec.hashKey := by
  obtain ⟨s, h⟩ := h
  unfold Detail.hashKey
  rw [h]
  rfl

/-- C38: in terms of the specs: without cross slicing specs in the results, the number of matching slices of a spec is
the number of results with an entry for the same spec. -/
theorem C38_spec_counts_partial {s : Sched Result} {rs : List Result} (p : s.inputs.Perm rs) (hx : NoCross rs)
    (hone : ∀ r ∈ rs, ∀ d ∈ r.details, d.count = 1) (th : Thresholds) (rub : Bool) (k : SingleKey) :
    ∃ acc, combiner.run s = .ok acc ∧ (((extract baseline th rub acc).details.filter fun d =>
        decide (d.hashKey = .single k)).map Detail.count).sum =
      ((rs.filter fun r => decide (HashKey.single k ∈ r.details.map fun d => d.spec.hashKey)).length : ℤ) := by
  obtain ⟨acc, h1, h2, h3, h4⟩ := C38_counts (baseline := baseline) p hone th rub
  refine ⟨acc, h1, ?_⟩
  have hk : ∀ r ∈ rs, (HashKey.single k ∈ r.details.map fun d => d.spec.hashKey) ↔ .single k ∈ keysOf r.details := by
    intro r hr
    unfold keysOf
    rw [List.map_congr_left (g := Detail.hashKey)]
    intro d hd
    exact (hashKey_of_single (hx r hr d hd)).symm
  have hf : (rs.filter fun r => decide (HashKey.single k ∈ r.details.map fun d => d.spec.hashKey)) =
      rs.filter fun r => decide (HashKey.single k ∈ keysOf r.details) := by
    apply List.filter_congr
    intro r hr
    exact decide_eq_decide.2 (hk r hr)
  rw [hf]
  have h4 := h4 (.single k)
  revert h2 h3 h4
  generalize (extract baseline th rub acc).details = ds
  intro h2 h3 h4
  by_cases hm : ∃ d ∈ ds, d.hashKey = .single k
  · obtain ⟨d, hd, hdk⟩ := hm
    have hsingle : ds.filter (fun d => decide (d.hashKey = .single k)) = [d] := by
      clear h3 h4
      induction ds with
      | nil => cases hd
      | cons x ds ih =>
        simp only [keysOf, List.map_cons, List.nodup_cons] at h2
        have hnot : ∀ y ∈ ds, x.hashKey = .single k → ¬ y.hashKey = .single k := fun y hy h h' =>
          h2.1 (by rw [h, ← h']; exact List.mem_map.2 ⟨y, hy, rfl⟩)
        rcases List.mem_cons.1 hd with rfl | hd
        · rw [List.filter_cons_of_pos (by simp [hdk]), List.filter_eq_nil_iff.2]
          intro y hy
          simpa using hnot y hy hdk
        · rw [List.filter_cons_of_neg (by simpa using fun h => hnot d hd h hdk)]
          exact ih h2.2 hd
    rw [hsingle]
    simp only [List.map_cons, List.map_nil, List.sum_cons, List.sum_nil, add_zero]
    rw [h3 d hd, hdk]
  · have h5 : ds.filter (fun d => decide (d.hashKey = .single k)) = [] := by
      rw [List.filter_eq_nil_iff]
      intro d hd
      simpa using fun h => hm ⟨d, hd, h⟩
    have h6 : rs.filter (fun r => decide (HashKey.single k ∈ keysOf r.details)) = [] := by
      rw [List.filter_eq_nil_iff]
      intro r hr h
      apply hm
      rw [h4]
      obtain ⟨d, hd, hdk⟩ := List.mem_map.1 (by simpa using h : HashKey.single k ∈ keysOf r.details)
      exact ⟨r, hr, d, hd, hdk⟩
    simp [h5, h6]

/-- C39: in terms of the specs: without cross slicing specs, the specs listed as missing are those of thresholds of
non-baseline models that no result has an entry for. -/
theorem C39_spec_missing_partial {s : Sched Result} {rs : List Result} (p : s.inputs.Perm rs) (hx : NoCross rs)
    (th : Thresholds) (rub : Bool) (k : SingleKey) :
    ∃ acc, combiner.run s = .ok acc ∧
      (k ∈ (extract baseline th rub acc).missingSlices.map specKey ↔ Required baseline th (.single k) ∧
        ∀ r ∈ rs, ∀ d ∈ r.details, d.spec.hashKey ≠ .single k) := by
  obtain ⟨acc, h1, h2, -⟩ := C39_missing (baseline := baseline) p th rub
  refine ⟨acc, h1, ?_⟩
  have h2 := h2 (.single k)
  have hl : (HashKey.single k ∈ (extract baseline th rub acc).missingSlices.map (fun s => HashKey.single (specKey s)) ∨
      HashKey.single k ∈ (extract baseline th rub acc).missingCross.map
        (fun x => HashKey.cross (specKey x.1) (x.2.map specKey))) ↔
      k ∈ (extract baseline th rub acc).missingSlices.map specKey := by
    simp
  rw [← hl, h2]
  refine and_congr_right fun _ => forall₂_congr fun r hr => ?_
  unfold Mentions
  constructor
  · intro h d hd hk
    exact h ⟨d, hd, by rw [hashKey_of_single (hx r hr d hd), hk]⟩
  · rintro h ⟨d, hd, hk⟩
    exact h d hd (by rw [← hashKey_of_single (hx r hr d hd), hk])

/-- C39 (negation): a cross slicing spec is never found in the details: with a cross slice threshold of a non-baseline
model the verdict is negative whatever the results are, even if a cross slice matches and passes. -/
theorem C39_cross_always_missing {s : Sched Result} {rs : List Result} (p : s.inputs.Perm rs) (th : Thresholds)
    (rub : Bool) {b : SingleKey} {cs : List SingleKey} (hr : Required baseline th (.cross b cs)) :
    ∃ acc, combiner.run s = .ok acc ∧ (extract baseline th rub acc).ok = false := by
  obtain ⟨acc, h1, h2⟩ := C37_verdict (baseline := baseline) p th rub
  refine ⟨acc, h1, ?_⟩
  by_contra hc
  rw [Bool.not_eq_false, h2] at hc
  rcases hc with ⟨rfl, _⟩ | ⟨_, _, _, h⟩
  · obtain ⟨_, _, _, _, h, _⟩ := hr; cases h
  · obtain ⟨r, _, d, _, hd⟩ := h _ hr
    unfold Detail.hashKey at hd
    split at hd <;> cases hd

/-- The hypotheses can be met: a cross slice threshold that a cross slice passes; the verdict is negative. -/
example : validate c none [(k0, [(some (.cross ⟨[], []⟩ [⟨["age"], []⟩]), .value (some (.fin 0)) none)])]
      (.cross [] [("age", .int 5)]) [(k0, .num (.fin 1))] =
        .ok { ok := true, details := [⟨.cross ⟨[], []⟩ [⟨["age"], []⟩], 1⟩] } ∧
    Required none [(k0, [(some (.cross ⟨[], []⟩ [⟨["age"], []⟩]), .value (some (.fin 0)) none)])]
      (.cross (specKey ⟨[], []⟩) [specKey ⟨["age"], []⟩]) :=
  ⟨rfl, k0, _, _, _, List.mem_singleton.2 rfl, by simp, List.mem_singleton.2 rfl, rfl⟩

/-- C38 (negation): cross slices are counted for the overall spec: one overall slice and one cross slice give the count
2 for the overall spec. -/
theorem C38_cross_counted_as_overall :
    (combiner.run (.bundle [{ ok := true, details := [⟨.single ⟨[], []⟩, 1⟩] },
      { ok := true, details := [⟨.cross ⟨[], []⟩ [⟨["age"], []⟩], 1⟩] }])).toOption.map
        (fun a => recorded (extract none [] true a).details (.single (∅, ∅))) = some (some 2) := by
  decide +kernel

/-- C37 (negation): an input None erases what was accumulated before it, so that a failure before it is forgotten. -/
theorem C37_none_erases :
    addResult (addResult (addResult none (some { ok := false })) none) (some { ok := true }) = some { ok := true } := rfl

/-- Three results, merged in one tree: verdict and counts. -/
example : (combiner.run (.merge (.cons (.bundle [{ ok := true, details := [⟨.single ⟨["a"], []⟩, 1⟩] }])
      (.one (.bundle [{ ok := true, details := [⟨.single ⟨[], []⟩, 1⟩, ⟨.single ⟨["a"], []⟩, 1⟩] }, { ok := true }]))))).toOption.map
        (fun a => ((extract none [(k0, [(none, .value none none)])] false a).ok,
          recorded (extract none [] true a).details (.single (specKey ⟨["a"], []⟩)))) = some (true, some 2) := by
  decide +kernel

end Validation
end TFMA
