import Verif.Lemmas.Slicer
import Verif.Props.SlicerSpec

namespace TFMA
namespace Slicer

/-! ### accessor -/

/-- values of `k` over the dictionaries, in order. -/
def allVals (k : String) (ds : List Features) : List RawVal :=
  ds.flatMap (fun d => match Dict.get? d k with | some (some vs) => vs | _ => [])

theorem collect_some (k : String) (ds : List Features) (old : List RawVal) :
    collect k ds (some old) = some (old ++ allVals k ds) := by
  induction ds generalizing old with
  | nil => simp [collect, allVals]
  | cons d ds ih =>
    unfold collect
    rcases h : Dict.get? d k with _ | (_ | vs)
    · simp [ih, allVals, h]
    · simp [ih, allVals, h]
    · simp [ih, allVals, h]

theorem collect_none (k : String) (ds : List Features) :
    (Defined ds k ∧ collect k ds none = some (allVals k ds)) ∨
    (¬ Defined ds k ∧ collect k ds none = none) := by
  induction ds with
  | nil => right; simp [collect, Defined]
  | cons d ds ih =>
    have hd : Defined (d :: ds) k ↔ (∃ vs, Dict.get? d k = some (some vs)) ∨ Defined ds k := by
      simp [Defined]
    rcases h : Dict.get? d k with _ | (_ | vs)
    · have e : collect k (d :: ds) none = collect k ds none := by rw [collect]; simp [h]
      have e2 : allVals k (d :: ds) = allVals k ds := by simp [allVals, h]
      rw [e, e2, hd]; simpa [h] using ih
    · have e : collect k (d :: ds) none = collect k ds none := by rw [collect]; simp [h]
      have e2 : allVals k (d :: ds) = allVals k ds := by simp [allVals, h]
      rw [e, e2, hd]; simpa [h] using ih
    · left
      refine ⟨hd.mpr (Or.inl ⟨vs, h⟩), ?_⟩
      rw [collect]; simp [h, collect_some, allVals]

theorem mem_allVals (k : String) (ds : List Features) (r : RawVal) :
    r ∈ allVals k ds ↔ PresentIn ds k r := by
  simp only [allVals, List.mem_flatMap, PresentIn]
  refine exists_congr fun d => and_congr_right fun _ => ?_
  rcases h : Dict.get? d k with _ | (_ | vs) <;> simp

theorem hasKey_iff (a : Accessor) (k : String) :
    a.hasKey k = true ↔ Defined a.dicts k ∨ Defined [a.dflt] k := by
  have aux : ∀ d : Features, (match Dict.get? d k with | some (some _) => true | _ => false) = true ↔
      ∃ vs, Dict.get? d k = some (some vs) := by
    intro d
    rcases h : Dict.get? d k with _ | (_ | vs) <;> simp
  simp only [Accessor.hasKey, Bool.or_eq_true, List.any_eq_true, Defined, List.mem_singleton,
    exists_eq_left]
  exact or_congr (exists_congr fun d => and_congr_right fun _ => aux d) (aux _)

theorem get_spec (a : Accessor) (k : String) (h : a.hasKey k = true) :
    ∃ vs, a.get k = .ok vs ∧ ∀ r, r ∈ vs ↔ Observed a k r := by
  rw [hasKey_iff] at h
  unfold Accessor.get
  rcases collect_none k a.dicts with ⟨hd, hc⟩ | ⟨hd, hc⟩
  · rw [hc]
    refine ⟨_, rfl, fun r => ?_⟩
    rw [List.mem_dedup, mem_allVals]
    constructor
    · intro h; exact Or.inl h
    · rintro (h | ⟨h, _⟩)
      · exact h
      · exact absurd hd h
  · rw [hc]
    rcases h with h | h
    · exact absurd h hd
    · obtain ⟨d, hdm, vs, hvs⟩ := h
      rw [List.mem_singleton] at hdm; subst hdm
      simp only [hvs, Option.join]
      refine ⟨_, rfl, fun r => ?_⟩
      simp only [List.mem_dedup]
      constructor
      · intro h; exact Or.inr ⟨hd, _, List.mem_singleton.mpr rfl, vs, hvs, h⟩
      · rintro (h | ⟨_, d, hdm, vs', hvs', h⟩)
        · obtain ⟨d, hdm, vs', hvs', h⟩ := h
          exact absurd ⟨d, hdm, vs', hvs'⟩ hd
        · rw [List.mem_singleton] at hdm; subst hdm
          rw [hvs] at hvs'; cases hvs'; exact h

theorem observed_hasKey {a : Accessor} {k : String} {r : RawVal} (h : Observed a k r) :
    a.hasKey k = true := by
  rw [hasKey_iff]
  rcases h with ⟨d, hd, vs, hv, _⟩ | ⟨_, d, hd, vs, hv, _⟩
  · exact Or.inl ⟨d, hd, vs, hv⟩
  · exact Or.inr ⟨d, hd, vs, hv⟩

/-! ### fixed features -/

theorem featureMatches_iff (c : NumCodec) (v : Val) (vals : List RawVal) :
    featureMatches c v vals = true ↔ ∃ r ∈ vals, Meets c v r := by
  unfold featureMatches
  constructor
  · intro h
    split at h
    · rename_i h1
      obtain ⟨r, hr, h2⟩ := List.any_eq_true.mp h1
      refine ⟨r, hr, ?_⟩
      cases r <;> cases v <;> simp [rawIs, Val.canon] at h2
      · subst h2; exact Meets.text _
      · subst h2; exact Meets.intInt _
      · exact Meets.fltInt _ _ h2.symm
      · exact Meets.intFlt _ _ h2
      · subst h2; exact Meets.fltFlt _
    · cases v with
      | str s =>
        obtain ⟨r, hr, h2⟩ := List.any_eq_true.mp h
        simp at h2; subst h2
        exact ⟨_, hr, Meets.textBytes _⟩
      | int i =>
        obtain ⟨r, hr, h2⟩ := List.any_eq_true.mp h
        have h2 := of_decide_eq_true h2; simp only [showVal] at h2; subst h2
        exact ⟨_, hr, Meets.intText _⟩
      | flt q =>
        obtain ⟨r, hr, h2⟩ := List.any_eq_true.mp h
        have h2 := of_decide_eq_true h2; simp only [showVal] at h2; subst h2
        exact ⟨_, hr, Meets.fltText _⟩
  · rintro ⟨r, hr, hm⟩
    split
    · rfl
    · rename_i h1
      have h1' : ∀ r ∈ vals, rawIs v r = false := by
        intro r hr
        by_contra hne
        exact h1 (List.any_eq_true.mpr ⟨r, hr, by simpa using hne⟩)
      cases hm with
      | text s => have := h1' _ hr; simp [rawIs, Val.canon] at this
      | textBytes s => exact List.any_eq_true.mpr ⟨_, hr, by simp⟩
      | intInt i => have := h1' _ hr; simp [rawIs, Val.canon] at this
      | intFlt i q hq => have := h1' _ hr; simp [rawIs, Val.canon, hq] at this
      | fltInt i q hq => have := h1' _ hr; simp [rawIs, Val.canon, hq] at this
      | fltFlt q => have := h1' _ hr; simp [rawIs, Val.canon] at this
      | intText i => exact List.any_eq_true.mpr ⟨_, hr, by simp [showVal]⟩
      | fltText q => exact List.any_eq_true.mpr ⟨_, hr, by simp [showVal]⟩

theorem checkFeatures_spec (c : NumCodec) (a : Accessor) (feats : List Entry) :
    (checkFeatures c a feats = .ok true ∧ ∀ e ∈ feats, ∃ r, Observed a e.1 r ∧ Meets c e.2 r) ∨
    (checkFeatures c a feats = .ok false ∧ ¬ ∀ e ∈ feats, ∃ r, Observed a e.1 r ∧ Meets c e.2 r) := by
  induction feats with
  | nil => left; simp [checkFeatures]
  | cons e feats ih =>
    obtain ⟨k, v⟩ := e
    unfold checkFeatures
    by_cases hk : a.hasKey k = true
    · obtain ⟨vs, hg, hvs⟩ := get_spec a k hk
      rw [if_pos hk, hg]
      by_cases hm : featureMatches c v vs = true
      · simp only [hm, if_true]
        obtain ⟨r, hr, hmr⟩ := (featureMatches_iff c v vs).mp hm
        have hhead : ∃ r, Observed a k r ∧ Meets c v r := ⟨r, (hvs r).mp hr, hmr⟩
        rcases ih with ⟨h1, h2⟩ | ⟨h1, h2⟩
        · left; refine ⟨h1, ?_⟩
          intro e he
          rcases List.mem_cons.mp he with rfl | he
          · exact hhead
          · exact h2 e he
        · right; exact ⟨h1, fun h => h2 fun e he => h e (List.mem_cons_of_mem _ he)⟩
      · right
        simp only [hm]
        refine ⟨rfl, fun h => hm ?_⟩
        obtain ⟨r, hr, hmr⟩ := h (k, v) (by simp)
        exact (featureMatches_iff c v vs).mpr ⟨r, (hvs r).mpr hr, hmr⟩
    · right
      rw [if_neg hk]
      refine ⟨rfl, fun h => hk ?_⟩
      obtain ⟨r, hr, _⟩ := h (k, v) (by simp)
      exact observed_hasKey hr

/-! ### columns -/

theorem columnValue_ok_iff (r : RawVal) (v : Val) : columnValue r = .ok v ↔ Reads r v := by
  constructor
  · intro h
    cases r with
    | str s => simp [columnValue] at h; subst h; exact Reads.str _
    | int s => simp [columnValue] at h; subst h; exact Reads.int _
    | flt s => simp [columnValue] at h; subst h; exact Reads.flt _
    | bytes b =>
      simp only [columnValue] at h
      split at h
      · rename_i s hs
        cases h
        unfold String.fromUTF8? at hs
        split at hs
        · rename_i hv
          cases hs
          exact Reads.bytes (String.fromUTF8 b hv)
        · cases hs
      · cases h
  · intro h
    cases h with
    | str s => rfl
    | int s => rfl
    | flt s => rfl
    | bytes s =>
      have : String.fromUTF8? s.toByteArray = some s := by
        unfold String.fromUTF8?
        rw [dif_pos s.isValidUTF8]
        rfl
      simp [columnValue, this]

theorem mapE_ok_iff {α β : Type} (f : α → Except Err β) (l : List α) (ys : List β) :
    mapE f l = .ok ys ↔ List.Forall₂ (fun x y => f x = .ok y) l ys := by
  induction l generalizing ys with
  | nil => simp [mapE]
  | cons x xs ih =>
    unfold mapE
    constructor
    · intro h
      split at h
      · cases h
      · rename_i y hy
        split at h
        · cases h
        · rename_i ys' hys
          cases h
          exact List.Forall₂.cons hy ((ih _).mp hys)
    · intro h
      cases h with
      | cons hy hys => rw [hy, (ih _).mpr hys]

theorem mapE_error {α β : Type} (f : α → Except Err β) (l : List α) {e} (h : mapE f l = .error e) :
    ∃ x ∈ l, f x = .error e := by
  induction l with
  | nil => simp [mapE] at h
  | cons x xs ih =>
    unfold mapE at h
    split at h
    · rename_i e' he
      cases h; exact ⟨x, by simp, he⟩
    · split at h
      · rename_i e' he
        cases h
        obtain ⟨y, hy, h2⟩ := ih he
        exact ⟨y, List.mem_cons_of_mem _ hy, h2⟩
      · cases h

theorem mapE_mem {α β : Type} {f : α → Except Err β} {l : List α} {ys : List β}
    (h : mapE f l = .ok ys) (y : β) : y ∈ ys ↔ ∃ x ∈ l, f x = .ok y := by
  rw [mapE_ok_iff] at h
  induction h with
  | nil => simp
  | cons hxy _ ih =>
    simp only [List.mem_cons, ih, exists_eq_or_imp, hxy, Except.ok.injEq]
    constructor
    · rintro (h | h)
      · exact Or.inl h.symm
      · exact Or.inr h
    · rintro (h | h)
      · exact Or.inl h.symm
      · exact Or.inr h

/-- one column's matches are the displayed values of the column. -/
def IsMatch (a : Accessor) (col : String) (m : List Entry) : Prop :=
  ∀ e, e ∈ m ↔ e.1 = col ∧ ∃ r, Observed a col r ∧ Reads r e.2

theorem columnMatches_ok {a : Accessor} {cols : List String} {res}
    (h : columnMatches a cols = .ok res) :
    match res with
    | some ms => List.Forall₂ (IsMatch a) cols ms
    | none => ∃ col ∈ cols, ∀ r, ¬ Observed a col r := by
  induction cols generalizing res with
  | nil => simp [columnMatches] at h; subst h; exact List.Forall₂.nil
  | cons col rest ih =>
    unfold columnMatches at h
    by_cases hk : a.hasKey col = true
    · obtain ⟨vs, hg, hvs⟩ := get_spec a col hk
      rw [if_pos hk, hg] at h
      simp only at h
      split at h
      · cases h
      · rename_i ys hys
        split at h
        · cases h
        · rename_i hrest
          cases h
          obtain ⟨col', hc', h'⟩ := ih hrest
          exact ⟨col', List.mem_cons_of_mem _ hc', h'⟩
        · rename_i ms hms
          cases h
          refine List.Forall₂.cons ?_ (ih hms)
          rintro ⟨k, v⟩
          simp only [List.mem_map, Prod.mk.injEq]
          constructor
          · rintro ⟨v', hv', rfl, rfl⟩
            refine ⟨rfl, ?_⟩
            obtain ⟨r, hr, hrv⟩ := (mapE_mem hys v').mp hv'
            exact ⟨r, (hvs r).mp hr, (columnValue_ok_iff r v').mp hrv⟩
          · rintro ⟨rfl, r, hr, hrv⟩
            exact ⟨v, (mapE_mem hys v).mpr ⟨r, (hvs r).mpr hr, (columnValue_ok_iff r v).mpr hrv⟩, rfl, rfl⟩
    · rw [if_neg hk] at h
      cases h
      exact ⟨col, by simp, fun r hr => hk (observed_hasKey hr)⟩

theorem columnMatches_error {a : Accessor} {cols : List String} {e}
    (h : columnMatches a cols = .error e) :
    e = .valueError ∧ ∃ col ∈ cols, ∃ b, Observed a col (.bytes b) ∧ ¬ b.IsValidUTF8 := by
  induction cols with
  | nil => simp [columnMatches] at h
  | cons col rest ih =>
    unfold columnMatches at h
    by_cases hk : a.hasKey col = true
    · obtain ⟨vs, hg, hvs⟩ := get_spec a col hk
      rw [if_pos hk, hg] at h
      simp only at h
      split at h
      · rename_i e' he
        cases h
        obtain ⟨r, hr, h2⟩ := mapE_error _ _ he
        cases r with
        | str s => simp [columnValue] at h2
        | int s => simp [columnValue] at h2
        | flt s => simp [columnValue] at h2
        | bytes b =>
          simp only [columnValue] at h2
          split at h2
          · cases h2
          · rename_i hn
            cases h2
            refine ⟨rfl, col, by simp, b, (hvs _).mp hr, ?_⟩
            intro hv
            unfold String.fromUTF8? at hn
            rw [dif_pos hv] at hn
            cases hn
      · split at h
        · rename_i e' he
          cases h
          obtain ⟨h1, col', hc', h'⟩ := ih he
          exact ⟨h1, col', List.mem_cons_of_mem _ hc', h'⟩
        · cases h
        · cases h
    · rw [if_neg hk] at h; cases h

theorem mem_product {α : Type} (ls : List (List α)) (x : List α) :
    x ∈ product ls ↔ List.Forall₂ (fun a l => a ∈ l) x ls := by
  induction ls generalizing x with
  | nil => simp [product]
  | cons l ls ih =>
    simp only [product, List.mem_flatMap, List.mem_map]
    constructor
    · rintro ⟨a, ha, r, hr, rfl⟩
      exact List.Forall₂.cons ha ((ih r).mp hr)
    · intro h
      cases h with
      | cons ha hr => exact ⟨_, ha, _, (ih _).mpr hr, rfl⟩

theorem product_columns (a : Accessor) (cols : List String) (hn : cols.Nodup)
    (ms : List (List Entry)) (h : List.Forall₂ (IsMatch a) cols ms) (part : List Entry) :
    part ∈ product ms ↔
      ∃ choice : String → Val, (∀ col ∈ cols, ∃ r, Observed a col r ∧ Reads r (choice col)) ∧
        part = cols.map (fun col => (col, choice col)) := by
  rw [mem_product]
  induction h generalizing part with
  | nil =>
    constructor
    · intro h; cases h; exact ⟨fun _ => .int 0, by simp⟩
    · rintro ⟨_, _, rfl⟩; exact List.Forall₂.nil
  | @cons col m cols ms hm hrest ih =>
    have hn' := List.nodup_cons.mp hn
    constructor
    · intro h
      cases h with
      | @cons e _ part' _ he hp =>
        obtain ⟨choice, h1, rfl⟩ := (ih hn'.2 part').mp hp
        obtain ⟨hk, r, hr, hrv⟩ := (hm e).mp he
        refine ⟨Function.update choice col e.2, ?_, ?_⟩
        · intro col' hc'
          rcases List.mem_cons.mp hc' with rfl | hc'
          · exact ⟨r, hr, by simpa using hrv⟩
          · have : col' ≠ col := fun e => hn'.1 (e ▸ hc')
            rw [Function.update_of_ne this]
            exact h1 col' hc'
        · rw [List.map_cons]
          congr 1
          · rw [Function.update_self, ← hk]
          · refine List.map_congr_left ?_
            intro col' hc'
            have : col' ≠ col := fun e => hn'.1 (e ▸ hc')
            rw [Function.update_of_ne this]
    · rintro ⟨choice, h1, rfl⟩
      rw [List.map_cons]
      refine List.Forall₂.cons ?_ ((ih hn'.2 _).mpr ⟨choice, ?_, rfl⟩)
      · exact (hm _).mpr ⟨rfl, h1 col (by simp)⟩
      · exact fun col' hc' => h1 col' (List.mem_cons_of_mem _ hc')

end Slicer
end TFMA
