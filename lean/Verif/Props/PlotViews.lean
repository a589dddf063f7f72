import Verif.Model.PlotViews
import Verif.Props.MetricKeys
import Verif.Props.EvalResults
import Verif.Props.Slicer

/-!
# C115: a computed plot is the plot that is shown
-/

namespace TFMA
namespace PlotViews

open Slicer MetricKeys EvalResults Views

variable {N : Type}

/-! ## Specification -/

/-- A plot key as computations produce it: no aggregation type, no diff, and a valid, not empty sub key whose numbers fit into 32 bits. -/
structure Plain (m : MetricKey) : Prop where
  agg : m.aggregationType = none
  diff : m.isDiff = false
  sub : ∀ s, m.subKey = some s → s.Valid ∧ s.Small ∧ s ≠ ⟨none, none, none⟩

/-- Plots of the same model, output and sub key: the view tells no more than these apart. -/
def SamePlace (a b : MetricKey) : Prop :=
  a.modelName = b.modelName ∧ a.outputName = b.outputName ∧ a.subKey = b.subKey

/-- The names of the plots that are stored together. -/
def DefaultName (n : String) : Prop := n = "confusion_matrix_plot" ∨ n = "calibration_plot"

/-- Plots that are stored together: same place, same weighting, and same name or both with a default name. -/
def SameGroup (a b : MetricKey) : Prop :=
  SamePlace a b ∧ a.exampleWeighted = b.exampleWeighted ∧ (a.name = b.name ∨ DefaultName a.name ∧ DefaultName b.name)

/-- The series as it is shown: fields that are not a number are empty. -/
def display (s : Series N) : ShownSeries N :=
  s.map fun entry => entry.map fun f => (f.1, match f.2 with | .nan => none | .value n => some n)

/-! ## Lemmas -/

private def subText : Option SubKey → String
  | none => ""
  | some s => match subKeyStr s with
    | .ok t => t
    | .error _ => ""

private theorem str_ok {s : SubKey} (h : s ≠ ⟨none, none, none⟩) : subKeyStr s = .ok (subText (some s)) := by
  obtain ⟨c, k, t⟩ := s
  cases k <;> cases c <;> cases t <;> simp_all [subKeyStr, subText]

private theorem exclusive_of_valid {s : SubKey} (h : s.Valid) : Exclusive s :=
  (exclusive_new ((C43_subkey_new s.classId s.k s.topK).1 h)).1

private theorem subText_inj {a b : Option SubKey}
    (ha : ∀ s, a = some s → s.Valid ∧ s.Small ∧ s ≠ ⟨none, none, none⟩)
    (hb : ∀ s, b = some s → s.Valid ∧ s.Small ∧ s ≠ ⟨none, none, none⟩) (h : subText a = subText b) : a = b := by
  cases a with
  | none => cases b with
    | none => rfl
    | some b =>
      have := str_ok (hb b rfl).2.2
      exact absurd h.symm (subKeyStr_ne this).1
  | some a =>
    have e1 := str_ok (ha a rfl).2.2
    cases b with
    | none => exact absurd h (subKeyStr_ne e1).1
    | some b =>
      have e2 := str_ok (hb b rfl).2.2
      rw [← h] at e2
      rw [subKeyStr_inj (exclusive_of_valid (ha a rfl).1) (exclusive_of_valid (hb b rfl).1) e1 e2]

private theorem small_proto {s : SubKey} (hs : s.Small) : s.toProto = .ok ⟨s.classId, s.k, s.topK⟩ := by
  have ok (x : Option ℤ) (h : ∀ v, x = some v → -2147483648 ≤ v ∧ v ≤ 2147483647) : int32 x = .ok x := by
    cases x with
    | none => rfl
    | some v => simp [int32, h v rfl]
  unfold SubKey.toProto
  rw [ok _ fun v hv => hs v (Or.inl hv), ok _ fun v hv => hs v (Or.inr (Or.inl hv)),
    ok _ fun v hv => hs v (Or.inr (Or.inr hv))]
  rfl

private theorem proto_id {s : SubKey} (hv : s.Valid) (hn : s ≠ ⟨none, none, none⟩) :
    subKeyId (some ⟨s.classId, s.k, s.topK⟩) = .ok (subText (some s)) := by
  have h1 : SubKey.fromProto ⟨s.classId, s.k, s.topK⟩ = .ok (some s) := by
    have := (C43_subkey_new s.classId s.k s.topK).1 hv
    simp only [SubKey.fromProto, this, Except.map]
    rw [if_neg]
    rintro ⟨a, b, c⟩
    apply hn
    obtain ⟨x, y, z⟩ := s
    simp_all
  simp only [subKeyId, h1, str_ok hn]

/-- Where a stored key is put when it is loaded. -/
private def At (pb : MetricKeyPb) (m o s : String) : Prop := pb.modelName = m ∧ pb.outputName = o ∧ subKeyId pb.subKey = .ok s

private theorem parent_proto {m : MetricKey} (h : Plain m) :
    ∃ pb, parentToProto (parentKey m) = .ok pb ∧ At pb m.modelName m.outputName (subText m.subKey) := by
  have hr : (parentKey m).2 = { m with name := "" } := by unfold parentKey; split <;> rfl
  simp only [parentToProto, hr]
  cases hs : m.subKey with
  | none =>
    refine ⟨_, by simp only [MetricKey.plotToProto, MetricKey.toProto, hs, subKeyPb]; rfl, rfl, rfl, rfl⟩
  | some s =>
    obtain ⟨h1, h2, h3⟩ := h.sub s hs
    have e := small_proto h2
    exact ⟨_, by simp only [MetricKey.plotToProto, MetricKey.toProto, hs, subKeyPb, e]; rfl, rfl, rfl, proto_id h1 h3⟩

private theorem parent_eq_iff {a b : MetricKey} (ha : Plain a) (hb : Plain b) : parentKey a = parentKey b ↔ SameGroup a b := by
  obtain ⟨n, m, o, s, g, w, d⟩ := a
  obtain ⟨n', m', o', s', g', w', d'⟩ := b
  have h1 := ha.agg
  have h2 := hb.agg
  have h3 := ha.diff
  have h4 := hb.diff
  simp only at h1 h2 h3 h4
  subst h1 h2 h3 h4
  simp only [parentKey, SameGroup, SamePlace, DefaultName]
  split <;> split <;> rename_i x y <;> simp only [Prod.mk.injEq, MetricKey.mk.injEq, true_and, and_true, reduceCtorEq, false_and,
    Option.some.injEq, false_iff]
  · constructor
    · rintro ⟨a, b, c, d⟩; exact ⟨⟨a, b, c⟩, d, .inr ⟨x, y⟩⟩
    · rintro ⟨⟨a, b, c⟩, d, _⟩; exact ⟨a, b, c, d⟩
  · rintro ⟨_, _, rfl | h⟩
    · exact y x
    · exact y h.2
  · rintro ⟨_, _, rfl | h⟩
    · exact x y
    · exact x h.1
  · constructor
    · rintro ⟨a, b, c, d, e⟩; exact ⟨⟨b, c, d⟩, e, .inl a⟩
    · rintro ⟨⟨b, c, d⟩, e, h | h⟩
      · exact ⟨h, b, c, d, e⟩
      · exact absurd h.1 x

private theorem parent_place {a b : MetricKey} (h : parentKey a = parentKey b) : SamePlace a b := by
  have h2 := congrArg Prod.snd h
  simp only [parentKey] at h2
  split at h2 <;> split at h2 <;> simp only [MetricKey.mk.injEq] at h2 <;> exact ⟨h2.2.1, h2.2.2.1, h2.2.2.2.1⟩

/-- The plots with a parent key, put together. -/
private def groupOf (d : PlotData N) (p : ParentKey) (ps : List (MetricKey × PlotValue N)) : PlotData N :=
  (ps.filter fun x => decide (parentKey x.1 = p)).foldl (fun d x => putPlot d x.2) d

private theorem write_ok (ps : List (MetricKey × PlotValue N)) (hp : ∀ x ∈ ps, Plain x.1)
    (acc : Dict ParentKey (MetricKeyPb × PlotData N)) :
    ∃ acc', writeLoop ps acc = .ok acc' := by
  induction ps generalizing acc with
  | nil => exact ⟨acc, rfl⟩
  | cons x rest ih =>
    obtain ⟨k, v⟩ := x
    have ih := ih fun x hx => hp x (List.mem_cons_of_mem _ hx)
    simp only [writeLoop]
    split
    · exact ih _
    · obtain ⟨pb, h, _⟩ := parent_proto (hp (k, v) List.mem_cons_self)
      simp only [h]
      exact ih _

private theorem write_get (ps : List (MetricKey × PlotValue N)) (acc acc' : Dict ParentKey (MetricKeyPb × PlotData N))
    (h : writeLoop ps acc = .ok acc') (p : ParentKey) :
    Dict.get? acc' p = match Dict.get? acc p with
      | some (pb, d) => some (pb, groupOf d p ps)
      | none => if ∃ x ∈ ps, parentKey x.1 = p then (parentToProto p).toOption.map fun pb => (pb, groupOf [] p ps) else none := by
  induction ps generalizing acc with
  | nil =>
    simp only [writeLoop, Except.ok.injEq] at h
    subst h
    cases Dict.get? acc p <;> simp [groupOf]
  | cons x rest ih =>
    obtain ⟨k, v⟩ := x
    simp only [writeLoop] at h
    split at h
    · rename_i pb d hk
      have ih := ih _ h
      rw [ih, Dict.get?_set]
      by_cases hkp : parentKey k = p
      · subst hkp
        simp [hk, groupOf]
      · simp only [hkp, if_false]
        have hg (d : PlotData N) : groupOf d p ((k, v) :: rest) = groupOf d p rest := by simp [groupOf, hkp]
        have he : (∃ x ∈ (k, v) :: rest, parentKey x.1 = p) ↔ ∃ x ∈ rest, parentKey x.1 = p := by simp [hkp]
        simp only [hg, he]
    · rename_i hk
      split at h
      · cases h
      · rename_i pb hpb
        have ih := ih _ h
        rw [ih, Dict.get?_set]
        by_cases hkp : parentKey k = p
        · subst hkp
          simp [hk, groupOf, hpb, Except.toOption]
        · simp only [hkp, if_false]
          have hg (d : PlotData N) : groupOf d p ((k, v) :: rest) = groupOf d p rest := by simp [groupOf, hkp]
          have he : (∃ x ∈ (k, v) :: rest, parentKey x.1 = p) ↔ ∃ x ∈ rest, parentKey x.1 = p := by simp [hkp]
          simp only [hg, he]

private theorem write_wf (ps : List (MetricKey × PlotValue N)) (acc acc' : Dict ParentKey (MetricKeyPb × PlotData N))
    (hwf : acc.WF) (h : writeLoop ps acc = .ok acc') : acc'.WF := by
  induction ps generalizing acc with
  | nil => simp only [writeLoop, Except.ok.injEq] at h; exact h ▸ hwf
  | cons x rest ih =>
    obtain ⟨k, v⟩ := x
    simp only [writeLoop] at h
    split at h
    · exact ih _ (Dict.WF_set hwf _ _) h
    · split at h
      · cases h
      · exact ih _ (Dict.WF_set hwf _ _) h

/-- The plots at a place. -/
private def lookAt (maps : Dict String (PlotsByOutput N)) (m o s : String) : Option (PlotData N) :=
  ((Dict.get? maps m).bind fun x => Dict.get? x o).bind fun x => Dict.get? x s

private theorem lookAt_set (maps : Dict String (PlotsByOutput N)) (m o s m' o' s' : String) (d : PlotData N) :
    lookAt (Dict.set maps m (Dict.set ((Dict.get? maps m).getD []) o
      (Dict.set ((Dict.get? ((Dict.get? maps m).getD []) o).getD []) s d))) m' o' s' =
      if m = m' ∧ o = o' ∧ s = s' then some d else lookAt maps m' o' s' := by
  simp only [lookAt, Dict.get?_set]
  by_cases hm : m = m'
  · subst hm
    simp only [if_true, Option.bind_some, Dict.get?_set]
    by_cases ho : o = o'
    · subst ho
      simp only [if_true, Option.bind_some, Dict.get?_set, true_and]
      by_cases hs : s = s'
      · simp [hs]
      · simp only [hs, if_false]
        cases Dict.get? maps m with
        | none => simp
        | some x => cases hx : Dict.get? x o <;> simp [hx]
    · simp only [ho, if_false, false_and, and_false]
      cases Dict.get? maps m <;> simp
  · simp [hm]

private theorem fill_ok (l : List (MetricKeyPb × PlotData N)) (h : ∀ x ∈ l, ∃ m o s, At x.1 m o s) (maps : Dict String (PlotsByOutput N)) :
    ∃ maps', fillPlots l maps = .ok maps' := by
  induction l generalizing maps with
  | nil => exact ⟨maps, rfl⟩
  | cons x rest ih =>
    obtain ⟨m, o, s, _, _, h3⟩ := h x List.mem_cons_self
    obtain ⟨k, d⟩ := x
    simp only at h3
    simp only [fillPlots, h3]
    exact ih (fun x hx => h x (List.mem_cons_of_mem _ hx)) _

/-- What is found at a place comes from one stored entry for that place. -/
private theorem fill_from (l : List (MetricKeyPb × PlotData N)) (maps maps' : Dict String (PlotsByOutput N))
    (h : fillPlots l maps = .ok maps') (m o s : String) (d : PlotData N) (hd : lookAt maps' m o s = some d) :
    lookAt maps m o s = some d ∨ ∃ x ∈ l, At x.1 m o s ∧ x.2 = d := by
  induction l generalizing maps with
  | nil =>
    simp only [fillPlots, Except.ok.injEq] at h
    exact .inl (h ▸ hd)
  | cons x rest ih =>
    obtain ⟨k, d'⟩ := x
    simp only [fillPlots] at h
    split at h
    · cases h
    · rename_i sub hs
      rcases ih _ h with h1 | ⟨x, hx, h1⟩
      · rw [lookAt_set] at h1
        split at h1
        · rename_i hc
          obtain ⟨rfl, rfl, rfl⟩ := hc
          exact .inr ⟨(k, d'), List.mem_cons_self, ⟨rfl, rfl, hs⟩, Option.some.inj h1⟩
        · exact .inl h1
      · exact .inr ⟨x, List.mem_cons_of_mem _ hx, h1⟩

/-- If some stored entry is for a place, then something is found there. -/
private theorem fill_some (l : List (MetricKeyPb × PlotData N)) (maps maps' : Dict String (PlotsByOutput N))
    (h : fillPlots l maps = .ok maps') (m o s : String)
    (hx : (lookAt maps m o s).isSome ∨ ∃ x ∈ l, At x.1 m o s) : (lookAt maps' m o s).isSome := by
  induction l generalizing maps with
  | nil =>
    simp only [fillPlots, Except.ok.injEq] at h
    subst h
    rcases hx with h | ⟨x, hx, _⟩
    · exact h
    · exact absurd hx List.not_mem_nil
  | cons x rest ih =>
    obtain ⟨k, d'⟩ := x
    simp only [fillPlots] at h
    split at h
    · cases h
    · rename_i sub hs
      refine ih _ h ?_
      rw [lookAt_set]
      by_cases hc : k.modelName = m ∧ k.outputName = o ∧ sub = s
      · left; simp [hc]
      · rw [if_neg hc]
        rcases hx with hx | ⟨x, hx, ha⟩
        · exact .inl hx
        · rcases List.mem_cons.1 hx with rfl | hx
          · obtain ⟨h1, h2, h3⟩ := ha
            simp only at h1 h2 h3
            rw [h3] at hs
            exact absurd ⟨h1, h2, (Except.ok.inj hs).symm⟩ hc
          · exact .inr ⟨x, hx, ha⟩

private theorem group_from (ps : List (MetricKey × PlotValue N)) (p : ParentKey) (d : PlotData N) (kind : Kind) (series : Series N)
    (h : Dict.get? (groupOf d p ps) kind = some series) :
    Dict.get? d kind = some series ∨ ∃ key, (key, .plot kind series) ∈ ps ∧ parentKey key = p := by
  induction ps generalizing d with
  | nil => exact .inl h
  | cons x rest ih =>
    obtain ⟨k, v⟩ := x
    simp only [groupOf, List.filter_cons] at h
    by_cases hk : parentKey k = p
    · simp only [hk, decide_true, if_true, List.foldl_cons] at h
      rcases ih _ h with h1 | ⟨key, h1, h2⟩
      · cases v with
        | unknown => exact .inl h1
        | plot kind' s' =>
          simp only [putPlot, Dict.get?_set] at h1
          split at h1
          · rename_i e
            subst e
            cases h1
            exact .inr ⟨k, List.mem_cons_self, hk⟩
          · exact .inl h1
      · exact .inr ⟨key, List.mem_cons_of_mem _ h1, h2⟩
    · simp only [hk, decide_false, Bool.false_eq_true, if_false] at h
      rcases ih _ h with h1 | ⟨key, h1, h2⟩
      · exact .inl h1
      · exact .inr ⟨key, List.mem_cons_of_mem _ h1, h2⟩

private theorem group_some (ps : List (MetricKey × PlotValue N)) (p : ParentKey) (d : PlotData N) (kind : Kind)
    (h : (Dict.get? d kind).isSome ∨ ∃ key series, (key, .plot kind series) ∈ ps ∧ parentKey key = p) :
    (Dict.get? (groupOf d p ps) kind).isSome := by
  induction ps generalizing d with
  | nil => rcases h with h | ⟨_, _, h, _⟩
           · exact h
           · exact absurd h List.not_mem_nil
  | cons x rest ih =>
    obtain ⟨k, v⟩ := x
    simp only [groupOf, List.filter_cons]
    by_cases hk : parentKey k = p
    · simp only [hk, decide_true, if_true, List.foldl_cons]
      refine ih _ ?_
      cases v with
      | unknown =>
        rcases h with h | ⟨key, series, h, hp⟩
        · exact .inl h
        · rcases List.mem_cons.1 h with h | h
          · cases h
          · exact .inr ⟨key, series, h, hp⟩
      | plot kind' s' =>
        simp only [putPlot, Dict.get?_set]
        by_cases e : kind' = kind
        · left; simp [e]
        · simp only [e, if_false]
          rcases h with h | ⟨key, series, h, hp⟩
          · exact .inl h
          · rcases List.mem_cons.1 h with h | h
            · cases h; exact absurd rfl e
            · exact .inr ⟨key, series, h, hp⟩
    · simp only [hk, decide_false, Bool.false_eq_true, if_false]
      refine ih _ ?_
      rcases h with h | ⟨key, series, h, hp⟩
      · exact .inl h
      · rcases List.mem_cons.1 h with h | h
        · cases h; exact absurd hp hk
        · exact .inr ⟨key, series, h, hp⟩

private theorem sort_ok (l : List MetricKey) (h : ∀ k ∈ l, Plain k) : sortKeys l = .ok l := by
  induction l with
  | nil => rfl
  | cons x xs ih =>
    simp only [sortKeys]
    rw [ih fun k hk => h k (List.mem_cons_of_mem _ hk)]
    simp only [bind, Except.bind]
    cases xs with
    | nil => rfl
    | cons y ys =>
      have hlt : MetricKey.lt y x = .ok false := by
        unfold MetricKey.lt
        have e1 := (h x List.mem_cons_self).agg
        have e2 := (h y (List.mem_cons_of_mem _ List.mem_cons_self)).agg
        have e3 : tupleLt (aggTuple y.aggregationType) (aggTuple x.aggregationType) = false := by simp [e1, e2, aggTuple, tupleLt]
        rw [e3]
        repeat' split
        all_goals simp_all
      simp only [insertKey, hlt]
      rfl

private theorem same_list (plots : List (MetricKey × PlotValue N)) (hwf : Dict.WF plots) :
    ((plots.map Prod.fst).filterMap fun k => (Dict.get? plots k).map fun v => (k, v)) = plots := by
  rw [List.filterMap_map]
  have : ∀ x ∈ plots, ((fun k => (Dict.get? plots k).map fun v => (k, v)) ∘ Prod.fst) x = some x := by
    intro x hx
    have := Dict.get?_of_mem hwf (k := x.1) (v := x.2) hx
    simp [this]
  rw [List.filterMap_congr this, List.filterMap_some]

/-- What a record of plots holds after writing. -/
private theorem write_spec (R : SingleRounding) (slice : ResultKey) (key : StoredKey) (hkey : storeKey R slice = .ok key)
    (plots : List (MetricKey × PlotValue N)) (hwf : Dict.WF plots) (hp : ∀ x ∈ plots, Plain x.1)
    (hk : ∀ x ∈ plots, x.2 ≠ .unknown) :
    ∃ acc, writeLoop plots [] = .ok acc ∧ writePlots R slice plots = .ok ⟨key, acc.map Prod.snd⟩ := by
  obtain ⟨acc, h⟩ := write_ok plots hp []
  refine ⟨acc, h, ?_⟩
  have h1 := sort_ok (plots.map Prod.fst) (by
    intro k hk
    obtain ⟨x, hx, rfl⟩ := List.mem_map.1 hk
    exact hp x hx)
  simp only [writePlots, hkey, h1, same_list plots hwf, h]
  rw [if_neg]
  intro hc
  obtain ⟨x, hx, hu⟩ := List.any_eq_true.1 hc
  cases hv : x.2 with
  | unknown => exact hk x hx hv
  | plot a b => simp [hv, PlotValue.isUnknown] at hu

private theorem entry_iff (plots : List (MetricKey × PlotValue N)) (acc : Dict ParentKey (MetricKeyPb × PlotData N))
    (h : writeLoop plots [] = .ok acc) (x : MetricKeyPb × PlotData N) :
    x ∈ acc.map Prod.snd ↔ ∃ k ∈ plots, parentToProto (parentKey k.1) = .ok x.1 ∧ x.2 = groupOf [] (parentKey k.1) plots := by
  have hwf := write_wf plots [] acc Dict.WF_nil h
  constructor
  · intro hx
    obtain ⟨⟨p, x⟩, hm, rfl⟩ := List.mem_map.1 hx
    have hg := Dict.get?_of_mem hwf hm
    rw [write_get plots [] acc h p] at hg
    simp only [Dict.get?_nil] at hg
    split at hg
    · rename_i hk
      obtain ⟨k, hk, rfl⟩ := hk
      refine ⟨k, hk, ?_⟩
      cases hp : parentToProto (parentKey k.1) with
      | error e => simp [hp, Except.toOption] at hg
      | ok pb =>
        simp only [hp, Except.toOption, Option.map_some, Option.some.injEq] at hg
        subst hg
        exact ⟨rfl, rfl⟩
    · cases hg
  · rintro ⟨k, hk, h1, h2⟩
    have hg := write_get plots [] acc h (parentKey k.1)
    simp only [Dict.get?_nil] at hg
    rw [if_pos ⟨k, hk, rfl⟩, h1] at hg
    simp only [Except.toOption, Option.map_some] at hg
    rw [← h2] at hg
    exact List.mem_map.2 ⟨_, Dict.mem_of_get? hg, rfl⟩

private theorem at_unique {pb : MetricKeyPb} {m o s m' o' s' : String} (h : At pb m o s) (h' : At pb m' o' s') : m = m' ∧ o = o' ∧ s = s' := by
  obtain ⟨a, b, c⟩ := h
  obtain ⟨a', b', c'⟩ := h'
  rw [c] at c'
  exact ⟨a.symm.trans a', b.symm.trans b', Except.ok.inj c'⟩

private theorem place_iff {a b : MetricKey} (ha : Plain a) (hb : Plain b) :
    a.modelName = b.modelName ∧ a.outputName = b.outputName ∧ subText a.subKey = subText b.subKey ↔ SamePlace a b := by
  constructor
  · rintro ⟨h1, h2, h3⟩; exact ⟨h1, h2, subText_inj ha.sub hb.sub h3⟩
  · rintro ⟨h1, h2, h3⟩; exact ⟨h1, h2, by rw [h3]⟩

/-- The loaded dictionaries of the record of a slice. -/
private theorem load_spec (plots : List (MetricKey × PlotValue N)) (hp : ∀ x ∈ plots, Plain x.1)
    (acc : Dict ParentKey (MetricKeyPb × PlotData N)) (h : writeLoop plots [] = .ok acc) :
    ∃ maps, fillPlots (acc.map Prod.snd) [] = .ok maps ∧
      (∀ m o s d, lookAt maps m o s = some d → ∃ g ∈ plots, g.1.modelName = m ∧ g.1.outputName = o ∧ subText g.1.subKey = s ∧
        d = groupOf [] (parentKey g.1) plots) ∧
      ∀ g ∈ plots, (lookAt maps g.1.modelName g.1.outputName (subText g.1.subKey)).isSome := by
  have hall : ∀ x ∈ acc.map Prod.snd, ∃ m o s, At x.1 m o s := by
    intro x hx
    obtain ⟨k, hk, h1, _⟩ := (entry_iff plots acc h x).1 hx
    obtain ⟨pb, h2, h3⟩ := parent_proto (hp k hk)
    rw [h1] at h2
    cases h2
    exact ⟨_, _, _, h3⟩
  obtain ⟨maps, hm⟩ := fill_ok (acc.map Prod.snd) hall []
  refine ⟨maps, hm, ?_, ?_⟩
  · intro m o s d hd
    rcases fill_from _ [] maps hm m o s d hd with h1 | ⟨x, hx, hat, rfl⟩
    · simp [lookAt] at h1
    · obtain ⟨k, hk, h1, h2⟩ := (entry_iff plots acc h x).1 hx
      obtain ⟨pb, h3, h4⟩ := parent_proto (hp k hk)
      rw [h1] at h3
      cases h3
      obtain ⟨e1, e2, e3⟩ := at_unique h4 hat
      exact ⟨k, hk, e1, e2, e3, h2⟩
  · intro g hg
    obtain ⟨pb, h3, h4⟩ := parent_proto (hp g hg)
    refine fill_some _ [] maps hm _ _ _ (.inr ⟨(pb, groupOf [] (parentKey g.1) plots), ?_, h4⟩)
    exact (entry_iff plots acc h _).2 ⟨g, hg, h3, rfl⟩

private theorem display_eq (d : PlotData N) (kind : Kind) : Dict.get? (replaceNan d) kind =
    match Dict.get? d kind with
    | some (e :: es) => some (display (e :: es))
    | _ => none := by
  have hs (x : Cell N) : showCell x = match x with | .nan => none | .value n => some n := by cases x <;> rfl
  cases kind <;>
  · simp only [replaceNan, supported, List.filterMap_cons, List.filterMap_nil, display, hs]
    rcases h1 : Dict.get? d .calibration with _ | _ | ⟨_, _⟩ <;> rcases h2 : Dict.get? d .confusion with _ | _ | ⟨_, _⟩ <;>
      rcases h3 : Dict.get? d .multiClass with _ | _ | ⟨_, _⟩ <;> rcases h4 : Dict.get? d .multiLabel with _ | _ | ⟨_, _⟩ <;>
      simp [Dict.get?_cons]

private theorem asked_eq {s : Option SubKey} (hs : ∀ x, s = some x → ([x.classId, x.topK, x.k].filter Option.isSome).length = 1) :
    askedSubKey (s.bind (·.classId)) (s.bind (·.topK)) (s.bind (·.k)) = .ok (subText s) := by
  cases s with
  | none => rfl
  | some x =>
    have := hs x rfl
    obtain ⟨c, k, t⟩ := x
    cases c <;> cases k <;> cases t <;> simp_all [askedSubKey, subText, subKeyStr]

private theorem find_one (c : NumCodec) (name : SliceKey → String) (spec : Spec) {U : Type} (pre post : List (SliceKey × U))
    (x : SliceKey × U) (hx : spec.isSliceApplicable c x.1 = true)
    (ho : ∀ r ∈ pre ++ post, spec.isSliceApplicable c r.1 = false) :
    findAllSlices c name spec ((pre ++ x :: post).map fun r => (ResultKey.slice r.1, r.2)) = .ok [(name x.1, x.2)] := by
  have none (l : List (SliceKey × U)) (h : ∀ r ∈ l, spec.isSliceApplicable c r.1 = false) :
      findAllSlices c name spec (l.map fun r => (ResultKey.slice r.1, r.2)) = .ok [] := by
    induction l with
    | nil => rfl
    | cons r rest ih =>
      simp only [List.map_cons, findAllSlices, isApplicable, h r List.mem_cons_self]
      exact ih fun r hr => h r (List.mem_cons_of_mem _ hr)
  induction pre with
  | nil =>
    have h2 := none post (by simpa using ho)
    simp only [List.nil_append, List.map_cons, findAllSlices, isApplicable, hx, h2]
  | cons r rest ih =>
    have h1 := ho r (by simp)
    simp only [List.cons_append, List.map_cons, findAllSlices, isApplicable, h1]
    exact ih fun r hr => ho r (by simp [List.mem_cons] at hr ⊢; tauto)

/-! ## Theorems -/

/-- **C115** (what holds): the plots of a slice are written, the record is loaded for the model of a plot, and the plot of the slice,
output and sub key is asked for.  The plot is shown exactly, with its fields that are not a number empty, provided that all plots of that
model, output and sub key are stored together (they have the same weighting, and the same name or default names), no other one of them is of
the same kind, and the sub key has one number. -/
theorem C115_shown_partial (R : SingleRounding) (c : NumCodec) (name : SliceKey → String) (slice : SliceKey) (stored : StoredKey)
    (slice' : SliceKey) (hs : storeKey R (.slice slice) = .ok stored) (hd : deserializeKey stored.sliceKey = .ok slice')
    (plots : List (MetricKey × PlotValue N)) (hwf : Dict.WF plots) (hp : ∀ x ∈ plots, Plain x.1) (hu : ∀ x ∈ plots, x.2 ≠ .unknown)
    (key : MetricKey) (kind : Kind) (series : Series N) (hmem : (key, .plot kind series) ∈ plots) (hne : series ≠ [])
    (hone : ∀ x, key.subKey = some x → ([x.classId, x.topK, x.k].filter Option.isSome).length = 1)
    (hplace : ∀ x ∈ plots, SamePlace x.1 key → SameGroup x.1 key)
    (hkind : ∀ k' s', (k', .plot kind s') ∈ plots → SameGroup k' key → k' = key)
    (spec : Spec) (hspec : spec.isSliceApplicable c slice' = true) :
    ∃ r m, writePlots R (.slice slice) plots = .ok r ∧ convertPlots r (some key.modelName) = .ok (some (slice', m)) ∧
      ∀ pre post, (∀ x ∈ pre ++ post, spec.isSliceApplicable c x.1 = false) →
        ∃ shown, getPlotData c name (pre ++ (slice', m) :: post) spec (some key.outputName)
            (key.subKey.bind (·.classId)) (key.subKey.bind (·.topK)) (key.subKey.bind (·.k)) = .ok shown ∧
          Dict.get? shown kind = some (display series) := by
  obtain ⟨acc, hacc, hw⟩ := write_spec R _ stored hs plots hwf hp hu
  obtain ⟨maps, hmaps, hfrom, hsome⟩ := load_spec plots hp acc hacc
  obtain ⟨d, hd'⟩ := Option.isSome_iff_exists.1 (hsome _ hmem)
  obtain ⟨g, hg, e1, e2, e3, rfl⟩ := hfrom _ _ _ _ hd'
  have hkp := hp _ hmem
  have hgp := hp _ hg
  have hgroup := hplace g hg ((place_iff hgp hkp).1 ⟨e1, e2, e3⟩)
  have hpar := (parent_eq_iff hgp hkp).2 hgroup
  have hseries : Dict.get? (groupOf [] (parentKey g.1) plots) kind = some series := by
    obtain ⟨s', hs'⟩ := Option.isSome_iff_exists.1 (group_some plots (parentKey g.1) [] kind (.inr ⟨key, series, hmem, hpar.symm⟩))
    rcases group_from plots _ [] kind s' hs' with h1 | ⟨k', h1, h2⟩
    · simp at h1
    · have hk' := hp _ h1
      have := hkind k' s' h1 ((parent_eq_iff hk' hkp).1 (h2.trans hpar))
      subst this
      have e := Dict.get?_of_mem hwf h1
      rw [Dict.get?_of_mem hwf hmem] at e
      cases e
      exact hs'
  cases hm : Dict.get? maps key.modelName with
  | none => simp [lookAt, hm] at hd'
  | some own =>
    refine ⟨_, some own, hw, ?_, ?_⟩
    · simp only [convertPlots, hmaps, choosePlots, Option.bind_some, hm, hd, Except.map]
    · intro pre post ho
      have hf := find_one c name spec pre post (slice', some own) hspec ho
      simp only [lookAt, hm, Option.bind_some] at hd'
      cases ho' : Dict.get? own key.outputName with
      | none => simp [ho'] at hd'
      | some subs =>
        simp only [ho', Option.bind_some] at hd'
        refine ⟨replaceNan (groupOf [] (parentKey g.1) plots), ?_, ?_⟩
        · simp only [getPlotData, asked_eq hone, hf, Option.getD_some, ho', hd']
          rw [if_neg]
          intro hemp
          rw [List.isEmpty_iff] at hemp
          rw [hemp] at hseries
          simp at hseries
        · rw [display_eq, hseries]
          cases series with
          | nil => exact absurd rfl hne
          | cons e es => rfl

/-- **C115** (nothing else is shown, and what is lost): whatever is shown of a slice for an output and sub key all comes from plots
of one group `g` of that place; so of plots of the same model, output and sub key that have different names (other than the two default names) or different
weighting, only one group is ever shown.  If a model is named then it is a plot of that model. -/
theorem C115_one_group (R : SingleRounding) (slice : ResultKey) (stored : StoredKey) (hs : storeKey R slice = .ok stored)
    (plots : List (MetricKey × PlotValue N)) (hwf : Dict.WF plots) (hp : ∀ x ∈ plots, Plain x.1) (hu : ∀ x ∈ plots, x.2 ≠ .unknown)
    (r : PlotsRecord N) (hr : writePlots R slice plots = .ok r) (model : Option String) (slice' : SliceKey) (m : PlotsByOutput N)
    (hl : convertPlots r model = .ok (some (slice', some m))) (output sub : String) (subs : Dict String (PlotData N)) (d : PlotData N)
    (ho : Dict.get? m output = some subs) (hd : Dict.get? subs sub = some d) :
    ∃ g ∈ plots, g.1.outputName = output ∧ (∀ n, model = some n → n ≠ "" → g.1.modelName = n) ∧
      ∀ kind series, Dict.get? d kind = some series → ∃ key, (key, .plot kind series) ∈ plots ∧ SameGroup key g.1 := by
  obtain ⟨acc, hacc, hw⟩ := write_spec R slice stored hs plots hwf hp hu
  rw [hw] at hr
  cases hr
  obtain ⟨maps, hmaps, hfrom, _⟩ := load_spec plots hp acc hacc
  have hchoose : ∃ n, Dict.get? maps n = some m ∧ ∀ n', model = some n' → n' ≠ "" → n = n' := by
    simp only [convertPlots, hmaps, choosePlots] at hl
    split at hl
    · cases hl
    · rename_i x hx
      split at hx
      · rename_i own hown
        cases hx
        cases hdk : deserializeKey stored.sliceKey with
        | error e => simp [hdk, Except.map] at hl
        | ok k =>
          simp only [hdk, Except.map, Except.ok.injEq, Option.some.injEq, Prod.mk.injEq] at hl
          obtain ⟨n, rfl, hn⟩ := Option.bind_eq_some_iff.1 hown
          refine ⟨n, by rw [hn, hl.2], fun n' h _ => Option.some.inj h⟩
      · split at hx
        · rename_i hc
          cases hx
          cases hdk : deserializeKey stored.sliceKey with
          | error e => simp [hdk, Except.map] at hl
          | ok k =>
            simp only [hdk, Except.map, Except.ok.injEq, Option.some.injEq, Prod.mk.injEq] at hl
            match maps, hc, hl with
            | [(n, own)], _, hl =>
              simp only [List.head?_cons, Option.map_some, Option.some.injEq] at hl
              refine ⟨n, by simp [Dict.get?_cons, hl.2], ?_⟩
              intro n' h1 h2
              rcases hc.1 with h | h
              · simp [h] at h1
              · rw [h] at h1; cases h1; exact absurd rfl h2
        · split at hx
          · cases hx
            cases hdk : deserializeKey stored.sliceKey with
            | error e => simp [hdk, Except.map] at hl
            | ok k => simp [hdk, Except.map] at hl
          · cases hx
  obtain ⟨n, hn, hmodel⟩ := hchoose
  obtain ⟨g, hg, e1, e2, e3, rfl⟩ := hfrom n output sub d (by simp [lookAt, hn, ho, hd])
  refine ⟨g, hg, e2, fun n' h1 h2 => e1.trans (hmodel n' h1 h2), ?_⟩
  intro kind series hk
  rcases group_from plots _ [] kind series hk with h1 | ⟨key, h1, h2⟩
  · simp at h1
  · exact ⟨key, h1, (parent_eq_iff (hp _ h1) (hp _ hg)).1 h2⟩

/-- **C115** (negation): the multi-class confusion matrix plot hides the calibration plot of the same model, output and sub key. -/
theorem C115_names_fails (R : SingleRounding) :
    ((writePlots R (.slice []) [(⟨"calibration_plot", "", "", none, none, some false, false⟩, .plot .calibration [[("a", .value (1 : ℕ))]]),
        (⟨"multi_class_confusion_matrix_plot", "", "", none, none, some false, false⟩, .plot .multiClass [[("b", .value 2)]])]).bind fun r =>
      (convertPlots r none).bind fun x => getPlotData demoCodec (fun _ => "") x.toList ⟨[], []⟩ none none none none) =
      .ok [(.multiClass, [[("b", some 2)]])] := by
  rfl

/-- **C115** (negation): plots of a cross slice are loaded as plots of the overall slice. -/
theorem C115_cross_fails (R : SingleRounding) (b k : SliceKey) (plots : List (MetricKey × PlotValue N)) (r : PlotsRecord N)
    (hr : writePlots R (.cross b k) plots = .ok r) (model : Option String) (slice' : SliceKey) (m : Option (PlotsByOutput N))
    (hl : convertPlots r model = .ok (some (slice', m))) : slice' = [] := by
  have hkey : r.key.sliceKey = [] := by
    simp only [writePlots] at hr
    split at hr
    · cases hr
    · rename_i key hk
      have hc : ∃ x, key = .cross x := by
        simp only [storeKey] at hk
        cases h : serializeCross R (b, k) with
        | error e => simp [h, Except.map] at hk
        | ok x => simp only [h, Except.map, Except.ok.injEq] at hk; exact ⟨x, hk.symm⟩
      obtain ⟨x, rfl⟩ := hc
      split at hr
      · cases hr
      · split at hr
        · cases hr
        · split at hr
          · cases hr
          · cases hr; rfl
  simp only [convertPlots, hkey] at hl
  split at hl
  · cases hl
  · split at hl
    · cases hl
    · have : deserializeKey [] = .ok [] := rfl
      simp only [this, Except.map, Except.ok.injEq, Option.some.injEq, Prod.mk.injEq] at hl
      exact hl.1.symm

private theorem find_length (c : NumCodec) (name : SliceKey → String) (spec : Spec) {U : Type} (l : List (SliceKey × U)) :
    ∃ data, findAllSlices c name spec (l.map fun r => (ResultKey.slice r.1, r.2)) = .ok data ∧
      data.length = l.countP fun r => spec.isSliceApplicable c r.1 := by
  induction l with
  | nil => exact ⟨[], rfl, rfl⟩
  | cons r rest ih =>
    obtain ⟨data, h1, h2⟩ := ih
    cases h : spec.isSliceApplicable c r.1 with
    | false => exact ⟨data, by simp only [List.map_cons, findAllSlices, isApplicable, h, h1], by simp [h, h2]⟩
    | true => exact ⟨(name r.1, r.2) :: data, by simp only [List.map_cons, findAllSlices, isApplicable, h, h1], by simp [h, h2]⟩

/-- **C115**: asking for the plots of a spec that no loaded record or several loaded records match is a ValueError; so the plots of the overall slice cannot be
shown once the plots of a cross slice have been loaded beside them. -/
theorem C115_count (c : NumCodec) (name : SliceKey → String) (results : List (SliceKey × Option (PlotsByOutput N))) (spec : Spec)
    (h : (results.countP fun r => spec.isSliceApplicable c r.1) ≠ 1) (output : Option String) (classId topK k : Option ℤ) :
    getPlotData c name results spec output classId topK k = .error .valueError := by
  obtain ⟨data, h1, h2⟩ := find_length c name spec results
  simp only [getPlotData]
  split
  · rename_i e he
    simp only [askedSubKey] at he
    split at he
    · cases he; rfl
    · split at he <;> cases he
  · simp only [h1]
    match data, h2 with
    | [], _ => rfl
    | [x], h2 => exact absurd h2.symm h
    | _ :: _ :: _, _ => rfl

/-- **C115**: asking for more than one of class, top k and k is a ValueError, whatever was loaded. -/
theorem C115_one_sub_key (c : NumCodec) (name : SliceKey → String) (results : List (SliceKey × Option (PlotsByOutput N))) (spec : Spec)
    (output : Option String) (classId topK k : Option ℤ)
    (h : (classId.isSome ∧ topK.isSome) ∨ (classId.isSome ∧ k.isSome) ∨ (topK.isSome ∧ k.isSome)) :
    getPlotData c name results spec output classId topK k = .error .valueError := by
  have : askedSubKey classId topK k = .error .valueError := by
    cases classId <;> cases topK <;> cases k <;> simp_all [askedSubKey]
  simp only [getPlotData, this]

/-- **C115** (negation): a plot whose sub key has a class id and a top k cannot be asked for. -/
theorem C115_combined_fails (classId topK k : Option ℤ) (x : SubKey) (hv : x.Valid) (hc : x.classId.isSome) (ht : x.topK.isSome) :
    ∀ s, subKeyStr x = .ok s → askedSubKey classId topK k ≠ .ok s := by
  intro s hs ha
  have hne := (subKeyStr_ne hs).1
  have : ∃ y : SubKey, Exclusive y ∧ subKeyStr y = .ok s ∧ ¬ (y.classId.isSome ∧ y.topK.isSome) := by
    simp only [askedSubKey] at ha
    split at ha
    · cases ha
    · split at ha
      · rename_i k _; exact ⟨⟨none, some k, none⟩, by simp [Exclusive], by simpa [subKeyStr] using ha, by simp⟩
      · rename_i t _; exact ⟨⟨none, none, some t⟩, by simp [Exclusive], by simpa [subKeyStr] using ha, by simp⟩
      · rename_i c _; exact ⟨⟨some c, none, none⟩, by simp [Exclusive], by simpa [subKeyStr] using ha, by simp⟩
      · cases ha; exact absurd rfl hne
  obtain ⟨y, h1, h2, h3⟩ := this
  have := subKeyStr_inj (exclusive_of_valid hv) h1 hs h2
  subst this
  exact h3 ⟨hc, ht⟩

/-! ## Examples -/

private def demo : List (MetricKey × PlotValue ℕ) :=
  [(⟨"confusion_matrix_plot", "m", "", some ⟨some 1, none, none⟩, none, none, false⟩,
      .plot .confusion [[("threshold", .value 1), ("precision", .nan)]]),
    (⟨"calibration_plot", "m", "", some ⟨some 1, none, none⟩, none, none, false⟩, .plot .calibration [[("lowerThresholdInclusive", .value 3)]])]

/-- Both plots of the class are shown. -/
example (R : SingleRounding) :
    ((writePlots R (.slice []) demo).bind fun r => (convertPlots r (some "m")).bind fun x =>
      getPlotData demoCodec (fun _ => "") x.toList ⟨[], []⟩ none (some 1) none none) =
      .ok [(.calibration, [[("lowerThresholdInclusive", some 3)]]), (.confusion, [[("threshold", some 1), ("precision", none)]])] := by
  rfl

example : ∀ x ∈ demo, Plain x.1 := by
  intro x hx
  have hv : SubKey.Valid ⟨some 1, none, none⟩ ∧ SubKey.Small ⟨some 1, none, none⟩ := by
    constructor
    · constructor <;> simp
    · intro v hv; simp at hv; subst hv; decide
  simp only [demo, List.mem_cons, List.not_mem_nil, or_false] at hx
  rcases hx with rfl | rfl <;> refine ⟨rfl, rfl, fun s hs => ?_⟩ <;> cases hs <;> exact ⟨hv.1, hv.2, by simp⟩

example : (results : List (SliceKey × Option (PlotsByOutput ℕ))) → results = [([], none), ([], none)] →
    (results.countP fun r => Spec.isSliceApplicable demoCodec ⟨[], []⟩ r.1) ≠ 1 := by
  rintro _ rfl; decide +kernel

end PlotViews
end TFMA
