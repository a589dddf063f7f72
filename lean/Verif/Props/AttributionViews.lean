import Verif.Model.AttributionViews
import Verif.Py.DictLemmas
import Mathlib.Data.List.Forall2

/-!
# C165: the view of attributions
-/

namespace TFMA
namespace AttributionViews

open Slicer Views

variable {F : Type}

/-- The attributions `v` are those that are asked for: of the metric with the name, or of the only metric if no name is given. -/
def Chosen (metric : Option String) (items : Dict String F) (v : F) : Prop :=
  (∃ name, metric = some name ∧ name ≠ "" ∧ (name, v) ∈ items) ∨
  ((metric = none ∨ metric = some "") ∧ ∃ name, items = [(name, v)])

/-- The same keys in the same order, and values in the relation. -/
def Alike {A B : Type} (R : A → B → Prop) (d : List (String × A)) (e : List (String × B)) : Prop :=
  List.Forall₂ (fun x y => x.1 = y.1 ∧ R x.2 y.2) d e

/-- What is shown for a slice. -/
def ShownFor (metric : Option String) (d : Attributions F) (e : ShownAttributions F) : Prop :=
  Alike (Alike (Chosen metric)) d e

/-- Dictionaries are dictionaries at every level. -/
def AllWF (d : Attributions F) : Prop := Dict.WF d ∧ ∀ x ∈ d, Dict.WF x.2 ∧ ∀ y ∈ x.2, Dict.WF y.2

private theorem choose_iff (metric : Option String) (items : Dict String F) (h : Dict.WF items) (v : F) :
    choose metric items = .ok v ↔ Chosen metric items v := by
  unfold choose Chosen
  by_cases hm : metric = none ∨ metric = some ""
  · have hf : metric.filter (fun s => decide (s ≠ "")) = none := by rcases hm with rfl | rfl <;> simp
    rw [hf]
    constructor
    · intro hc
      right
      refine ⟨hm, ?_⟩
      match items, hc with
      | [], hc => simp at hc
      | [(n, w)], hc => simp at hc; exact ⟨n, by rw [hc]⟩
      | _ :: _ :: _, hc => simp at hc
    · rintro (⟨n, hn, hne, _⟩ | ⟨_, n, rfl⟩)
      · rcases hm with rfl | rfl
        · cases hn
        · cases hn; exact absurd rfl hne
      · simp
  · obtain ⟨n, rfl⟩ : ∃ n, metric = some n := by
      cases metric with
      | none => exact absurd (Or.inl rfl) hm
      | some n => exact ⟨n, rfl⟩
    have hne : n ≠ "" := fun e => hm (Or.inr (by rw [e]))
    simp only [Option.filter_some, hne, ne_eq, not_false_eq_true, decide_true, if_true]
    constructor
    · intro hc
      left
      refine ⟨n, rfl, hne, ?_⟩
      split at hc
      · cases hc
      · split at hc
        · rename_i w hw
          cases hc
          exact Dict.mem_of_get? hw
        · cases hc
    · rintro (⟨m, hm', _, hmem⟩ | ⟨h1, _⟩)
      · cases hm'
        have hg := Dict.get?_of_mem h hmem
        simp [Dict.has, hg]
      · exact absurd h1 hm

/-- A loop that sets the keys of a dictionary one after the other appends them. -/
private theorem set_append {V : Type} (d : Dict String V) (k : String) (v : V) (h : k ∉ d.map Prod.fst) :
    Dict.set d k v = d ++ [(k, v)] := by
  induction d with
  | nil => rfl
  | cons x xs ih =>
    have hx : ¬ x.1 = k := fun e => h (by simp [e])
    obtain ⟨a, b⟩ := x
    simp only [Dict.set, List.cons_append]
    rw [if_neg hx, ih fun e => h (by simp only [List.map_cons, List.mem_cons]; exact Or.inr e)]

private theorem subKeyLoop_iff (metric : Option String) (d : Dict String (Dict String F)) (acc : Dict String F)
    (hn : (acc.map Prod.fst ++ d.map Prod.fst).Nodup) (hw : ∀ y ∈ d, Dict.WF y.2) (r : Dict String F) :
    subKeyLoop metric d acc = .ok r ↔ ∃ e, r = acc ++ e ∧ Alike (Chosen metric) d e := by
  induction d generalizing acc with
  | nil =>
    constructor
    · intro h
      cases h
      exact ⟨[], by simp, .nil⟩
    · rintro ⟨e, rfl, he⟩
      cases he
      simp [subKeyLoop]
  | cons x xs ih =>
    obtain ⟨k, items⟩ := x
    have hk : k ∉ acc.map Prod.fst := by
      intro hmem
      exact (List.nodup_append.1 hn).2.2 k hmem k (by simp) rfl
    have hnext : ∀ v : F, ((acc ++ [(k, v)]).map Prod.fst ++ xs.map Prod.fst).Nodup := by
      intro v
      simpa using hn
    have hwi := hw (k, items) (by simp)
    have hwx : ∀ y ∈ xs, Dict.WF y.2 := fun y hy => hw y (by simp [hy])
    unfold subKeyLoop
    cases hc : choose metric items with
    | error err =>
      constructor
      · intro h; cases h
      · rintro ⟨e, _, he⟩
        cases he with
        | cons hxy _ =>
          have h2 := (choose_iff metric items hwi _).2 hxy.2
          rw [hc] at h2
          cases h2
    | ok v =>
      have hv := (choose_iff metric items hwi v).1 hc
      show subKeyLoop metric xs (Dict.set acc k v) = .ok r ↔ _
      rw [set_append acc k v hk, ih _ (hnext v) hwx]
      constructor
      · rintro ⟨e, rfl, he⟩
        exact ⟨(k, v) :: e, by simp, .cons ⟨rfl, hv⟩ he⟩
      · rintro ⟨e, rfl, he⟩
        cases he with
        | @cons _ b _ bs hxy hrest =>
          have h2 := (choose_iff metric items hwi _).2 hxy.2
          rw [hc] at h2
          obtain ⟨b1, b2⟩ := b
          cases h2
          have : k = b1 := hxy.1
          subst this
          exact ⟨bs, by simp, hrest⟩

private theorem outputLoop_iff (metric : Option String) (d : Attributions F) (acc : ShownAttributions F)
    (hn : (acc.map Prod.fst ++ d.map Prod.fst).Nodup) (hw : ∀ x ∈ d, Dict.WF x.2 ∧ ∀ y ∈ x.2, Dict.WF y.2) (r : ShownAttributions F) :
    outputLoop metric d acc = .ok r ↔ ∃ e, r = acc ++ e ∧ ShownFor metric d e := by
  induction d generalizing acc with
  | nil =>
    constructor
    · intro h
      cases h
      exact ⟨[], by simp, .nil⟩
    · rintro ⟨e, rfl, he⟩
      cases he
      simp [outputLoop]
  | cons x xs ih =>
    obtain ⟨k, subs⟩ := x
    have hk : k ∉ acc.map Prod.fst := by
      intro hmem
      exact (List.nodup_append.1 hn).2.2 k hmem k (by simp) rfl
    have hnext : ∀ v : Dict String F, ((acc ++ [(k, v)]).map Prod.fst ++ xs.map Prod.fst).Nodup := by
      intro v
      simpa using hn
    obtain ⟨hw1, hw2⟩ := hw (k, subs) (by simp)
    have hwx : ∀ x ∈ xs, Dict.WF x.2 ∧ ∀ y ∈ x.2, Dict.WF y.2 := fun y hy => hw y (by simp [hy])
    have hsub : ∀ e, subKeyLoop metric subs [] = .ok e ↔ Alike (Chosen metric) subs e := by
      intro e
      rw [subKeyLoop_iff metric subs [] (by simpa [Dict.WF, Dict.keys] using hw1) hw2]
      simp
    unfold outputLoop
    cases hc : subKeyLoop metric subs [] with
    | error err =>
      constructor
      · intro h; cases h
      · rintro ⟨e, _, he⟩
        cases he with
        | cons hxy _ =>
          have h2 := (hsub _).2 hxy.2
          rw [hc] at h2
          cases h2
    | ok v =>
      have hv := (hsub v).1 hc
      show outputLoop metric xs (Dict.set acc k v) = .ok r ↔ _
      rw [set_append acc k v hk, ih _ (hnext v) hwx]
      constructor
      · rintro ⟨e, rfl, he⟩
        exact ⟨(k, v) :: e, by simp, .cons ⟨rfl, hv⟩ he⟩
      · rintro ⟨e, rfl, he⟩
        cases he with
        | @cons _ b _ bs hxy hrest =>
          have h2 := (hsub _).2 hxy.2
          rw [hc] at h2
          obtain ⟨b1, b2⟩ := b
          cases h2
          have : k = b1 := hxy.1
          subst this
          exact ⟨bs, by simp, hrest⟩

private theorem sliceLoop_iff (metric : Option String) (data : List (Shown (Attributions F))) (hw : ∀ x ∈ data, AllWF x.2)
    (r : List (Shown (ShownAttributions F))) : sliceLoop metric data = .ok r ↔ Alike (ShownFor metric) data r := by
  induction data generalizing r with
  | nil =>
    constructor
    · intro h; cases h; exact .nil
    · intro h; cases h; rfl
  | cons x xs ih =>
    obtain ⟨s, d⟩ := x
    obtain ⟨h1, h2⟩ := hw (s, d) (by simp)
    have hout : ∀ e, outputLoop metric d [] = .ok e ↔ ShownFor metric d e := by
      intro e
      rw [outputLoop_iff metric d [] (by simpa [Dict.WF, Dict.keys] using h1) h2]
      simp
    have hxs := ih fun y hy => hw y (by simp [hy])
    unfold sliceLoop
    cases hc : outputLoop metric d [] with
    | error err =>
      constructor
      · intro h; cases h
      · intro h
        cases h with
        | cons hxy _ =>
          have h3 := (hout _).2 hxy.2
          rw [hc] at h3
          cases h3
    | ok v =>
      have hv := (hout v).1 hc
      cases hl : sliceLoop metric xs with
      | error err =>
        constructor
        · intro h; cases h
        · intro h
          cases h with
          | cons _ hrest =>
            have h3 := (hxs _).2 hrest
            rw [hl] at h3
            cases h3
      | ok l =>
        have hl' := (hxs l).1 hl
        constructor
        · intro h
          cases h
          exact .cons ⟨rfl, hv⟩ hl'
        · intro h
          cases h with
          | @cons _ b _ bs hxy hrest =>
            have h3 := (hout _).2 hxy.2
            have h4 := (hxs _).2 hrest
            rw [hc] at h3
            rw [hl] at h4
            obtain ⟨b1, b2⟩ := b
            cases h3
            cases h4
            have : s = b1 := hxy.1
            subst this
            rfl

private theorem find_subset (c : NumCodec) (name : SliceKey → String) (s : Spec) {V : Type} (results : List (ResultKey × V))
    (data : List (Shown V)) (h : findAllSlices c name s results = .ok data) (x : Shown V) (hx : x ∈ data) :
    ∃ k, (k, x.2) ∈ results := by
  induction results generalizing data with
  | nil => cases h; cases hx
  | cons y ys ih =>
    obtain ⟨k, v⟩ := y
    unfold findAllSlices at h
    split at h
    · cases h
    · obtain ⟨k', hk'⟩ := ih _ h hx
      exact ⟨k', by simp [hk']⟩
    · split at h
      · cases h
      · rename_i l hl
        cases h
        rcases List.mem_cons.1 hx with rfl | hx
        · exact ⟨k, by simp⟩
        · obtain ⟨k', hk'⟩ := ih _ hl hx
          exact ⟨k', by simp [hk']⟩

private theorem metrics_subset (c : NumCodec) (name : SliceKey → String) {V : Type} (results : List (ResultKey × V))
    (column : Option String) (spec : Option Spec) (data : List (Shown V)) (h : getSlicingMetrics c name results column spec = .ok data)
    (x : Shown V) (hx : x ∈ data) : ∃ k, (k, x.2) ∈ results := by
  unfold getSlicingMetrics at h
  simp only at h
  split at h
  · cases h
  · rename_i d hd
    split at h
    · cases h
    · split at h
      · cases h
      · cases h
        exact find_subset c name _ results _ hd x hx

/-- **C165**: the view of attributions shows the slices of the slicing view (C114), in their order, each with all its outputs and sub
keys, and for each of them the attributions of the metric that is asked for, or of its only metric if none is asked for; it fails in
every other case. -/
theorem C165_shown (c : NumCodec) (name : SliceKey → String) (attributions : List (ResultKey × Attributions F))
    (hw : ∀ x ∈ attributions, AllWF x.2) (column : Option String) (spec : Option Spec) (metric : Option String)
    (shown : List (Shown (ShownAttributions F))) :
    renderSlicingAttributions c name attributions column spec metric = .ok shown ↔
      ∃ data, getSlicingMetrics c name attributions column spec = .ok data ∧ Alike (ShownFor metric) data shown := by
  unfold renderSlicingAttributions
  cases hd : getSlicingMetrics c name attributions column spec with
  | error e =>
    constructor
    · intro h; cases h
    · rintro ⟨_, h, _⟩; cases h
  | ok data =>
    have hdw : ∀ x ∈ data, AllWF x.2 := by
      intro x hx
      obtain ⟨k, hk⟩ := metrics_subset c name attributions column spec data hd x hx
      exact hw _ hk
    show sliceLoop metric data = .ok shown ↔ _
    rw [sliceLoop_iff metric data hdw]
    constructor
    · intro h; exact ⟨data, rfl, h⟩
    · rintro ⟨d, h, h2⟩; cases h; exact h2

private theorem sliceLoop_error (metric : Option String) (data : List (Shown (Attributions F))) (hw : ∀ x ∈ data, AllWF x.2)
    (s : String) (d : Attributions F) (hd : (s, d) ∈ data) (h : ∀ e, ¬ ShownFor metric d e) (r : List (Shown (ShownAttributions F))) :
    sliceLoop metric data ≠ .ok r := by
  rw [ne_eq, sliceLoop_iff metric data hw]
  intro ha
  obtain ⟨e, he⟩ : ∃ e, ShownFor metric d e := by
    clear hw
    induction ha with
    | nil => cases hd
    | cons hxy _ ih =>
      rcases List.mem_cons.1 hd with rfl | hd
      · exact ⟨_, hxy.2⟩
      · exact ih hd
  exact h e he

private theorem alike_mem {A B : Type} {R : A → B → Prop} {d : List (String × A)} {e : List (String × B)} (h : Alike R d e) (x : String × A)
    (hx : x ∈ d) : ∃ y, R x.2 y := by
  induction h with
  | nil => cases hx
  | cons hxy _ ih =>
    rcases List.mem_cons.1 hx with rfl | hx
    · exact ⟨_, hxy.2⟩
    · exact ih hx

/-- **C165** fails for metrics that some sub keys do not have: one sub key of one output without the metric is enough for the whole view
to fail. -/
theorem C165_missing_fails (c : NumCodec) (name : SliceKey → String) (attributions : List (ResultKey × Attributions F))
    (hw : ∀ x ∈ attributions, AllWF x.2) (column : Option String) (spec : Option Spec) (metric : String) (hm : metric ≠ "")
    (data : List (Shown (Attributions F))) (hdata : getSlicingMetrics c name attributions column spec = .ok data) (s output key : String)
    (d : Attributions F) (subs : Dict String (Dict String F)) (items : Dict String F) (hs : (s, d) ∈ data) (ho : (output, subs) ∈ d)
    (hk : (key, items) ∈ subs) (hi : ∀ v, (metric, v) ∉ items) (shown : List (Shown (ShownAttributions F))) :
    renderSlicingAttributions c name attributions column spec (some metric) ≠ .ok shown := by
  have hdw : ∀ x ∈ data, AllWF x.2 := by
    intro x hx
    obtain ⟨k, hk⟩ := metrics_subset c name attributions column spec data hdata x hx
    exact hw _ hk
  unfold renderSlicingAttributions
  rw [hdata]
  refine sliceLoop_error _ data hdw s d hs ?_ shown
  intro e he
  obtain ⟨y, hy⟩ := alike_mem he _ ho
  obtain ⟨v, hv⟩ := alike_mem hy _ hk
  rcases hv with ⟨n, hn, _, hmem⟩ | ⟨h, _⟩
  · cases hn; exact hi _ hmem
  · rcases h with h | h <;> cases h
    exact hm rfl

/-- **C165** fails without a name of a metric: sub keys with different metrics are shown side by side as if they had the same one. -/
theorem C165_mixed_fails (c : NumCodec) (name : SliceKey → String) (m n output k l : String) (hkl : k ≠ l) (v w : F) :
    renderSlicingAttributions c name [(.slice [], [(output, [(k, [(m, v)]), (l, [(n, w)])])])] none none none =
      .ok [(name [], [(output, [(k, v), (l, w)])])] := by
  rw [C165_shown]
  · refine ⟨[(name [], [(output, [(k, [(m, v)]), (l, [(n, w)])])])], ?_, ?_⟩
    · rfl
    · exact .cons ⟨rfl, .cons ⟨rfl, .cons ⟨rfl, Or.inr ⟨Or.inl rfl, m, rfl⟩⟩ (.cons ⟨rfl, Or.inr ⟨Or.inl rfl, n, rfl⟩⟩ .nil)⟩ .nil⟩ .nil
  · intro x hx
    rw [List.mem_singleton] at hx
    subst hx
    refine ⟨by simp [Dict.WF, Dict.keys], ?_⟩
    intro y hy
    rw [List.mem_singleton] at hy
    subst hy
    refine ⟨by simp [Dict.WF, Dict.keys, hkl], ?_⟩
    intro z hz
    simp only [List.mem_cons, List.not_mem_nil, or_false] at hz
    rcases hz with rfl | rfl <;> simp [Dict.WF, Dict.keys]

/-! ### Examples -/

example : ShownFor (some "a") [("out", [("classId:0", [("a", 1), ("b", 2)])])] [("out", [("classId:0", 1)])] :=
  .cons ⟨rfl, .cons ⟨rfl, Or.inl ⟨"a", rfl, by decide, by simp⟩⟩ .nil⟩ .nil

example : AllWF [("out", [("classId:0", [("a", 1), ("b", 2)])])] := by
  refine ⟨by simp [Dict.WF, Dict.keys], ?_⟩
  intro x hx
  simp only [List.mem_singleton] at hx
  subst hx
  refine ⟨by simp [Dict.WF, Dict.keys], ?_⟩
  intro y hy
  simp only [List.mem_singleton] at hy
  subst hy
  simp [Dict.WF, Dict.keys]

example : choose none [("a", 1), ("b", 2)] = .error .valueError := rfl

end AttributionViews
end TFMA
