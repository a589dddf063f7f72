import Verif.Model.SpecBuild
import Verif.Lemmas.MetricSpecs
import Mathlib.Data.List.Basic

/-!
# C119: metrics specs built from metric objects
-/

namespace TFMA
namespace SpecBuild

open MetricSpecs

variable {M C B S T : Type}

/-! ### What is asked for -/

/-- The metric is given, for these outputs: in a list for the outputs of the call, in a dictionary for the output it is listed under. -/
def Given (a : Args M) (ms : Metrics M) (outs : List String) (m : M) : Prop :=
  match ms with
  | .absent => False
  | .list l => m ∈ l ∧ outs = a.outputNames
  | .dict d => ∃ o l, (o, l) ∈ d ∧ m ∈ l ∧ outs = [o]

/-- Metrics are given by output. -/
def ByOutput (a : Args M) : Prop := (∃ d, a.metrics = .dict d) ∨ ∃ d, a.unweighted = .dict d

/-- The output is a key of the dictionary. -/
def Lists (ms : Metrics M) (o : String) : Prop := ∃ d l, ms = .dict d ∧ (o, l) ∈ d

/-- The outputs the examples are counted for: each one for itself if metrics are given by output, otherwise those of the call together. -/
def Counted (a : Args M) (outs : List String) : Prop :=
  (ByOutput a ∧ ∃ o, (Lists a.metrics o ∨ Lists a.unweighted o) ∧ outs = [o]) ∨ (¬ ByOutput a ∧ outs = a.outputNames)

/-- The options of the specs of the metrics. -/
def optionsFor (a : Args M) (outs : List String) (weights : Option (Bool × Bool)) : Spec B S T where
  modelNames := a.modelNames
  outputNames := outs
  outputWeights := a.outputWeights
  binarize := a.binarize
  aggregate := a.aggregate
  weights := weights
  queryKey := a.queryKey

/-- What is to be computed: the metrics that are given, the unweighted ones without weights; the number of examples once, without
outputs; the weighted number of examples of the outputs. -/
inductive Wants (env : Env M C) (a : Args M) (c : C) : Spec B S T → Prop where
  | metric (m : M) (outs : List String) : Given a a.metrics outs m → env.config m = .ok c → Wants env a c (optionsFor a outs none)
  | unweighted (m : M) (outs : List String) : Given a a.unweighted outs m → env.config m = .ok c →
      Wants env a c (optionsFor a outs (some (false, true)))
  | count : a.exampleCount ≠ some false → (∃ outs, Counted a outs) → c = env.count →
      Wants env a c { modelNames := a.modelNames, weights := some (false, true) }
  | weightedCount (outs : List String) : a.weightedCount ≠ some false → Counted a outs → c = env.weightedCount →
      Wants env a c { modelNames := a.modelNames, outputNames := outs, outputWeights := a.outputWeights, weights := some (true, false) }

/-- One argument is a dictionary and the other one a list with metrics. -/
def Mixed (a : Args M) : Prop :=
  (∃ d m l, a.metrics = .dict d ∧ a.unweighted = .list (m :: l)) ∨ ∃ d m l, a.unweighted = .dict d ∧ a.metrics = .list (m :: l)

/-- The dictionaries are dictionaries. -/
def DictsWF (a : Args M) : Prop := (∀ d, a.metrics = .dict d → Dict.WF d) ∧ ∀ d, a.unweighted = .dict d → Dict.WF d

/-! ### Helpers -/

private theorem forall₂_mem {α β : Type} {R : α → β → Prop} {l : List α} {r : List β} (h : List.Forall₂ R l r) (y : β) (hy : y ∈ r) :
    ∃ x ∈ l, R x y := by
  induction h with
  | nil => cases hy
  | cons h _ ih =>
    rcases List.mem_cons.1 hy with rfl | hy
    · exact ⟨_, by simp, h⟩
    · obtain ⟨x, hx, hr⟩ := ih hy
      exact ⟨x, by simp [hx], hr⟩

private theorem forall₂_mem' {α β : Type} {R : α → β → Prop} {l : List α} {r : List β} (h : List.Forall₂ R l r) (x : α) (hx : x ∈ l) :
    ∃ y ∈ r, R x y := by
  induction h with
  | nil => cases hx
  | cons h _ ih =>
    rcases List.mem_cons.1 hx with rfl | hx
    · exact ⟨_, by simp, h⟩
    · obtain ⟨y, hy, hr⟩ := ih hx
      exact ⟨y, by simp [hy], hr⟩

private theorem mem_mapE {f : M → Except Err C} {l : List M} {cs : List C} (h : mapE f l = .ok cs) (c : C) :
    c ∈ cs ↔ ∃ m ∈ l, f m = .ok c := by
  have h2 := mapE_eq_ok h
  constructor
  · exact forall₂_mem h2 c
  · rintro ⟨m, hm, he⟩
    obtain ⟨c', hc', he'⟩ := forall₂_mem' h2 m hm
    rw [he] at he'
    cases he'
    exact hc'

private theorem mem_metricsSpec {env : Env M C} {a : Args M} {ms : List M} {w : Option (Bool × Bool)} {specs : List (Built C B S T)}
    (h : metricsSpec env a ms w = .ok specs) (c : C) (opt : Spec B S T) :
    (∃ s ∈ specs, c ∈ s.metrics ∧ s.options = opt) ↔ (∃ m ∈ ms, env.config m = .ok c) ∧ opt = optionsFor a a.outputNames w := by
  unfold metricsSpec at h
  cases ms with
  | nil => simp at h; subst h; simp
  | cons m ms =>
    simp only [List.isEmpty_cons, Bool.false_eq_true, if_false] at h
    cases hm : mapE env.config (m :: ms) with
    | error e => rw [hm] at h; cases h
    | ok cs =>
      rw [hm] at h
      simp only [Except.ok.injEq] at h
      subst h
      simp only [List.mem_singleton, exists_eq_left, mem_mapE hm]
      constructor
      · rintro ⟨h1, rfl⟩; exact ⟨h1, rfl⟩
      · rintro ⟨h1, rfl⟩; exact ⟨h1, rfl⟩

private theorem getD_true (o : Option Bool) : o.getD true = true ↔ o ≠ some false := by
  cases o with
  | none => simp
  | some b => cases b <;> simp

private theorem mem_counts {env : Env M C} {models outs : List String} {ow : Dict String ℚ} {n w : Bool} (c : C) (opt : Spec B S T) :
    (∃ s ∈ exampleCountSpecs env models outs ow n w, c ∈ s.metrics ∧ s.options = opt) ↔
      (n = true ∧ c = env.count ∧ opt = { modelNames := models, weights := some (false, true) }) ∨
      (w = true ∧ c = env.weightedCount ∧
        opt = { modelNames := models, outputNames := outs, outputWeights := ow, weights := some (true, false) }) := by
  unfold exampleCountSpecs
  cases n <;> cases w <;> simp [eq_comm]

private theorem mem_fromLists {env : Env M C} {a : Args M} {ms us : List M} {specs : List (Built C B S T)}
    (h : fromLists env a ms us = .ok specs) (c : C) (opt : Spec B S T) :
    (∃ s ∈ specs, c ∈ s.metrics ∧ s.options = opt) ↔
      (a.exampleCount ≠ some false ∧ c = env.count ∧ opt = { modelNames := a.modelNames, weights := some (false, true) }) ∨
      (a.weightedCount ≠ some false ∧ c = env.weightedCount ∧
        opt = { modelNames := a.modelNames, outputNames := a.outputNames, outputWeights := a.outputWeights,
                weights := some (true, false) }) ∨
      ((∃ m ∈ ms, env.config m = .ok c) ∧ opt = optionsFor a a.outputNames none) ∨
      ((∃ m ∈ us, env.config m = .ok c) ∧ opt = optionsFor a a.outputNames (some (false, true))) := by
  unfold fromLists at h
  cases hw : metricsSpec (B := B) (S := S) (T := T) env a ms none with
  | error e => rw [hw] at h; cases h
  | ok w =>
    rw [hw] at h
    simp only at h
    cases hu : metricsSpec (B := B) (S := S) (T := T) env a us (some (false, true)) with
    | error e => rw [hu] at h; cases h
    | ok u =>
      rw [hu] at h
      simp only [Except.ok.injEq] at h
      subst h
      rw [← mem_metricsSpec hw, ← mem_metricsSpec hu]
      have hc := mem_counts (B := B) (S := S) (T := T) (env := env) (models := a.modelNames) (outs := a.outputNames)
        (ow := a.outputWeights) (n := a.exampleCount.getD true) (w := a.weightedCount.getD true) c opt
      rw [getD_true, getD_true] at hc
      rw [← or_assoc, ← hc]
      simp only [List.append_assoc, List.mem_append, or_and_right, exists_or]

private theorem mem_insertName (x y : String) (l : List String) : y ∈ insertName x l ↔ y = x ∨ y ∈ l := by
  induction l with
  | nil => simp [insertName]
  | cons z zs ih =>
    unfold insertName
    by_cases h : x = z
    · subst h; simp
    · rw [if_neg h]
      by_cases h2 : x < z
      · rw [if_pos h2]; simp
      · rw [if_neg h2]; simp only [List.mem_cons, ih]; tauto

private theorem mem_sortedNames (y : String) (l : List String) : y ∈ sortedNames l ↔ y ∈ l := by
  unfold sortedNames
  induction l with
  | nil => simp
  | cons x xs ih => rw [List.foldr_cons, mem_insertName, ih, List.mem_cons]

private theorem nodup_insertName (x : String) (l : List String) (h : l.Pairwise (· < ·)) : (insertName x l).Pairwise (· < ·) := by
  induction l with
  | nil => simp [insertName]
  | cons z zs ih =>
    unfold insertName
    by_cases hx : x = z
    · subst hx; rw [if_pos rfl]; exact h
    · rw [if_neg hx]
      by_cases h2 : x < z
      · rw [if_pos h2]
        refine List.pairwise_cons.2 ⟨?_, h⟩
        intro y hy
        rcases List.mem_cons.1 hy with rfl | hy
        · exact h2
        · exact lt_trans h2 ((List.pairwise_cons.1 h).1 y hy)
      · rw [if_neg h2]
        refine List.pairwise_cons.2 ⟨?_, ih (List.pairwise_cons.1 h).2⟩
        intro y hy
        rcases (mem_insertName _ _ _).1 hy with rfl | hy
        · exact lt_of_le_of_ne (not_lt.1 h2) (fun e => hx e.symm)
        · exact (List.pairwise_cons.1 h).1 y hy

private theorem sorted_sortedNames (l : List String) : (sortedNames l).Pairwise (· < ·) := by
  unfold sortedNames
  induction l with
  | nil => simp
  | cons x xs ih => exact nodup_insertName _ _ ih

/-- The specs of the outputs one after the other. -/
private theorem perOutput_cons {env : Env M C} {a : Args M} {d u : Dict String (List M)} {n : Option Bool} {o : String} {os : List String}
    {specs : List (Built C B S T)} (h : perOutput env a d u n (o :: os) = .ok specs) :
    ∃ s rest, fromLists env (outputArgs a o n) ((Dict.get? d o).getD []) ((Dict.get? u o).getD []) = .ok s ∧
      perOutput env a d u (some false) os = .ok rest ∧ specs = s ++ rest := by
  unfold perOutput at h
  cases h1 : fromLists (B := B) (S := S) (T := T) env (outputArgs a o n) ((Dict.get? d o).getD []) ((Dict.get? u o).getD []) with
  | error e => rw [h1] at h; cases h
  | ok s =>
    rw [h1] at h
    simp only at h
    cases h2 : perOutput (B := B) (S := S) (T := T) env a d u (some false) os with
    | error e => rw [h2] at h; cases h
    | ok rest =>
      rw [h2] at h
      simp only [Except.ok.injEq] at h
      exact ⟨s, rest, rfl, rfl, h.symm⟩

/-- The options of the spec of one output. -/
private def outOptions (a : Args M) (o : String) (w : Option (Bool × Bool)) : Spec B S T where
  modelNames := a.modelNames
  outputNames := [o]
  binarize := a.binarize
  aggregate := a.aggregate
  weights := w

private theorem mem_perOutput {env : Env M C} {a : Args M} {d u : Dict String (List M)} {n : Option Bool} {os : List String}
    {specs : List (Built C B S T)} (h : perOutput env a d u n os = .ok specs) (c : C) (opt : Spec B S T) :
    (∃ s ∈ specs, c ∈ s.metrics ∧ s.options = opt) ↔
      (os ≠ [] ∧ n ≠ some false ∧ c = env.count ∧ opt = { modelNames := a.modelNames, weights := some (false, true) }) ∨
      ∃ o ∈ os, (a.weightedCount ≠ some false ∧ c = env.weightedCount ∧
          opt = { modelNames := a.modelNames, outputNames := [o], weights := some (true, false) }) ∨
        ((∃ m ∈ (Dict.get? d o).getD [], env.config m = .ok c) ∧ opt = outOptions a o none) ∨
        ((∃ m ∈ (Dict.get? u o).getD [], env.config m = .ok c) ∧ opt = outOptions a o (some (false, true))) := by
  induction os generalizing n specs with
  | nil => simp only [perOutput, Except.ok.injEq] at h; subst h; simp
  | cons o os ih =>
    obtain ⟨s, rest, h1, h2, rfl⟩ := perOutput_cons h
    have e1 := mem_fromLists h1 c opt
    have e2 := ih h2
    simp only [List.mem_append, or_and_right, exists_or, e1, e2]
    have e3 : ∀ w, (optionsFor (outputArgs a o n) (outputArgs a o n).outputNames w : Spec B S T) = outOptions a o w := fun _ => rfl
    simp only [e3]
    simp only [outputArgs, List.mem_cons, exists_eq_or_imp, ne_eq, not_true_eq_false, false_and, and_false, false_or, reduceCtorEq,
      not_false_eq_true, true_and, or_assoc]

private theorem isDict_iff (ms : Metrics M) : ms.isDict = true ↔ ∃ d, ms = .dict d := by
  cases ms <;> simp [Metrics.isDict]

private theorem lists_iff (ms : Metrics M) (o : String) : Lists ms o ↔ o ∈ ms.asDict.map Prod.fst := by
  unfold Lists
  cases ms <;> simp [Metrics.asDict]

private theorem given_dict (a : Args M) {ms : Metrics M} (hd : ∀ d, ms = .dict d → Dict.WF d) (hl : ∀ m l, ms ≠ .list (m :: l))
    (m : M) (outs : List String) : Given a ms outs m ↔ ∃ o, m ∈ (Dict.get? ms.asDict o).getD [] ∧ outs = [o] := by
  cases ms with
  | absent => simp [Given, Metrics.asDict]
  | list l =>
    cases l with
    | nil => simp [Given, Metrics.asDict]
    | cons m l => exact absurd rfl (hl m l)
  | dict d =>
    simp only [Given, Metrics.asDict]
    constructor
    · rintro ⟨o, l, h1, h2, h3⟩
      refine ⟨o, ?_, h3⟩
      rw [Dict.get?_of_mem (hd d rfl) h1]
      exact h2
    · rintro ⟨o, h1, h3⟩
      cases hg : Dict.get? d o with
      | none => rw [hg] at h1; simp at h1
      | some l =>
        rw [hg] at h1
        exact ⟨o, l, Dict.mem_of_get? hg, h1, h3⟩

private theorem given_list (a : Args M) {ms : Metrics M} (hl : ms.isDict = false) (m : M) (outs : List String) :
    Given a ms outs m ↔ m ∈ ms.asList ∧ outs = a.outputNames := by
  cases ms with
  | absent => simp [Given, Metrics.asList]
  | list l => simp [Given, Metrics.asList]
  | dict d => simp [Metrics.isDict] at hl

private theorem byOutput_iff (a : Args M) : ByOutput a ↔ (a.metrics.isDict || a.unweighted.isDict) = true := by
  rw [Bool.or_eq_true, isDict_iff, isDict_iff]; rfl

/-- An output with metrics in the dictionary is one of the keys. -/
private theorem key_of_mem {d : Dict String (List M)} {o : String} {m : M} (h : m ∈ (Dict.get? d o).getD []) : o ∈ d.map Prod.fst := by
  cases hg : Dict.get? d o with
  | none => rw [hg] at h; simp at h
  | some l => exact List.mem_map.2 ⟨_, Dict.mem_of_get? hg, rfl⟩

/-! ### C119 -/

/-- **C119**: the specs contain exactly what is asked for: every metric for its outputs (or for the outputs of the call), with the
binarization, aggregation, query key and output weights of the call, unweighted if it was given so; the number of examples; the weighted
number of examples of each output.  Not covered, because false (see below): a dictionary together with a list of metrics, and
dictionaries with a query key or with output weights. -/
theorem C119_asked_partial (env : Env M C) (a : Args M) (specs : List (Built C B S T)) (h : specsFromMetrics env a = .ok specs)
    (hwf : DictsWF a) (hmix : ¬ Mixed a) (hq : ByOutput a → a.queryKey = "" ∧ a.outputWeights = []) (c : C) (opt : Spec B S T) :
    (∃ s ∈ specs, c ∈ s.metrics ∧ s.options = opt) ↔ Wants env a c opt := by
  unfold specsFromMetrics at h
  split at h
  · cases h
  split at h
  · cases h
  rename_i hlist
  split at h
  · rename_i hd
    have hb : ByOutput a := (byOutput_iff a).2 hd
    obtain ⟨hq1, hq2⟩ := hq hb
    have hl1 : ∀ m l, a.metrics ≠ .list (m :: l) := by
      intro m l hl
      rcases hb with ⟨d, hd⟩ | ⟨d, hd⟩
      · rw [hd] at hl; cases hl
      · exact hmix (Or.inr ⟨d, m, l, hd, hl⟩)
    have hl2 : ∀ m l, a.unweighted ≠ .list (m :: l) := by
      intro m l hl
      rcases hb with ⟨d, hd⟩ | ⟨d, hd⟩
      · exact hmix (Or.inl ⟨d, m, l, hd, hl⟩)
      · rw [hd] at hl; cases hl
    have hopt : ∀ o w, (outOptions a o w : Spec B S T) = optionsFor a [o] w := by
      intro o w
      simp only [outOptions, optionsFor, hq1, hq2]
    have hnames : ∀ o, o ∈ sortedNames (a.metrics.asDict.map Prod.fst ++ a.unweighted.asDict.map Prod.fst) ↔
        (Lists a.metrics o ∨ Lists a.unweighted o) := by
      intro o
      rw [mem_sortedNames, List.mem_append, ← lists_iff, ← lists_iff]
    rw [mem_perOutput h]
    simp only [hnames, hopt]
    constructor
    · rintro (⟨h1, h2, h3, rfl⟩ | ⟨o, ho, ⟨h1, h2, rfl⟩ | ⟨⟨m, h1, h2⟩, rfl⟩ | ⟨⟨m, h1, h2⟩, rfl⟩⟩)
      · refine .count h2 ?_ h3
        obtain ⟨o, ho⟩ := List.exists_mem_of_ne_nil _ h1
        exact ⟨[o], Or.inl ⟨hb, o, (hnames o).1 ho, rfl⟩⟩
      · have e := Wants.weightedCount (B := B) (S := S) (T := T) (env := env) [o] h1 (Or.inl ⟨hb, o, ho, rfl⟩) h2
        rw [hq2] at e
        exact e
      · exact .metric m [o] ((given_dict a hwf.1 hl1 _ _).2 ⟨o, h1, rfl⟩) h2
      · exact .unweighted m [o] ((given_dict a hwf.2 hl2 _ _).2 ⟨o, h1, rfl⟩) h2
    · intro hw
      cases hw with
      | metric m outs h1 h2 =>
        obtain ⟨o, ho, rfl⟩ := (given_dict a hwf.1 hl1 _ _).1 h1
        exact Or.inr ⟨o, Or.inl ((lists_iff _ _).2 (key_of_mem ho)), Or.inr (Or.inl ⟨⟨m, ho, h2⟩, rfl⟩)⟩
      | unweighted m outs h1 h2 =>
        obtain ⟨o, ho, rfl⟩ := (given_dict a hwf.2 hl2 _ _).1 h1
        exact Or.inr ⟨o, Or.inr ((lists_iff _ _).2 (key_of_mem ho)), Or.inr (Or.inr ⟨⟨m, ho, h2⟩, rfl⟩)⟩
      | count h1 h2 h3 =>
        obtain ⟨outs, ⟨_, o, ho, _⟩ | ⟨h4, _⟩⟩ := h2
        · exact Or.inl ⟨List.ne_nil_of_mem ((hnames o).2 ho), h1, h3, rfl⟩
        · exact absurd hb h4
      | weightedCount outs h1 h2 h3 =>
        obtain ⟨_, o, ho, rfl⟩ | ⟨h4, _⟩ := h2
        · refine Or.inr ⟨o, ho, Or.inl ⟨h1, h3, ?_⟩⟩
          rw [hq2]
        · exact absurd hb h4
  · rename_i hd
    have hb : ¬ ByOutput a := fun hb => hd ((byOutput_iff a).1 hb)
    have hd1 : a.metrics.isDict = false := by
      cases he : a.metrics.isDict with
      | false => rfl
      | true => rw [he] at hd; simp at hd
    have hd2 : a.unweighted.isDict = false := by
      cases he : a.unweighted.isDict with
      | false => rfl
      | true => rw [he] at hd; simp at hd
    rw [mem_fromLists h]
    constructor
    · rintro (⟨h1, h2, rfl⟩ | ⟨h1, h2, rfl⟩ | ⟨⟨m, h1, h2⟩, rfl⟩ | ⟨⟨m, h1, h2⟩, rfl⟩)
      · exact .count h1 ⟨_, Or.inr ⟨hb, rfl⟩⟩ h2
      · exact .weightedCount _ h1 (Or.inr ⟨hb, rfl⟩) h2
      · exact .metric m _ ((given_list a hd1 _ _).2 ⟨h1, rfl⟩) h2
      · exact .unweighted m _ ((given_list a hd2 _ _).2 ⟨h1, rfl⟩) h2
    · intro hw
      cases hw with
      | metric m outs h1 h2 =>
        obtain ⟨hm, rfl⟩ := (given_list a hd1 _ _).1 h1
        exact Or.inr (Or.inr (Or.inl ⟨⟨m, hm, h2⟩, rfl⟩))
      | unweighted m outs h1 h2 =>
        obtain ⟨hm, rfl⟩ := (given_list a hd2 _ _).1 h1
        exact Or.inr (Or.inr (Or.inr ⟨⟨m, hm, h2⟩, rfl⟩))
      | count h1 h2 h3 => exact Or.inl ⟨h1, h3, rfl⟩
      | weightedCount outs h1 h2 h3 =>
        obtain ⟨h4, _⟩ | ⟨_, rfl⟩ := h2
        · exact absurd h4 hb
        · exact Or.inr (Or.inl ⟨h1, h3, rfl⟩)

/-- A metric that is given has a configuration. -/
def Configurable (env : Env M C) (a : Args M) : Prop :=
  ∀ ms outs m, (ms = a.metrics ∨ ms = a.unweighted) → Given a ms outs m → ∃ c, env.config m = .ok c

private theorem mapE_total {f : M → Except Err C} {l : List M} (h : ∀ m ∈ l, ∃ c, f m = .ok c) : ∃ cs, mapE f l = .ok cs := by
  induction l with
  | nil => exact ⟨[], rfl⟩
  | cons m ms ih =>
    obtain ⟨c, hc⟩ := h m (by simp)
    obtain ⟨cs, hcs⟩ := ih fun x hx => h x (by simp [hx])
    exact ⟨c :: cs, by simp only [mapE, hc, hcs]⟩

private theorem fromLists_total {env : Env M C} {a : Args M} {ms us : List M} (h1 : ∀ m ∈ ms, ∃ c, env.config m = .ok c)
    (h2 : ∀ m ∈ us, ∃ c, env.config m = .ok c) : ∃ specs : List (Built C B S T), fromLists env a ms us = .ok specs := by
  have key : ∀ (l : List M) w, (∀ m ∈ l, ∃ c, env.config m = .ok c) → ∃ s : List (Built C B S T), metricsSpec env a l w = .ok s := by
    intro l w hl
    unfold metricsSpec
    split
    · exact ⟨_, rfl⟩
    · obtain ⟨cs, hcs⟩ := mapE_total hl
      rw [hcs]
      exact ⟨_, rfl⟩
  obtain ⟨w, hw⟩ := key ms none h1
  obtain ⟨u, hu⟩ := key us (some (false, true)) h2
  unfold fromLists
  rw [hw]
  simp only
  rw [hu]
  exact ⟨_, rfl⟩

/-- Two arguments that do not fit together: a dictionary of metrics with output names, or metrics in a dictionary and metrics in a
list. -/
def Refused (a : Args M) : Prop :=
  ((∃ d, a.metrics = .dict d) ∧ a.outputNames ≠ []) ∨
  (∃ x d m l, a.metrics = .dict (x :: d) ∧ a.unweighted = .list (m :: l)) ∨
  ∃ x d m l, a.unweighted = .dict (x :: d) ∧ a.metrics = .list (m :: l)

private theorem refused_iff (a : Args M) : Refused a ↔ (a.metrics.isDict && !a.outputNames.isEmpty) = true ∨
    (a.metrics.truthy && a.unweighted.truthy && (a.metrics.isDict != a.unweighted.isDict)) = true := by
  unfold Refused
  cases hm : a.metrics with
  | absent => cases a.unweighted <;> simp [Metrics.isDict, Metrics.truthy]
  | list l =>
    cases hu : a.unweighted with
    | absent => simp [Metrics.isDict, Metrics.truthy]
    | list l' => simp [Metrics.isDict, Metrics.truthy]
    | dict d =>
      cases l <;> cases d <;> simp [Metrics.isDict, Metrics.truthy]
  | dict d =>
    cases hu : a.unweighted with
    | absent => simp [Metrics.isDict, Metrics.truthy]
    | dict d' => simp [Metrics.isDict, Metrics.truthy]
    | list l => cases l <;> cases d <;> simp [Metrics.isDict, Metrics.truthy]

/-- **C119** (errors): arguments that do not fit together are refused with a ValueError, all others are accepted if the metrics have
configurations. -/
theorem C119_refused (env : Env M C) (a : Args M) :
    (Refused a → (specsFromMetrics env a : Except Err (List (Built C B S T))) = .error .valueError) ∧
    (DictsWF a → ¬ Refused a → Configurable env a → ∃ specs : List (Built C B S T), specsFromMetrics env a = .ok specs) := by
  constructor
  · intro h
    unfold specsFromMetrics
    rcases (refused_iff a).1 h with h | h
    · rw [if_pos h]
    · rw [if_pos h]
      split <;> rfl
  · intro hwf h hc
    have h1 := fun x => h ((refused_iff a).2 (Or.inl x))
    have h2 := fun x => h ((refused_iff a).2 (Or.inr x))
    unfold specsFromMetrics
    rw [if_neg h1, if_neg h2]
    split
    · have hin : ∀ (ms : Metrics M), (ms = a.metrics ∨ ms = a.unweighted) → (∀ d, ms = .dict d → Dict.WF d) → ∀ o, ∀ m ∈ (Dict.get? ms.asDict o).getD [],
          ∃ c, env.config m = .ok c := by
        intro ms hms hwf o m hm
        cases ms with
        | absent => simp [Metrics.asDict] at hm
        | list l => simp [Metrics.asDict] at hm
        | dict d =>
          exact hc _ [o] m hms ((given_dict a hwf (by simp) m [o]).2 ⟨o, hm, rfl⟩)
      generalize a.exampleCount = n
      induction sortedNames (a.metrics.asDict.map Prod.fst ++ a.unweighted.asDict.map Prod.fst) generalizing n with
      | nil => exact ⟨[], rfl⟩
      | cons o os ih =>
        obtain ⟨s, hs⟩ := fromLists_total (B := B) (S := S) (T := T) (a := outputArgs a o n) (hin _ (Or.inl rfl) hwf.1 o)
          (hin _ (Or.inr rfl) hwf.2 o)
        obtain ⟨rest, hr⟩ := ih (some false)
        unfold perOutput
        rw [hs]
        simp only
        rw [hr]
        exact ⟨_, rfl⟩
    · rename_i hd
      have hin : ∀ (ms : Metrics M), (ms = a.metrics ∨ ms = a.unweighted) → ∀ m ∈ ms.asList, ∃ c, env.config m = .ok c := by
        intro ms hms m hm
        cases ms with
        | absent => simp [Metrics.asList] at hm
        | dict l => simp [Metrics.asList] at hm
        | list l => exact hc _ a.outputNames m hms ⟨hm, rfl⟩
      exact fromLists_total (hin _ (Or.inl rfl)) (hin _ (Or.inr rfl))

/-- **C119** (negation): if metrics are given by output, the query key and the output weights are silently dropped. -/
theorem C119_dropped_fails (env : Env M C) (a : Args M) (specs : List (Built C B S T)) (h : specsFromMetrics env a = .ok specs)
    (hb : ByOutput a) : ∀ s ∈ specs, s.options.queryKey = "" ∧ s.options.outputWeights = [] := by
  unfold specsFromMetrics at h
  split at h
  · cases h
  split at h
  · cases h
  rw [if_pos ((byOutput_iff a).1 hb)] at h
  have key : ∀ (os : List String) n (specs : List (Built C B S T)), perOutput env a a.metrics.asDict a.unweighted.asDict n os = .ok specs →
      ∀ s ∈ specs, s.options.queryKey = "" ∧ s.options.outputWeights = [] := by
    intro os
    induction os with
    | nil => intro n specs h; simp only [perOutput, Except.ok.injEq] at h; subst h; simp
    | cons o os ih =>
      intro n specs h
      obtain ⟨s, rest, h1, h2, rfl⟩ := perOutput_cons h
      have hs : ∀ x ∈ s, x.options.queryKey = "" ∧ x.options.outputWeights = [] := by
        have hm : ∀ (l : List M) w (r : List (Built C B S T)), metricsSpec env (outputArgs a o n) l w = .ok r →
            ∀ x ∈ r, x.options.queryKey = "" ∧ x.options.outputWeights = [] := by
          intro l w r hr
          unfold metricsSpec at hr
          split at hr
          · cases hr; simp
          · split at hr
            · cases hr
            · cases hr; simp [outputArgs]
        unfold fromLists at h1
        cases hw : metricsSpec (B := B) (S := S) (T := T) env (outputArgs a o n) ((Dict.get? a.metrics.asDict o).getD []) none with
        | error e => rw [hw] at h1; cases h1
        | ok w =>
          rw [hw] at h1
          simp only at h1
          cases hu : metricsSpec (B := B) (S := S) (T := T) env (outputArgs a o n) ((Dict.get? a.unweighted.asDict o).getD [])
              (some (false, true)) with
          | error e => rw [hu] at h1; cases h1
          | ok u =>
            rw [hu] at h1
            simp only [Except.ok.injEq] at h1
            subst h1
            intro x hx
            simp only [List.mem_append] at hx
            rcases hx with (hx | hx) | hx
            · unfold exampleCountSpecs at hx
              rcases List.mem_append.1 hx with hx | hx <;>
              · split at hx
                · simp only [List.mem_singleton] at hx
                  subst hx
                  simp [outputArgs]
                · simp at hx
            · exact hm _ _ _ hw x hx
            · exact hm _ _ _ hu x hx
      intro x hx
      rcases List.mem_append.1 hx with hx | hx
      · exact hs x hx
      · exact ih _ _ h2 x hx
  exact key _ _ _ h

/-- **C119** (negation): an empty dictionary makes the metrics of the other argument disappear, and the example counts with them. -/
theorem C119_empty_dict_fails (env : Env M C) (a : Args M) (l : List M) :
    (a.metrics = .dict [] → a.unweighted = .list l → a.outputNames = [] →
      (specsFromMetrics env a : Except Err (List (Built C B S T))) = .ok []) ∧
    (a.unweighted = .dict [] → a.metrics = .list l → (specsFromMetrics env a : Except Err (List (Built C B S T))) = .ok []) := by
  constructor
  · intro h1 h2 h3
    simp [specsFromMetrics, h1, h2, h3, Metrics.isDict, Metrics.truthy, Metrics.asDict, sortedNames, perOutput]
  · intro h1 h2
    simp [specsFromMetrics, h1, h2, Metrics.isDict, Metrics.truthy, Metrics.asDict, sortedNames, perOutput]

private theorem count_fromLists [DecidableEq C] {env : Env M C} {a : Args M} {ms us : List M} {specs : List (Built C B S T)}
    (h : fromLists env a ms us = .ok specs) (hne : env.count ≠ env.weightedCount) (h1 : ∀ m ∈ ms, env.config m ≠ .ok env.count)
    (h2 : ∀ m ∈ us, env.config m ≠ .ok env.count) :
    (specs.flatMap Built.metrics).count env.count = if a.exampleCount.getD true then 1 else 0 := by
  have key : ∀ (l : List M) w (r : List (Built C B S T)), (∀ m ∈ l, env.config m ≠ .ok env.count) → metricsSpec env a l w = .ok r →
      (r.flatMap Built.metrics).count env.count = 0 := by
    intro l w r hl hr
    unfold metricsSpec at hr
    split at hr
    · cases hr; rfl
    · split at hr
      · cases hr
      · rename_i cs hcs
        cases hr
        simp only [List.flatMap_cons, List.flatMap_nil, List.append_nil]
        refine List.count_eq_zero.2 fun hm => ?_
        obtain ⟨m, hm, he⟩ := (mem_mapE hcs _).1 hm
        exact hl m hm he
  unfold fromLists at h
  cases hw : metricsSpec (B := B) (S := S) (T := T) env a ms none with
  | error e => rw [hw] at h; cases h
  | ok w =>
    rw [hw] at h
    simp only at h
    cases hu : metricsSpec (B := B) (S := S) (T := T) env a us (some (false, true)) with
    | error e => rw [hu] at h; cases h
    | ok u =>
      rw [hu] at h
      simp only [Except.ok.injEq] at h
      subst h
      simp only [List.flatMap_append, List.count_append, key _ _ _ h1 hw, key _ _ _ h2 hu]
      have := hne.symm
      unfold exampleCountSpecs
      cases a.exampleCount.getD true <;> cases a.weightedCount.getD true <;> simp [List.count_cons, this]

/-- **C119** (once): the number of examples is asked for exactly once, however many outputs there are. -/
theorem C119_counted_once [DecidableEq C] (env : Env M C) (a : Args M) (specs : List (Built C B S T)) (h : specsFromMetrics env a = .ok specs)
    (hwf : DictsWF a) (hne : env.count ≠ env.weightedCount)
    (hno : ∀ ms outs m, (ms = a.metrics ∨ ms = a.unweighted) → Given a ms outs m → env.config m ≠ .ok env.count)
    (hc : ∃ outs, Counted a outs) (he : a.exampleCount ≠ some false) : (specs.flatMap Built.metrics).count env.count = 1 := by
  have he' := (getD_true _).2 he
  unfold specsFromMetrics at h
  split at h
  · cases h
  split at h
  · cases h
  split at h
  · rename_i hd
    have hb := (byOutput_iff a).2 hd
    have hin : ∀ (ms : Metrics M), (ms = a.metrics ∨ ms = a.unweighted) → (∀ d, ms = .dict d → Dict.WF d) →
        ∀ o, ∀ m ∈ (Dict.get? ms.asDict o).getD [], env.config m ≠ .ok env.count := by
      intro ms hms hwf o m hm
      cases ms with
      | absent => simp [Metrics.asDict] at hm
      | list l => simp [Metrics.asDict] at hm
      | dict d => exact hno _ [o] m hms ((given_dict a hwf (by simp) m [o]).2 ⟨o, hm, rfl⟩)
    have hnone : ∀ (os : List String) (r : List (Built C B S T)), perOutput env a a.metrics.asDict a.unweighted.asDict (some false) os = .ok r →
        (r.flatMap Built.metrics).count env.count = 0 := by
      intro os
      induction os with
      | nil => intro r hr; simp only [perOutput, Except.ok.injEq] at hr; subst hr; rfl
      | cons o os ih =>
        intro r hr
        obtain ⟨s, rest, h1, h2, rfl⟩ := perOutput_cons hr
        rw [List.flatMap_append, List.count_append, ih _ h2,
          count_fromLists h1 hne (hin _ (Or.inl rfl) hwf.1 o) (hin _ (Or.inr rfl) hwf.2 o)]
        simp [outputArgs]
    cases hs : sortedNames (a.metrics.asDict.map Prod.fst ++ a.unweighted.asDict.map Prod.fst) with
    | nil =>
      obtain ⟨outs, ⟨-, o, ho, -⟩ | ⟨hx, -⟩⟩ := hc
      · have : o ∈ sortedNames (a.metrics.asDict.map Prod.fst ++ a.unweighted.asDict.map Prod.fst) := by
          rw [mem_sortedNames, List.mem_append, ← lists_iff, ← lists_iff]
          exact ho
        rw [hs] at this
        cases this
      · exact absurd hb hx
    | cons o os =>
      rw [hs] at h
      obtain ⟨s, rest, h1, h2, rfl⟩ := perOutput_cons h
      rw [List.flatMap_append, List.count_append, hnone _ _ h2,
        count_fromLists h1 hne (hin _ (Or.inl rfl) hwf.1 o) (hin _ (Or.inr rfl) hwf.2 o)]
      simp [outputArgs, he']
  · have hin : ∀ (ms : Metrics M), (ms = a.metrics ∨ ms = a.unweighted) → ∀ m ∈ ms.asList, env.config m ≠ .ok env.count := by
      intro ms hms m hm
      cases ms with
      | absent => simp [Metrics.asList] at hm
      | dict l => simp [Metrics.asList] at hm
      | list l => exact hno _ a.outputNames m hms ⟨hm, rfl⟩
    rw [count_fromLists h hne (hin _ (Or.inl rfl)) (hin _ (Or.inr rfl)), he', if_pos rfl]

/-! ### The default specs of a regression -/

/-- What a regression is evaluated by: four metrics, the losses given or else the mean squared error, and a calibration plot
over the range of the values if both its ends are given. -/
inductive RegressionMetric (losses : Option (List Obj)) (range : Option ℚ × Option ℚ) : Obj → Prop
  | accuracy : RegressionMetric losses range ⟨"Accuracy", "accuracy", true, none, none⟩
  | label : RegressionMetric losses range ⟨"MeanLabel", "mean_label", false, none, none⟩
  | prediction : RegressionMetric losses range ⟨"MeanPrediction", "mean_prediction", false, none, none⟩
  | calibration : RegressionMetric losses range ⟨"Calibration", "calibration", false, none, none⟩
  | loss {l o} : losses = some l → o ∈ l → RegressionMetric losses range o
  | mse : losses = none → RegressionMetric losses range ⟨"MeanSquaredError", "mse", true, none, none⟩
  | plot {l r} : range.1 = some l → range.2 = some r →
      RegressionMetric losses range ⟨"CalibrationPlot", "calibration_plot", false, none, some (l, r)⟩

/-- **C119** (defaults of a regression): the specs hold exactly these metrics and the two counts of examples. -/
theorem C119_regression (env : Env Obj C) (models outputs : List String) (weights : Dict String ℚ) (losses : Option (List Obj))
    (range : Option ℚ × Option ℚ) (specs : List (Built C B S T))
    (h : defaultRegressionSpecs env models outputs weights losses range = .ok specs) (c : C) :
    (∃ s ∈ specs, c ∈ s.metrics) ↔
      c = env.count ∨ c = env.weightedCount ∨ ∃ o, RegressionMetric losses range o ∧ env.config o = .ok c := by
  have hin : ∀ o, o ∈ regressionMetrics losses range ↔ RegressionMetric losses range o := by
    intro o
    obtain ⟨r1, r2⟩ := range
    constructor
    · intro ho
      unfold regressionMetrics at ho
      rcases List.mem_append.1 ho with ho | ho
      · rcases List.mem_append.1 ho with ho | ho
        · simp only [List.mem_cons, List.not_mem_nil, or_false] at ho
          rcases ho with rfl | rfl | rfl | rfl <;> constructor
        · cases losses with
          | none =>
            simp only [Option.getD_none, List.mem_singleton] at ho
            subst ho
            exact .mse rfl
          | some l => exact .loss rfl ho
      · cases r1 <;> cases r2 <;> simp only [List.not_mem_nil, List.mem_singleton] at ho
        subst ho
        exact .plot rfl rfl
    · intro ho
      unfold regressionMetrics
      cases ho with
      | loss h1 h2 => subst h1; simp [h2]
      | mse h1 => subst h1; simp
      | plot h1 h2 => simp only at h1 h2; subst h1 h2; simp
      | _ => simp
  simp only [defaultRegressionSpecs, specsFromMetrics, Metrics.isDict, Metrics.truthy, Bool.false_and, Bool.and_false, Bool.or_self,
    Bool.false_eq_true, if_false, Metrics.asList] at h
  constructor
  · rintro ⟨s, hs, hc⟩
    rcases (mem_fromLists h c s.options).1 ⟨s, hs, hc, rfl⟩ with h1 | h1 | ⟨⟨o, ho, h1⟩, _⟩ | ⟨⟨o, ho, h1⟩, _⟩
    · exact .inl h1.2.1
    · exact .inr (.inl h1.2.1)
    · exact .inr (.inr ⟨o, (hin o).1 ho, h1⟩)
    · cases ho
  · intro hc
    have : ∃ opt, ∃ s ∈ specs, c ∈ s.metrics ∧ s.options = opt := by
      rcases hc with hc | hc | ⟨o, ho, hc⟩
      · exact ⟨_, (mem_fromLists h c _).2 (.inl ⟨by simp, hc, rfl⟩)⟩
      · exact ⟨_, (mem_fromLists h c _).2 (.inr (.inl ⟨by simp, hc, rfl⟩))⟩
      · exact ⟨_, (mem_fromLists h c _).2 (.inr (.inr (.inl ⟨⟨o, (hin o).2 ho, hc⟩, rfl⟩)))⟩
    obtain ⟨_, s, hs, h1, _⟩ := this
    exact ⟨s, hs, h1⟩

/-- A regression with a loss of its own and a plot from 0 to 10. -/
example : ∃ specs : List (Built Obj Unit Unit Unit), defaultRegressionSpecs
    ⟨.ok, ⟨"ExampleCount", "example_count", false, none, none⟩, ⟨"ExampleCount", "weighted_example_count", false, none, none⟩⟩
    [] [] [] (some [⟨"Huber", "huber", true, none, none⟩]) (some 0, some 10) = .ok specs ∧ specs.length = 3 := ⟨_, rfl, rfl⟩

/-! ### The default specs of a multi-class model -/

/-- The metrics of a binary classification. -/
def BinaryMetric (o : Obj) : Prop :=
  (o.cls, o.name) ∈ [("BinaryAccuracy", "binary_accuracy"), ("AUC", "auc"), ("AUC", "auc_precison_recall"), ("Precision", "precision"),
    ("Recall", "recall"), ("MeanLabel", "mean_label"), ("MeanPrediction", "mean_prediction"), ("Calibration", "calibration"),
    ("ConfusionMatrixPlot", "confusion_matrix_plot"), ("CalibrationPlot", "calibration_plot")] ∧
    o.keras = false ∧ o.topK = none ∧ o.range = none

/-- **C119** (defaults): the default specs of a multi-class model hold the metrics of a binary classification for the classes and the
k-th predictions that are asked for, aggregated as asked for or micro averaged, and precision and recall of the top k predictions for
each top k, which are not binarized. -/
theorem C119_multi_class (env : Env Obj C) (models outputs : List String) (weights : Dict String ℚ) (b : Binarize) (agg : Option Aggregate)
    (sparse : Bool) (specs : List (Built C B S T)) (h : defaultMultiClassSpecs env models outputs weights (some b) agg sparse = .ok specs) :
    (∀ o c, BinaryMetric o → env.config o = .ok c → ∃ s ∈ specs, c ∈ s.metrics ∧
      s.options.binarize = some ⟨b.classIds, b.kList, []⟩ ∧ s.options.outputNames = outputs ∧
      s.options.aggregate = some (agg.getD ⟨some .micro, [], none⟩)) ∧
    (∀ k ∈ b.topKList, ∀ o ∈ [Obj.mk "Precision" "precision" false (some k) none, Obj.mk "Recall" "recall" false (some k) none],
      ∀ c, env.config o = .ok c → ∃ s ∈ specs, c ∈ s.metrics ∧ s.options.binarize = none ∧ s.options.aggregate = none ∧
        s.options.outputNames = outputs) ∧
    ∀ s ∈ specs, s.options.binarize = none ∨ s.options.binarize = some ⟨b.classIds, b.kList, []⟩ := by
  unfold defaultMultiClassSpecs defaultBinarySpecs at h
  split at h
  · cases h
  rename_i m hm
  split at h
  · cases h
  rename_i bs hb
  cases h
  simp only [specsFromMetrics, Metrics.isDict, Metrics.truthy, Bool.false_and, Bool.and_false, Bool.or_self, Bool.false_eq_true,
    if_false, Metrics.asList] at hm hb
  refine ⟨?_, ?_, ?_⟩
  · intro o c ho hc
    have hin : o ∈ binaryMetrics true := by
      obtain ⟨cls, name, keras, topK, range⟩ := o
      obtain ⟨h1, h2, h3, h4⟩ := ho
      simp only at h1 h2 h3 h4
      subst h2 h3 h4
      simpa [binaryMetrics] using h1
    obtain ⟨s, hs, hcs, ho⟩ := (mem_fromLists hb c _).2 (Or.inr (Or.inr (Or.inl ⟨⟨o, hin, hc⟩, rfl⟩)))
    exact ⟨s, List.mem_append.2 (Or.inr hs), hcs, by rw [ho]; rfl, by rw [ho]; rfl, by rw [ho]; rfl⟩
  · intro k hk o ho c hc
    have hin : o ∈ multiClassMetrics sparse (some b) := by
      unfold multiClassMetrics
      exact List.mem_append.2 (Or.inr (List.mem_flatMap.2 ⟨k, hk, ho⟩))
    obtain ⟨s, hs, hcs, ho⟩ := (mem_fromLists hm c _).2 (Or.inr (Or.inr (Or.inl ⟨⟨o, hin, hc⟩, rfl⟩)))
    exact ⟨s, List.mem_append.2 (Or.inl hs), hcs, by rw [ho]; rfl, by rw [ho]; rfl, by rw [ho]; rfl⟩
  · have key : ∀ (a : Args Obj) ms us (r : List (Built C B S T)), fromLists env a ms us = .ok r →
        ∀ s ∈ r, s.options.binarize = none ∨ s.options.binarize = a.binarize := by
      intro a ms us r hr s hs
      have hmet : ∀ (l : List Obj) w (r : List (Built C B S T)), metricsSpec env a l w = .ok r →
          ∀ x ∈ r, x.options.binarize = none ∨ x.options.binarize = a.binarize := by
        intro l w r hr
        unfold metricsSpec at hr
        split at hr
        · cases hr; simp
        · split at hr
          · cases hr
          · cases hr; simp
      unfold fromLists at hr
      cases hw : metricsSpec (B := B) (S := S) (T := T) env a ms none with
      | error e => rw [hw] at hr; cases hr
      | ok w =>
        rw [hw] at hr
        simp only at hr
        cases hu : metricsSpec (B := B) (S := S) (T := T) env a us (some (false, true)) with
        | error e => rw [hu] at hr; cases hr
        | ok u =>
          rw [hu] at hr
          simp only [Except.ok.injEq] at hr
          subst hr
          simp only [List.mem_append] at hs
          rcases hs with (hs | hs) | hs
          · unfold exampleCountSpecs at hs
            rcases List.mem_append.1 hs with hs | hs <;>
            · split at hs
              · simp only [List.mem_singleton] at hs
                subst hs
                simp
              · simp at hs
          · exact hmet _ _ _ hw s hs
          · exact hmet _ _ _ hu s hs
    intro s hs
    rcases List.mem_append.1 hs with hs | hs
    · rcases key _ _ _ _ hm s hs with h | h
      · exact Or.inl h
      · exact Or.inl h
    · rcases key _ _ _ _ hb s hs with h | h
      · exact Or.inl h
      · exact Or.inr h

/-! ### Examples -/

/-- Metrics named by a number; the configuration of metric 9 cannot be made. -/
private def env0 : Env ℕ ℕ := ⟨fun n => if n = 9 then .error .valueError else .ok n, 100, 101⟩

/-- Two outputs, one of them with an unweighted metric too. -/
private def args0 : Args ℕ :=
  { metrics := .dict [("b", [1]), ("a", [1, 2])]
    unweighted := .dict [("a", [3])] }

example : DictsWF args0 ∧ ¬ Mixed args0 ∧ ¬ Refused args0 ∧ ByOutput args0 ∧ (∃ outs, Counted args0 outs) := by
  refine ⟨⟨?_, ?_⟩, ?_, ?_, Or.inl ⟨_, rfl⟩, ⟨["a"], Or.inl ⟨Or.inl ⟨_, rfl⟩, "a", Or.inl ⟨_, [1, 2], rfl, by simp⟩, rfl⟩⟩⟩
  · intro d hd; cases hd; simp [Dict.WF, Dict.keys]
  · intro d hd; cases hd; simp [Dict.WF, Dict.keys]
  · rintro (⟨d, m, l, -, h⟩ | ⟨d, m, l, -, h⟩) <;> cases h
  · rintro (⟨-, h⟩ | ⟨x, d, m, l, -, h⟩ | ⟨x, d, m, l, -, h⟩)
    · exact h rfl
    · cases h
    · cases h

/-- The specs: counts and metrics of output "a", unweighted metrics of "a", then output "b" without the number of examples. -/
example : (specsFromMetrics env0 args0 : Except Err (List (Built ℕ Unit Unit Unit))).map
    (fun l => l.map fun s => (s.metrics, s.options.outputNames, s.options.weights)) =
    .ok [([100], [], some (false, true)), ([101], ["a"], some (true, false)), ([1, 2], ["a"], none), ([3], ["a"], some (false, true)),
      ([101], ["b"], some (true, false)), ([1], ["b"], none)] := by
  decide +kernel

/-- With a query key: it is lost. -/
example : (specsFromMetrics env0 { args0 with queryKey := "q" } : Except Err (List (Built ℕ Unit Unit Unit))).map
    (fun l => l.map fun s => s.options.queryKey) = .ok ["", "", "", "", "", ""] := by
  decide +kernel

/-- A metric without configuration. -/
example : (specsFromMetrics env0 { metrics := .list [1, 9] } : Except Err (List (Built ℕ Unit Unit Unit))).map List.length =
    .error .valueError := by
  decide +kernel

/-- The default specs of a multi-class model with a class and two top k. -/
example : (defaultMultiClassSpecs ⟨fun o => .ok o.name, "example_count", "weighted_example_count"⟩ [] [] [] (some ⟨[3], [], [1, 5]⟩) none true :
    Except Err (List (Built String Unit Unit Unit))).map
    (fun l => l.map fun s => (s.metrics.take 5, s.options.binarize.map Binarize.classIds)) =
    .ok [(["example_count"], none), (["weighted_example_count"], none),
      (["loss", "accuracy", "multi_class_confusion_matrix_plot", "precision", "recall"], none), (["example_count"], none),
      (["weighted_example_count"], none), (["binary_accuracy", "auc", "auc_precison_recall", "precision", "recall"], some [3])] := by
  decide +kernel

end SpecBuild
end TFMA
