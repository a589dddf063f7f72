import Verif.Model.LabelRange
import Verif.Py.DictLemmas
import Mathlib.Data.Rat.Defs

/-!
# C166: the range of the calibration plot
-/

namespace TFMA
namespace LabelRange

open Config

/-- The spec of the model: the only one if no name is given, otherwise the first one with the name. -/
def SpecOf (config : EvalConfig) (model : String) (spec : ModelSpec) : Prop :=
  (model = "" ∧ config.modelSpecs = [spec]) ∨
  ((model = "" → config.modelSpecs.length ≠ 1) ∧
    ∃ before after, config.modelSpecs = before ++ spec :: after ∧ spec.name = model ∧ ∀ s ∈ before, s.name ≠ model)

/-- The label of an output of a model. -/
def LabelOf (config : EvalConfig) (model output key : String) : Prop :=
  key ≠ "" ∧ ∃ spec, SpecOf config model spec ∧
    (spec.labelKey = key ∨ (spec.labelKey = "" ∧ output ≠ "" ∧ (output, key) ∈ spec.labelKeys))

/-- The feature is described by the schema: the first description counts, and its integer domain before its float domain. -/
def DomainIn (schema : List Plots.Feature) (key : String) (d : Option ℚ × Option ℚ) : Prop :=
  ∃ before f after, schema = before ++ f :: after ∧ f.name = key ∧ (∀ g ∈ before, g.name ≠ key) ∧
    (f.intDomain = some d ∨ (f.intDomain = none ∧ f.floatDomain = some d))

/-- A bound is missing, and labels are given by output while none is asked for. -/
def Refused (left right : Option ℚ) (config : Option EvalConfig) (schema : Option (List Plots.Feature)) (model output : String) : Prop :=
  (left = none ∨ right = none) ∧ schema ≠ none ∧ output = "" ∧
    ∃ c spec, config = some c ∧ SpecOf c model spec ∧ spec.labelKey = "" ∧ spec.labelKeys ≠ []

/-- The domain of the label. -/
def DomainOf (config : Option EvalConfig) (schema : Option (List Plots.Feature)) (model output : String) (d : Option ℚ × Option ℚ) : Prop :=
  ∃ c s key, config = some c ∧ schema = some s ∧ LabelOf c model output key ∧ DomainIn s key d

/-- The label keys of every model are a dictionary. -/
def KeysWF (config : Option EvalConfig) : Prop := ∀ c, config = some c → ∀ s ∈ c.modelSpecs, Dict.WF s.labelKeys

private theorem specNamed_iff (name : String) (l : List ModelSpec) (spec : ModelSpec) :
    specNamed name l = some spec ↔ ∃ before after, l = before ++ spec :: after ∧ spec.name = name ∧ ∀ s ∈ before, s.name ≠ name := by
  induction l with
  | nil => simp [specNamed]
  | cons x xs ih =>
    unfold specNamed
    split
    · rename_i hx
      constructor
      · intro h
        cases h
        exact ⟨[], xs, rfl, hx, by simp⟩
      · rintro ⟨b, a, h, hn, hb⟩
        cases b with
        | nil => cases h; rfl
        | cons y ys =>
          cases h
          exact absurd hx (hb x (by simp))
    · rename_i hx
      rw [ih]
      constructor
      · rintro ⟨b, a, rfl, hn, hb⟩
        refine ⟨x :: b, a, rfl, hn, ?_⟩
        intro s hs
        rcases List.mem_cons.1 hs with rfl | hs
        · exact hx
        · exact hb s hs
      · rintro ⟨b, a, h, hn, hb⟩
        cases b with
        | nil => cases h; exact absurd hn hx
        | cons y ys =>
          cases h
          exact ⟨ys, a, rfl, hn, fun s hs => hb s (by simp [hs])⟩

private theorem modelSpec_iff (config : EvalConfig) (name : String) (spec : ModelSpec) :
    modelSpec config name = some spec ↔ SpecOf config name spec := by
  unfold modelSpec SpecOf
  split
  · rename_i s hs
    rw [hs]
    by_cases hn : name = ""
    · simp only [hn, if_true]
      constructor
      · intro h; cases h; exact Or.inl ⟨trivial, rfl⟩
      · rintro (⟨_, h⟩ | ⟨h, _⟩)
        · cases h; rfl
        · exact absurd rfl (h trivial)
    · simp only [hn, if_false]
      rw [specNamed_iff]
      constructor
      · intro h; exact Or.inr ⟨fun h => h.elim, h⟩
      · rintro (⟨h, _⟩ | ⟨_, h⟩)
        · exact h.elim
        · exact h
  · rename_i hs
    rw [specNamed_iff]
    constructor
    · intro h
      refine Or.inr ⟨?_, h⟩
      intro _ hl
      obtain ⟨s, hs'⟩ := List.length_eq_one_iff.1 hl
      exact hs s hs'
    · rintro (⟨_, h⟩ | ⟨_, h⟩)
      · exact absurd h (hs spec)
      · exact h

private theorem specOf_unique (config : EvalConfig) (name : String) (s t : ModelSpec) (hs : SpecOf config name s)
    (ht : SpecOf config name t) : s = t := by
  have h1 := (modelSpec_iff config name s).2 hs
  have h2 := (modelSpec_iff config name t).2 ht
  rw [h1] at h2
  exact Option.some.inj h2

private theorem specOf_mem (config : EvalConfig) (name : String) (s : ModelSpec) (hs : SpecOf config name s) : s ∈ config.modelSpecs := by
  rcases hs with ⟨_, h⟩ | ⟨_, b, a, h, _⟩ <;> rw [h] <;> simp

private theorem find_iff (schema : List Plots.Feature) (key : String) (f : Plots.Feature) :
    schema.find? (fun f => f.name == key) = some f ↔
      ∃ before after, schema = before ++ f :: after ∧ f.name = key ∧ ∀ g ∈ before, g.name ≠ key := by
  rw [List.find?_eq_some_iff_append]
  constructor
  · rintro ⟨h1, b, a, h2, h3⟩
    exact ⟨b, a, h2, by simpa using h1, fun g hg => by simpa using h3 g hg⟩
  · rintro ⟨b, a, h2, h1, h3⟩
    exact ⟨by simpa using h1, b, a, h2, fun g hg => by simpa using h3 g hg⟩

private theorem domain_some (schema : List Plots.Feature) (key : String) (d : Option ℚ × Option ℚ) (h : DomainIn schema key d) :
    Plots.findLabelDomain schema (some key) = d := by
  obtain ⟨b, f, a, h1, h2, h3, h4⟩ := h
  have hf := (find_iff schema key f).2 ⟨b, a, h1, h2, h3⟩
  simp only [Plots.findLabelDomain, hf]
  rcases h4 with h4 | ⟨h4, h5⟩
  · rw [h4]
  · rw [h4, h5]

private theorem domain_none (schema : List Plots.Feature) (key : String) (h : ∀ d, ¬ DomainIn schema key d) :
    Plots.findLabelDomain schema (some key) = (none, none) := by
  cases hf : schema.find? (fun f => f.name == key) with
  | none => simp only [Plots.findLabelDomain, hf]
  | some f =>
    obtain ⟨b, a, h1, h2, h3⟩ := (find_iff schema key f).1 hf
    simp only [Plots.findLabelDomain, hf]
    cases hi : f.intDomain with
    | some d => exact absurd ⟨b, f, a, h1, h2, h3, Or.inl hi⟩ (h d)
    | none =>
      cases hg : f.floatDomain with
      | some d => exact absurd ⟨b, f, a, h1, h2, h3, Or.inr ⟨hi, hg⟩⟩ (h d)
      | none => rfl

/-- The key that `getLabelKey` gives is the label, or there is none. -/
private theorem key_iff (config : EvalConfig) (model output : String) (spec : ModelSpec) (hs : SpecOf config model spec)
    (hw : Dict.WF spec.labelKeys) (key : Option String) (after : Dict String String) (h : getLabelKey spec output = .ok (key, after))
    (k : String) : key.filter (fun k => decide (k ≠ "")) = some k ↔ LabelOf config model output k := by
  have hl : LabelOf config model output k ↔
      k ≠ "" ∧ (spec.labelKey = k ∨ (spec.labelKey = "" ∧ output ≠ "" ∧ (output, k) ∈ spec.labelKeys)) := by
    unfold LabelOf
    constructor
    · rintro ⟨hk, t, ht, h⟩
      cases specOf_unique config model spec t hs ht
      exact ⟨hk, h⟩
    · rintro ⟨hk, h⟩
      exact ⟨hk, spec, hs, h⟩
  rw [hl]
  clear hl
  unfold getLabelKey at h
  by_cases hlk : spec.labelKey = ""
  · by_cases ho : output = ""
    · simp only [ho, hlk, ne_eq, not_true_eq_false, if_false] at h
      split at h
      · cases h
      · cases h
        simp only [Option.filter_none, hlk, ho]
        constructor
        · intro h; cases h
        · rintro ⟨hk, h | ⟨_, h, _⟩⟩
          · exact absurd h.symm hk
          · exact absurd rfl h
    · simp only [ho, hlk, ne_eq, not_true_eq_false, not_false_eq_true, if_true, if_false] at h
      split at h
      · rename_i he
        cases hg : Dict.get? spec.labelKeys output with
        | some k' =>
          rw [hg] at h
          cases h
          have hmem := Dict.mem_of_get? hg
          rw [Option.filter_eq_some_iff]
          constructor
          · rintro ⟨h1, h2⟩
            cases h1
            exact ⟨by simpa using h2, Or.inr ⟨hlk, ho, hmem⟩⟩
          · rintro ⟨hk, h | ⟨_, _, h⟩⟩
            · exact absurd (h.symm.trans hlk) hk
            · have := Dict.get?_of_mem hw h
              rw [hg] at this
              exact ⟨this, by simpa using hk⟩
        | none =>
          rw [hg] at h
          cases h
          constructor
          · intro h; simp at h
          · rintro ⟨hk, h | ⟨_, _, h⟩⟩
            · exact absurd (h.symm.trans hlk) hk
            · have := Dict.get?_of_mem hw h
              rw [hg] at this
              cases this
      · rename_i he
        cases h
        constructor
        · intro h; simp at h
        · rintro ⟨hk, h | ⟨_, _, h⟩⟩
          · exact absurd (h.symm.trans hlk) hk
          · have : spec.labelKeys = [] := by simpa using he
            rw [this] at h
            cases h
  · have h' : key = some spec.labelKey := by
      by_cases ho : output = ""
      · simp only [ho, hlk, ne_eq, not_true_eq_false, not_false_eq_true, if_true, if_false] at h
        cases h; rfl
      · simp only [ho, hlk, ne_eq, not_false_eq_true, if_true] at h
        cases h; rfl
    subst h'
    simp only [Option.filter_some, hlk, ne_eq, not_false_eq_true, decide_true, if_true]
    constructor
    · intro h
      cases h
      exact ⟨hlk, Or.inl rfl⟩
    · rintro ⟨_, h | ⟨h, _⟩⟩
      · rw [h]
      · exact h.elim

private theorem getLabelKey_error (spec : ModelSpec) (output : String) :
    (∃ e, getLabelKey spec output = .error e) ↔ output = "" ∧ spec.labelKey = "" ∧ spec.labelKeys ≠ [] := by
  unfold getLabelKey
  by_cases ho : output = "" <;> by_cases hl : spec.labelKey = "" <;> by_cases hk : spec.labelKeys = [] <;> simp [ho, hl, hk]
  cases Dict.get? spec.labelKeys output <;> simp

private theorem getLabelKey_class (spec : ModelSpec) (output : String) (e : Err) (h : getLabelKey spec output = .error e) :
    e = .valueError := by
  unfold getLabelKey at h
  repeat' (split at h)
  all_goals first | (cases h; rfl) | cases h

/-- **C166**: the plot is refused if and only if a bound is missing, there is a schema, and the label is not known because labels are
given by output and no output is. -/
theorem C166_refused (left right : Option ℚ) (config : Option EvalConfig) (schema : Option (List Plots.Feature)) (model output : String)
    (e : Err) : plotRange left right config schema model output = .error e ↔
      e = .valueError ∧ Refused left right config schema model output := by
  unfold plotRange Refused
  by_cases hlr : left = none ∨ right = none
  · have hb : (left.isNone || right.isNone) = true := by rcases hlr with rfl | rfl <;> simp
    simp only [hb, if_true]
    cases config with
    | none => simp
    | some c =>
      cases schema with
      | none => simp
      | some s =>
        simp only
        unfold labelDomain
        cases hm : modelSpec c model with
        | none =>
          simp only
          constructor
          · intro h; cases h
          · rintro ⟨_, _, _, _, c', spec, hc, hs, _⟩
            cases hc
            rw [(modelSpec_iff _ _ _).2 hs] at hm
            cases hm
        | some spec =>
          have hs := (modelSpec_iff _ _ _).1 hm
          cases hg : getLabelKey spec output with
          | error e' =>
            simp only [hg]
            have := getLabelKey_class spec output e' hg
            subst this
            obtain ⟨h1, h2, h3⟩ := (getLabelKey_error spec output).1 ⟨_, hg⟩
            constructor
            · intro h
              cases h
              exact ⟨rfl, hlr, by simp, h1, c, spec, rfl, hs, h2, h3⟩
            · rintro ⟨rfl, _⟩
              rfl
          | ok p =>
            simp only [hg]
            constructor
            · intro h; cases h
            · rintro ⟨_, _, _, ho, c', spec', hc, hs', h2, h3⟩
              cases hc
              cases specOf_unique c model spec spec' hs hs'
              obtain ⟨e', he'⟩ := (getLabelKey_error spec output).2 ⟨ho, h2, h3⟩
              rw [hg] at he'
              cases he'
  · have hb : (left.isNone || right.isNone) = false := by
      cases left <;> cases right <;> simp_all
    simp only [hb]
    constructor
    · intro h; cases h
    · rintro ⟨_, h, _⟩
      exact absurd h hlr

private theorem range_cases (left right : Option ℚ) (config : Option EvalConfig) (schema : Option (List Plots.Feature))
    (model output : String) (hw : KeysWF config) (l r : ℚ) (h : plotRange left right config schema model output = .ok (l, r)) :
    ∃ d : Option ℚ × Option ℚ, l = left.getD (d.1.getD 0) ∧ r = right.getD (d.2.getD 1) ∧
      ((left = none ∨ right = none) → (DomainOf config schema model output d ∨
        (d = (none, none) ∧ ∀ d', ¬ DomainOf config schema model output d'))) := by
  unfold plotRange at h
  by_cases hlr : left = none ∨ right = none
  · have hb : (left.isNone || right.isNone) = true := by rcases hlr with rfl | rfl <;> simp
    simp only [hb, if_true] at h
    match config, schema, hw with
    | none, _, _ =>
      cases h
      exact ⟨(none, none), rfl, rfl, fun _ => Or.inr ⟨rfl, by rintro d' ⟨c, s, k, hc, _⟩; cases hc⟩⟩
    | some c, none, _ =>
      cases h
      exact ⟨(none, none), rfl, rfl, fun _ => Or.inr ⟨rfl, by rintro d' ⟨c, s, k, _, hs, _⟩; cases hs⟩⟩
    | some c, some s, hw =>
      simp only at h
      unfold labelDomain at h
      cases hm : modelSpec c model with
      | none =>
        rw [hm] at h
        cases h
        refine ⟨(none, none), rfl, rfl, fun _ => Or.inr ⟨rfl, ?_⟩⟩
        rintro d' ⟨c', s', k, hc, _, ⟨_, spec, hs, _⟩, _⟩
        cases hc
        rw [(modelSpec_iff _ _ _).2 hs] at hm
        cases hm
      | some spec =>
        rw [hm] at h
        have hs := (modelSpec_iff _ _ _).1 hm
        have hwf := hw c rfl spec (specOf_mem c model spec hs)
        cases hg : getLabelKey spec output with
        | error e' =>
          simp only [hg] at h
          cases h
        | ok p =>
          obtain ⟨key, after⟩ := p
          have hk := key_iff c model output spec hs hwf key after hg
          simp only [hg] at h
          cases hf : key.filter (fun k => decide (k ≠ "")) with
          | none =>
            rw [hf] at h hk
            cases h
            refine ⟨(none, none), rfl, rfl, fun _ => Or.inr ⟨rfl, ?_⟩⟩
            rintro d' ⟨c', s', k, hc, _, hlab, _⟩
            cases hc
            have := (hk k).2 hlab
            cases this
          | some k =>
            rw [hf] at h hk
            have hlab := (hk k).1 rfl
            by_cases hd : ∃ d, DomainIn s k d
            · obtain ⟨d, hd⟩ := hd
              rw [domain_some s k d hd] at h
              cases h
              exact ⟨d, rfl, rfl, fun _ => Or.inl ⟨c, s, k, rfl, rfl, hlab, hd⟩⟩
            · have hd' : ∀ d, ¬ DomainIn s k d := fun d h => hd ⟨d, h⟩
              rw [domain_none s k hd'] at h
              cases h
              refine ⟨(none, none), rfl, rfl, fun _ => Or.inr ⟨rfl, ?_⟩⟩
              rintro d' ⟨c', s', k', hc, hs', hlab', hd2⟩
              cases hc
              cases hs'
              have := (hk k').2 hlab'
              cases this
              exact hd' d' hd2
  · have hb : (left.isNone || right.isNone) = false := by
      cases left <;> cases right <;> simp_all
    simp only [hb] at h
    cases h
    exact ⟨(none, none), rfl, rfl, fun h => absurd h hlr⟩

private theorem domainIn_unique (s : List Plots.Feature) (k : String) (d d' : Option ℚ × Option ℚ) (h : DomainIn s k d)
    (h' : DomainIn s k d') : d = d' := (domain_some s k d h).symm.trans (domain_some s k d' h')

private theorem labelOf_unique (c : EvalConfig) (model output k k' : String) (hw : ∀ s ∈ c.modelSpecs, Dict.WF s.labelKeys)
    (h : LabelOf c model output k) (h' : LabelOf c model output k') : k = k' := by
  obtain ⟨hk, s, hs, h⟩ := h
  obtain ⟨hk', t, ht, h'⟩ := h'
  cases specOf_unique c model s t hs ht
  rcases h with h | ⟨h1, _, h2⟩ <;> rcases h' with h' | ⟨h1', _, h2'⟩
  · exact h.symm.trans h'
  · exact absurd (h.symm.trans h1') hk
  · exact absurd (h'.symm.trans h1) hk'
  · have hwf := hw s (specOf_mem c model s hs)
    have e1 := Dict.get?_of_mem hwf h2
    have e2 := Dict.get?_of_mem hwf h2'
    rw [e1] at e2
    exact Option.some.inj e2

/-- **C166**: the bounds that are given are used; a bound that is missing is that of the domain of the label of the output in the schema,
and 0 or 1 if the label, its domain or that bound of its domain is not known. -/
theorem C166_range (left right : Option ℚ) (config : Option EvalConfig) (schema : Option (List Plots.Feature)) (model output : String)
    (hw : KeysWF config) (l r : ℚ) (h : plotRange left right config schema model output = .ok (l, r)) :
    (∀ x, left = some x → l = x) ∧ (∀ x, right = some x → r = x) ∧
    (left = none → (∀ x u, DomainOf config schema model output (some x, u) → l = x) ∧
      ((∀ x u, ¬ DomainOf config schema model output (some x, u)) → l = 0)) ∧
    (right = none → (∀ x u, DomainOf config schema model output (u, some x) → r = x) ∧
      ((∀ x u, ¬ DomainOf config schema model output (u, some x)) → r = 1)) := by
  obtain ⟨d, hl, hr, hd⟩ := range_cases left right config schema model output hw l r h
  have huniq : ∀ d d', DomainOf config schema model output d → DomainOf config schema model output d' → d = d' := by
    rintro d d' ⟨c, s, k, hc, hs, h1, h2⟩ ⟨c', s', k', hc', hs', h1', h2'⟩
    rw [hc] at hc'
    rw [hs] at hs'
    cases hc'
    cases hs'
    cases labelOf_unique c model output k k' (hw c hc) h1 h1'
    exact domainIn_unique s k d d' h2 h2'
  refine ⟨?_, ?_, ?_, ?_⟩
  · rintro x rfl; exact hl
  · rintro x rfl; exact hr
  · rintro rfl
    constructor
    · intro x u hx
      rcases hd (Or.inl rfl) with h1 | ⟨_, h1⟩
      · rw [hl, huniq _ _ h1 hx]; rfl
      · exact absurd hx (h1 _)
    · intro hx
      rcases hd (Or.inl rfl) with h1 | ⟨h1, _⟩
      · obtain ⟨d1, d2⟩ := d
        cases d1 with
        | none => exact hl
        | some x => exact absurd h1 (hx x d2)
      · rw [hl, h1]; rfl
  · rintro rfl
    constructor
    · intro x u hx
      rcases hd (Or.inr rfl) with h1 | ⟨_, h1⟩
      · rw [hr, huniq _ _ h1 hx]; rfl
      · exact absurd hx (h1 _)
    · intro hx
      rcases hd (Or.inr rfl) with h1 | ⟨h1, _⟩
      · obtain ⟨d1, d2⟩ := d
        cases d2 with
        | none => exact hr
        | some x => exact absurd h1 (hx x d1)
      · rw [hr, h1]; rfl

example : plotRange none (some 5)
    (some { modelSpecs := [{ name := "m", labelKeys := [("a", "x"), ("b", "y")] }, { name := "n", labelKey := "z" }] })
    (some [⟨"x", none, some (some 1, none)⟩, ⟨"y", some (some 2, some 9), none⟩]) "m" "b" = .ok (2, 5) := by decide +kernel

example : LabelOf { modelSpecs := [{ labelKeys := [("a", "x"), ("b", "y")] }] } "" "b" "y" :=
  ⟨by decide, _, Or.inl ⟨rfl, rfl⟩, Or.inr ⟨rfl, by decide, by simp⟩⟩

example : Refused none none (some { modelSpecs := [{ labelKeys := [("a", "x")] }] }) (some []) "" "" :=
  ⟨Or.inl rfl, by simp, rfl, _, _, rfl, Or.inl ⟨rfl, rfl⟩, rfl, by simp⟩

/-- **C166**: asking for the label leaves the config as it is, except that it fails for an output without a label among labels by output:
that output is added to the label keys with an empty key. -/
theorem C166_config_fails (spec : ModelSpec) (output : String) (key : Option String) (after : Dict String String)
    (h : getLabelKey spec output = .ok (key, after)) :
    (after ≠ spec.labelKeys ↔ output ≠ "" ∧ spec.labelKey = "" ∧ spec.labelKeys ≠ [] ∧ ∀ k, (output, k) ∉ spec.labelKeys) ∧
    (after ≠ spec.labelKeys → after = spec.labelKeys ++ [(output, "")]) := by
  have hset : ∀ d : Dict String String, Dict.get? d output = none → Dict.set d output "" = d ++ [(output, "")] := by
    intro d
    induction d with
    | nil => intro _; rfl
    | cons x xs ih =>
      obtain ⟨a, b⟩ := x
      intro hg
      unfold Dict.get? at hg
      split at hg
      · cases hg
      · rename_i hne
        simp only [Dict.set, if_neg hne, List.cons_append, ih hg]
  have hget : ∀ d : Dict String String, Dict.get? d output = none ↔ ∀ k, (output, k) ∉ d := by
    intro d
    induction d with
    | nil => simp [Dict.get?]
    | cons x xs ih =>
      obtain ⟨a, b⟩ := x
      unfold Dict.get?
      split
      · rename_i e
        subst e
        constructor
        · intro h; cases h
        · intro h; exact absurd (List.mem_cons_self) (h b)
      · rename_i hne
        rw [ih]
        constructor
        · intro h k hk
          rcases List.mem_cons.1 hk with hk | hk
          · cases hk; exact hne rfl
          · exact h k hk
        · intro h k hk
          exact h k (List.mem_cons_of_mem _ hk)
  unfold getLabelKey at h
  by_cases ho : output = ""
  · have : after = spec.labelKeys := by
      simp only [ho, ne_eq, not_true_eq_false, if_false] at h
      split at h
      · cases h; rfl
      · split at h
        · cases h
        · cases h; rfl
    exact ⟨⟨fun h => absurd this h, fun h => absurd ho h.1⟩, fun h => absurd this h⟩
  · simp only [ho, ne_eq, not_false_eq_true, if_true] at h
    split at h
    · rename_i hl
      cases h
      exact ⟨⟨fun h => absurd rfl h, fun h => absurd h.2.1 hl⟩, fun h => absurd rfl h⟩
    · rename_i hl
      have hl' : spec.labelKey = "" := by simpa using hl
      split at h
      · rename_i he
        have he' : spec.labelKeys ≠ [] := by simpa using he
        cases hg : Dict.get? spec.labelKeys output with
        | some k =>
          rw [hg] at h
          cases h
          refine ⟨⟨fun h => absurd rfl h, fun h => ?_⟩, fun h => absurd rfl h⟩
          exact absurd (Dict.mem_of_get? hg) (h.2.2.2 k)
        | none =>
          rw [hg] at h
          cases h
          rw [hset _ hg]
          exact ⟨⟨fun _ => ⟨ho, hl', he', (hget _).1 hg⟩, fun _ => by simp⟩, fun _ => rfl⟩
      · rename_i he
        cases h
        refine ⟨⟨fun h => absurd rfl h, fun h => ?_⟩, fun h => absurd rfl h⟩
        exact absurd (by simpa using he) h.2.2.1

example : getLabelKey { labelKeys := [("a", "x")] } "b" = .ok (some "", [("a", "x"), ("b", "")]) := by decide

end LabelRange
end TFMA
