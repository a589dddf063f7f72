import Verif.Model.WorkerMetrics
import Verif.Py.DictLemmas

/-!
# C163: workers compute the metrics that were asked for

The metrics built on a worker are those of the config.
-/

namespace TFMA
namespace WorkerMetrics

variable {κ : Type}

/-! ### specification -/

/-- A class that is not in the modules of Keras. -/
def Custom (env : Env κ) (c : Cls) : Prop := c.module ∉ env.kerasModules

/-- The class is used by some metric. -/
def Used (outputs : List (String × List (Metric κ))) (c : Cls) : Prop := ∃ o ∈ outputs, ∃ m ∈ o.2, m.cls = c

/-- Custom classes can be imported, and no two of them have the same name. -/
def Importable (env : Env κ) (outputs : List (String × List (Metric κ))) : Prop :=
  (∀ c, Used outputs c → Custom env c → env.find c.module c.name = some c) ∧
    ∀ c c', Used outputs c → Used outputs c' → Custom env c → Custom env c' → c.name = c'.name → c = c'

/-- A metric whose class is custom and not registered, or that Keras knows under a name that no custom class has; and that does not
wrap a function. -/
def Known (env : Env κ) (outputs : List (String × List (Metric κ))) (m : Metric κ) : Prop :=
  env.keyName m.cls ≠ (if m.isLoss then "LossFunctionWrapper" else "MeanMetricWrapper") ∧
    ((Custom env m.cls ∧ env.keyName m.cls = m.cls.name) ∨
      ((∀ c, Used outputs c → Custom env c → c.name ≠ env.keyName m.cls) ∧
        (env.registered.get? (env.keyName m.cls)).or ((if m.isLoss then env.losses else env.metrics).get? (env.keyName m.cls)) =
          some m.cls))

/-! ### the custom objects -/

private theorem mem_custom (env : Env κ) (outputs : List (String × List (Metric κ))) (p : String × String) :
    p ∈ customObjects env outputs ↔ ∃ c, Used outputs c ∧ Custom env c ∧ p = (c.module, c.name) := by
  unfold customObjects
  simp only [List.mem_flatMap, List.mem_filterMap]
  constructor
  · rintro ⟨o, ho, m, hm, h⟩
    split at h
    · simp at h
    · rename_i hc
      simp only [Option.some.injEq] at h
      exact ⟨m.cls, ⟨o, ho, m, hm, rfl⟩, by simpa [Custom] using hc, h.symm⟩
  · rintro ⟨c, ⟨o, ho, m, hm, rfl⟩, hc, rfl⟩
    refine ⟨o, ho, m, hm, ?_⟩
    unfold Custom at hc
    simp [hc]

private theorem load_spec (env : Env κ) (P : Cls → Prop) (hinj : ∀ c c', P c → P c' → c.name = c'.name → c = c')
    (l : List (String × String)) (hl : ∀ p ∈ l, ∃ c, P c ∧ env.find p.1 p.2 = some c ∧ c.name = p.2) (acc : Dict String Cls)
    (hacc : ∀ n c, acc.get? n = some c → P c ∧ c.name = n) :
    ∃ d, loadCustomObjects env l acc = .ok d ∧ (∀ n c, d.get? n = some c → P c ∧ c.name = n) ∧
      (∀ c, P c → (acc.get? c.name = some c ∨ ∃ p ∈ l, env.find p.1 p.2 = some c ∧ c.name = p.2) → d.get? c.name = some c) ∧
      (∀ n, d.get? n ≠ none → acc.get? n ≠ none ∨ ∃ p ∈ l, p.2 = n) := by
  induction l generalizing acc with
  | nil => exact ⟨acc, rfl, hacc, fun c _ h => by simpa using h, fun n h => .inl h⟩
  | cons p l ih =>
    obtain ⟨mo, na⟩ := p
    obtain ⟨c, hP, hf, hn⟩ := hl (mo, na) (by simp)
    obtain ⟨d, h1, h2, h3, h4⟩ := ih (fun p h => hl p (by simp [h])) (acc.set na c) fun n c' h => by
      rw [Dict.get?_set] at h
      split at h
      · rename_i e
        simp only [Option.some.injEq] at h
        subst h
        exact ⟨hP, by simpa [hn] using e⟩
      · exact hacc n c' h
    refine ⟨d, by simp [loadCustomObjects, hf, h1], h2, fun c' hP' h => ?_, fun n hne => ?_⟩
    · refine h3 c' hP' ?_
      by_cases e : c'.name = na
      · left
        have : c' = c := hinj c' c hP' hP (e.trans hn.symm)
        subst this
        rw [e, Dict.get?_set_self]
      · rcases h with h | ⟨p, hp, hfp, hnp⟩
        · left
          rw [Dict.get?_set_ne _ _ (Ne.symm e)]
          exact h
        · rcases List.mem_cons.1 hp with rfl | hp
          · exact absurd hnp e
          · exact .inr ⟨p, hp, hfp, hnp⟩
    · rcases h4 n hne with h | ⟨p, hp, e⟩
      · rw [Dict.get?_set] at h
        split at h
        · rename_i e
          exact .inr ⟨(mo, na), by simp, by simpa using e⟩
        · exact .inl h
      · exact .inr ⟨p, by simp [hp], e⟩

private theorem scope_spec (env : Env κ) (outputs : List (String × List (Metric κ))) (hi : Importable env outputs) :
    ∃ d, loadCustomObjects env (customObjects env outputs) [] = .ok d ∧
      (∀ c, Used outputs c → Custom env c → d.get? c.name = some c) ∧
      (∀ n, (∀ c, Used outputs c → Custom env c → c.name ≠ n) → d.get? n = none) := by
  obtain ⟨d, h1, _, h3, h4⟩ := load_spec env (fun c => Used outputs c ∧ Custom env c)
    (fun c c' h h' e => hi.2 c c' h.1 h'.1 h.2 h'.2 e) (customObjects env outputs) (fun p hp => by
      obtain ⟨c, hu, hc, rfl⟩ := (mem_custom env outputs p).1 hp
      exact ⟨c, ⟨hu, hc⟩, hi.1 c hu hc, rfl⟩) [] (by simp)
  refine ⟨d, h1, fun c hu hc => h3 c ⟨hu, hc⟩ (.inr ⟨(c.module, c.name), (mem_custom env outputs _).2 ⟨c, hu, hc, rfl⟩, hi.1 c hu hc, rfl⟩),
    fun n hn => ?_⟩
  by_contra hne
  rcases h4 n hne with h | ⟨p, hp, e⟩
  · simp at h
  · obtain ⟨c, hu, hc, rfl⟩ := (mem_custom env outputs p).1 hp
    exact hn c hu hc e

/-! ### building anew -/

private theorem all_ok (env : Env κ) (scope : Dict String Cls) (isLoss : Bool) (ms : List (Metric κ))
    (h : ∀ m ∈ ms, m.isLoss = isLoss → deserialize env scope isLoss (serialName env m, m.config) = .ok m) :
    deserializeAll env scope isLoss (configs env isLoss ms) = .ok (ms.filter fun m => m.isLoss == isLoss) := by
  unfold configs
  induction ms with
  | nil => rfl
  | cons m ms ih =>
    have ih := ih fun m' h' => h m' (by simp [h'])
    by_cases e : m.isLoss = isLoss
    · have hm := h m (by simp) e
      simp only [List.filter_cons, e, beq_self_eq_true, if_true, List.map_cons, deserializeAll, hm, ih]
    · simp only [List.filter_cons, beq_iff_eq, e, if_false, ih]

/-! ### C163 -/

/-- Every output has on the worker the metrics that were asked for, then the losses, each in their order. -/
theorem C163_rebuilt (env : Env κ) (outputs : List (String × List (Metric κ))) (hi : Importable env outputs)
    (hk : ∀ o ∈ outputs, ∀ m ∈ o.2, Known env outputs m) :
    rebuild env outputs = .ok (outputs.map fun o => (o.1, (o.2.filter fun m => !m.isLoss) ++ (o.2.filter fun m => m.isLoss))) := by
  obtain ⟨d, h1, h2, h3⟩ := scope_spec env outputs hi
  have hm : ∀ o ∈ outputs, ∀ m ∈ o.2, deserialize env d m.isLoss (serialName env m, m.config) = .ok m := by
    intro o ho m hm
    obtain ⟨hw, h⟩ := hk o ho m hm
    have hs : serialName env m = env.keyName m.cls := by
      unfold serialName
      rw [if_neg hw]
    unfold deserialize
    simp only [hs]
    rcases h with ⟨hc, hn⟩ | ⟨hn, hf⟩
    · rw [hn, h2 m.cls ⟨o, ho, m, hm, rfl⟩ hc]
      rfl
    · rw [h3 _ hn, Option.none_or, hf]
  unfold rebuild
  rw [h1]
  simp only
  have : ∀ os : List (String × List (Metric κ)), (∀ o ∈ os, o ∈ outputs) → rebuildOutputs env d os =
      .ok (os.map fun o => (o.1, (o.2.filter fun m => !m.isLoss) ++ (o.2.filter fun m => m.isLoss))) := by
    intro os hos
    induction os with
    | nil => rfl
    | cons o os ih =>
      obtain ⟨n, ms⟩ := o
      have ho := hos (n, ms) (by simp)
      have e1 : (ms.filter fun m => m.isLoss == false) = ms.filter fun m => !m.isLoss :=
        List.filter_congr fun m _ => by cases m.isLoss <;> rfl
      have e2 : (ms.filter fun m => m.isLoss == true) = ms.filter fun m => m.isLoss :=
        List.filter_congr fun m _ => by cases m.isLoss <;> rfl
      rw [rebuildOutputs, all_ok env d false ms (fun m h e => e ▸ hm _ ho m h), all_ok env d true ms (fun m h e => e ▸ hm _ ho m h),
        ih fun o h => hos o (by simp [h])]
      simp only [List.map_cons, e1, e2]
  exact this outputs fun _ h => h

/-- If a custom class cannot be imported (it is not at the top of its module), the combiner fails, whatever else it computes. -/
theorem C163_local_fails (env : Env κ) (outputs : List (String × List (Metric κ))) (c : Cls) (hu : Used outputs c) (hc : Custom env c)
    (hf : env.find c.module c.name = none) : rebuild env outputs = .error .attributeError := by
  have : ∀ (l : List (String × String)) (acc : Dict String Cls), (c.module, c.name) ∈ l → loadCustomObjects env l acc = .error .attributeError := by
    intro l
    induction l with
    | nil => simp
    | cons p l ih =>
      intro acc hp
      obtain ⟨mo, na⟩ := p
      unfold loadCustomObjects
      rcases List.mem_cons.1 hp with h | h
      · simp only [Prod.mk.injEq] at h
        obtain ⟨rfl, rfl⟩ := h
        simp [hf]
      · cases env.find mo na with
        | none => rfl
        | some c' => exact ih _ h
  unfold rebuild
  rw [this _ _ ((mem_custom env outputs _).2 ⟨c, hu, hc, rfl⟩)]

/-- A function given as a metric, which Keras wraps, becomes the class of Keras (or the custom class) with the name of the function in
camel case; if there is none the combiner fails. -/
theorem C163_function (env : Env κ) (scope : Dict String Cls) (m : Metric κ) (n : String)
    (hw : env.keyName m.cls = if m.isLoss then "LossFunctionWrapper" else "MeanMetricWrapper") (hn : env.nameOf m.config = some n) :
    (∀ c, scope.get? (env.camel n) = some c →
        deserialize env scope m.isLoss (serialName env m, m.config) = .ok ⟨c, m.isLoss, m.config⟩) ∧
      (scope.get? (env.camel n) = none → env.registered.get? (env.camel n) = none →
        (∀ c, (if m.isLoss then env.losses else env.metrics).get? (env.camel n) = some c →
          deserialize env scope m.isLoss (serialName env m, m.config) = .ok ⟨c, m.isLoss, m.config⟩) ∧
        ((if m.isLoss then env.losses else env.metrics).get? (env.camel n) = none →
          deserialize env scope m.isLoss (serialName env m, m.config) = .error .valueError)) := by
  have hs : serialName env m = env.camel n := by
    unfold serialName
    rw [if_pos hw, hn]
  unfold deserialize
  simp only [hs]
  refine ⟨fun c h => by rw [h]; rfl, fun h h' => ⟨fun c h'' => by rw [h, h', h'']; rfl, fun h'' => by rw [h, h', h'']; rfl⟩⟩

/-- The world of the examples: every class can be imported, Keras has a class AUC. -/
def sampleEnv : Env ℕ :=
  { kerasModules := ["keras.metrics", "keras.losses"]
    find := fun m n => some ⟨m, n⟩
    keyName := Cls.name
    registered := []
    metrics := [("AUC", ⟨"keras.metrics", "AUC"⟩)]
    losses := []
    nameOf := fun _ => none
    camel := id }

/-- Two custom classes with the same name: a worker computes the later one twice. -/
theorem C163_same_name_fails :
    rebuild sampleEnv [("", [⟨⟨"team_a", "Score"⟩, false, 1⟩, ⟨⟨"team_b", "Score"⟩, false, 2⟩])] =
      .ok [("", [⟨⟨"team_b", "Score"⟩, false, 1⟩, ⟨⟨"team_b", "Score"⟩, false, 2⟩])] := by rfl

/-- A custom class with the name of a class of Keras takes its place. -/
theorem C163_shadow_fails :
    rebuild sampleEnv [("", [⟨⟨"keras.metrics", "AUC"⟩, false, 1⟩]), ("other", [⟨⟨"team", "AUC"⟩, false, 2⟩])] =
      .ok [("", [⟨⟨"team", "AUC"⟩, false, 1⟩]), ("other", [⟨⟨"team", "AUC"⟩, false, 2⟩])] := by rfl

/-- A custom metric, one of Keras, and a custom loss. -/
example : Importable sampleEnv [("", [⟨⟨"keras.metrics", "AUC"⟩, false, 1⟩, ⟨⟨"team", "Loss"⟩, true, 2⟩, ⟨⟨"team", "Score"⟩, false, 3⟩])] := by
  constructor
  · intro c _ _
    rfl
  · rintro ⟨m, n⟩ ⟨m', n'⟩ ⟨o, ho, x, hx, e⟩ ⟨o', ho', x', hx', e'⟩ hc hc' h
    simp only [List.mem_singleton] at ho ho'
    subst ho
    subst ho'
    simp only [List.mem_cons, List.not_mem_nil, or_false] at hx hx'
    rcases hx with rfl | rfl | rfl <;> rcases hx' with rfl | rfl | rfl <;> simp_all [Custom, sampleEnv]
example : rebuild sampleEnv [("", [⟨⟨"keras.metrics", "AUC"⟩, false, 1⟩, ⟨⟨"team", "Loss"⟩, true, 2⟩, ⟨⟨"team", "Score"⟩, false, 3⟩])] =
    .ok [("", [⟨⟨"keras.metrics", "AUC"⟩, false, 1⟩, ⟨⟨"team", "Score"⟩, false, 3⟩, ⟨⟨"team", "Loss"⟩, true, 2⟩])] := by rfl
example : Known sampleEnv [("", [⟨⟨"keras.metrics", "AUC"⟩, false, 1⟩])] ⟨⟨"keras.metrics", "AUC"⟩, false, 1⟩ := by
  refine ⟨by simp [sampleEnv], .inr ⟨?_, rfl⟩⟩
  rintro c ⟨o, ho, x, hx, e⟩ hc
  simp only [List.mem_singleton] at ho
  subst ho
  simp only [List.mem_singleton] at hx
  subst hx
  subst e
  simp [Custom, sampleEnv] at hc

end WorkerMetrics
end TFMA
