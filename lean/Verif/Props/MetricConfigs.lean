import Verif.Model.MetricConfigs
import Verif.Lemmas.MetricSpecs
import Verif.Py.DictLemmas

/-!
# C121: the classes metric configs name
-/

namespace TFMA.MetricConfigs
open TFMA MetricSpecs

variable {Cls : Type}

/-! ## Specification -/

/-- The class a config names: the registered metric of that name, else, without a
module, the Keras metric of that name, else the class of that name in the module,
which has to be a metric or a loss. -/
def Named (w : World Cls) (cfg : Config) (c : Cls) : Prop :=
  w.registered.get? cfg.className = some c ∨
    (w.registered.get? cfg.className = none ∧
      ((cfg.module = "" ∧ w.kerasMetrics.get? cfg.className = some c) ∨
        (cfg.module ≠ "" ∧ w.importFrom cfg.module cfg.className = some c ∧
          w.kind c ≠ .other)))

/-- Whether the object is one of Keras: these get a name if they have none. -/
def FromKeras (w : World Cls) (cfg : Config) (c : Cls) : Prop :=
  w.registered.get? cfg.className = none ∧ (cfg.module = "" ∨ w.kind c ≠ .tfma)

/-- The settings of the object: those of the config, with the default name added for
Keras objects that have none. -/
def Settings (w : World Cls) (cfg : Config) (m : Instance Cls) : Prop :=
  (¬ FromKeras w cfg m.cls → m.params = cfg.params) ∧
  (FromKeras w cfg m.cls → cfg.params.get? "name" ≠ none → m.params = cfg.params) ∧
  (FromKeras w cfg m.cls → cfg.params.get? "name" = none →
    m.params = cfg.params ++ [("name", .str (w.snake cfg.className))])

/-- The object a config stands for. -/
def Made (w : World Cls) (cfg : Config) (m : Instance Cls) : Prop :=
  Named w cfg m.cls ∧ Settings w cfg m ∧ w.accepts m.cls m.params = true

/-- The specs for which `to_computations` is right: apart from the registered ones, a
class name is used with one module only, every class imported is a metric or a loss,
and the losses are those of Keras' own module. -/
structure Orderly (w : World Cls) (configs : List Config) : Prop where
  lossesModule : w.lossesModule ≠ ""
  oneModule : ∀ a ∈ configs, ∀ b ∈ configs, a.className = b.className →
    w.registered.get? a.className = none → a.module = b.module
  known : ∀ a ∈ configs, ∀ c, w.registered.get? a.className = none → a.module ≠ "" →
    w.importFrom a.module a.className = some c → w.kind c ≠ .other
  losses : ∀ a ∈ configs, ∀ c, w.registered.get? a.className = none → a.module ≠ "" →
    w.importFrom a.module a.className = some c →
      (w.kind c = .kerasLoss ↔ a.module = w.lossesModule)

/-! ## Lemmas -/

private theorem has_false {d : Dict String Cls} {k : String} :
    d.has k = false ↔ d.get? k = none := by
  simp [Dict.has]

private theorem has_true {d : Dict String Cls} {k : String} :
    d.has k = true ↔ ∃ c, d.get? k = some c := by
  simp [Dict.has, Option.isSome_iff_exists]

private theorem set_new {V : Type} (d : Dict String V) (k : String) (v : V)
    (h : d.get? k = none) : d.set k v = d ++ [(k, v)] := by
  induction d with
  | nil => rfl
  | cons p d ih =>
    obtain ⟨a, b⟩ := p
    by_cases hab : a = k
    · simp [Dict.get?, hab] at h
    · simp only [Dict.get?, hab, if_false] at h
      simp [Dict.set, hab, ih h]

private theorem addName_eq (w : World Cls) (n : String) (p : Dict String Val) :
    addName w n p = if p.get? "name" = none then p ++ [("name", .str (w.snake n))] else p := by
  by_cases h : p.get? "name" = none
  · simp [addName, Dict.has, h, set_new]
  · obtain ⟨v, hv⟩ := Option.ne_none_iff_exists'.mp h
    simp [addName, Dict.has, hv]

private theorem deserialize_custom {w : World Cls} {custom known : Dict String Cls}
    {n : String} {p : Dict String Val} {c : Cls} (h : custom.get? n = some c) :
    deserialize w custom known n p =
      if w.accepts c p then .ok ⟨c, p⟩ else .error .typeError := by
  simp [deserialize, h]

private theorem deserialize_known {w : World Cls} {custom known : Dict String Cls}
    {n : String} {p : Dict String Val} (h : custom.get? n = none) :
    deserialize w custom known n p = deserialize w [] known n p := by
  simp [deserialize, h, Dict.get?]

private theorem made_iff {w : World Cls} {c : Cls} {p : Dict String Val}
    {m : Instance Cls} :
    (if w.accepts c p then Except.ok (⟨c, p⟩ : Instance Cls) else .error Err.typeError) = .ok m ↔
      m.cls = c ∧ m.params = p ∧ w.accepts c p = true := by
  obtain ⟨mc, mp⟩ := m
  by_cases h : w.accepts c p = true
  · simp [h, eq_comm]
  · simp [h]

private theorem settings_plain {w : World Cls} {cfg : Config} {m : Instance Cls}
    (h : ¬ FromKeras w cfg m.cls) : Settings w cfg m ↔ m.params = cfg.params :=
  ⟨fun s => s.1 h, fun s => ⟨fun _ => s, fun h' => absurd h' h, fun h' => absurd h' h⟩⟩

private theorem settings_keras {w : World Cls} {cfg : Config} {m : Instance Cls}
    (h : FromKeras w cfg m.cls) :
    Settings w cfg m ↔ m.params = addName w cfg.className cfg.params := by
  rw [addName_eq]
  by_cases hn : cfg.params.get? "name" = none
  · rw [if_pos hn]
    exact ⟨fun s => s.2.2 h hn, fun s => ⟨fun h' => absurd h h', fun _ h' => absurd hn h', fun _ _ => s⟩⟩
  · rw [if_neg hn]
    exact ⟨fun s => s.2.1 h hn, fun s => ⟨fun h' => absurd h h', fun _ _ => s, fun _ h' => absurd h' hn⟩⟩

/-- `metric_instance` makes the object its config stands for, and no other. -/
theorem C121_one (w : World Cls) (cfg : Config) (m : Instance Cls) :
    metricInstance w cfg = .ok m ↔ Made w cfg m := by
  unfold metricInstance
  by_cases hr : w.registered.has cfg.className = true
  · obtain ⟨c, hc⟩ := has_true.mp hr
    rw [if_pos hr, deserializeTfma, deserialize_custom hc, made_iff]
    have hk : ¬ FromKeras w cfg m.cls := fun h => by simp [FromKeras, hc] at h
    rw [Made, settings_plain hk]
    constructor
    · rintro ⟨rfl, hp, ha⟩
      exact ⟨.inl hc, hp, hp ▸ ha⟩
    · rintro ⟨hn, hp, ha⟩
      have : m.cls = c := by
        rcases hn with h | ⟨h, -⟩
        · rw [hc] at h; exact (Option.some.inj h).symm
        · rw [hc] at h; cases h
      subst this
      exact ⟨rfl, hp, hp ▸ ha⟩
  · have hr' : w.registered.get? cfg.className = none := has_false.mp (by simpa using hr)
    rw [if_neg hr]
    by_cases hm : cfg.module = ""
    · rw [if_pos hm, deserializeTfMetric]
      have hk : FromKeras w cfg m.cls := ⟨hr', .inl hm⟩
      rw [Made, settings_keras hk]
      have hnamed : Named w cfg m.cls ↔ w.kerasMetrics.get? cfg.className = some m.cls := by
        simp [Named, hr', hm]
      rw [hnamed]
      cases hkm : w.kerasMetrics.get? cfg.className with
      | none => simp [deserialize, Dict.get?, hkm]
      | some c =>
        simp only [deserialize, Dict.get?, hkm, made_iff]
        constructor
        · rintro ⟨rfl, hp, ha⟩; exact ⟨rfl, hp, hp ▸ ha⟩
        · rintro ⟨h, hp, ha⟩
          cases h
          exact ⟨rfl, hp, hp ▸ ha⟩
    · rw [if_neg hm]
      have hnamed : Named w cfg m.cls ↔
          w.importFrom cfg.module cfg.className = some m.cls ∧ w.kind m.cls ≠ .other := by
        simp [Named, hr', hm]
      rw [Made, hnamed]
      cases hi : w.importFrom cfg.module cfg.className with
      | none => simp
      | some c =>
        have hg : Dict.get? [(cfg.className, c)] cfg.className = some c := by simp [Dict.get?]
        cases hkc : w.kind c with
        | other =>
          simp only [hkc, reduceCtorEq, false_iff, not_and]
          rintro ⟨h, ho⟩
          cases h
          exact absurd hkc ho
        | tfma =>
          simp only [hkc, deserializeTfma, deserialize_custom hg, made_iff]
          constructor
          · rintro ⟨rfl, hp, ha⟩
            have hk : ¬ FromKeras w cfg m.cls := fun h => by
              rcases h.2 with h | h
              · exact hm h
              · exact h hkc
            exact ⟨⟨rfl, by simp [hkc]⟩, (settings_plain hk).mpr hp, hp ▸ ha⟩
          · rintro ⟨⟨h, ho⟩, hs, ha⟩
            cases h
            have hk : ¬ FromKeras w cfg m.cls := fun h => by
              rcases h.2 with h | h
              · exact hm h
              · exact h hkc
            have hp := (settings_plain hk).mp hs
            exact ⟨rfl, hp, hp ▸ ha⟩
        | kerasMetric =>
          simp only [hkc, deserializeTfMetric, deserialize_custom hg, made_iff]
          constructor
          · rintro ⟨rfl, hp, ha⟩
            have hk : FromKeras w cfg m.cls := ⟨hr', .inr (by simp [hkc])⟩
            exact ⟨⟨rfl, by simp [hkc]⟩, (settings_keras hk).mpr hp, hp ▸ ha⟩
          · rintro ⟨⟨h, ho⟩, hs, ha⟩
            cases h
            have hk : FromKeras w cfg m.cls := ⟨hr', .inr (by simp [hkc])⟩
            have hp := (settings_keras hk).mp hs
            exact ⟨rfl, hp, hp ▸ ha⟩
        | kerasLoss =>
          simp only [hkc, deserializeTfLoss, deserialize_custom hg, made_iff]
          constructor
          · rintro ⟨rfl, hp, ha⟩
            have hk : FromKeras w cfg m.cls := ⟨hr', .inr (by simp [hkc])⟩
            exact ⟨⟨rfl, by simp [hkc]⟩, (settings_keras hk).mpr hp, hp ▸ ha⟩
          · rintro ⟨⟨h, ho⟩, hs, ha⟩
            cases h
            have hk : FromKeras w cfg m.cls := ⟨hr', .inr (by simp [hkc])⟩
            have hp := (settings_keras hk).mp hs
            exact ⟨rfl, hp, hp ▸ ha⟩

/-! ### The classes known while the specs are read -/

/-- The class was imported for one of the configs. -/
private def Imported (w : World Cls) (all : List Config) (k : Kind) (n : String) (c : Cls) :
    Prop :=
  ∃ a ∈ all, a.className = n ∧ w.registered.get? n = none ∧ a.module ≠ "" ∧
    w.importFrom a.module n = some c ∧ w.kind c = k

private structure Inv (w : World Cls) (all : List Config) (st : Classes Cls) : Prop where
  metrics : ∀ n c, st.metrics.get? n = some c → Imported w all .kerasMetric n c
  losses : ∀ n c, st.losses.get? n = some c → Imported w all .kerasLoss n c
  tfma : ∀ n c, st.tfma.get? n = some c →
    w.registered.get? n = some c ∨ Imported w all .tfma n c
  registered : ∀ n c, w.registered.get? n = some c → st.tfma.get? n = some c

private structure Le (st st' : Classes Cls) : Prop where
  metrics : ∀ n c, st.metrics.get? n = some c → ∃ c', st'.metrics.get? n = some c'
  losses : ∀ n c, st.losses.get? n = some c → ∃ c', st'.losses.get? n = some c'
  tfma : ∀ n c, st.tfma.get? n = some c → ∃ c', st'.tfma.get? n = some c'

private theorem Le.refl (st : Classes Cls) : Le st st :=
  ⟨fun _ c h => ⟨c, h⟩, fun _ c h => ⟨c, h⟩, fun _ c h => ⟨c, h⟩⟩

private theorem Le.trans {a b c : Classes Cls} (h : Le a b) (h' : Le b c) : Le a c :=
  ⟨fun n x hx => let ⟨y, hy⟩ := h.metrics n x hx; h'.metrics n y hy,
    fun n x hx => let ⟨y, hy⟩ := h.losses n x hx; h'.losses n y hy,
    fun n x hx => let ⟨y, hy⟩ := h.tfma n x hx; h'.tfma n y hy⟩

/-- Where a config was put, and that its class is known. -/
private def Placed (w : World Cls) (st : Classes Cls) (a : Config) : Bool → Prop
  | true => ∃ c, st.tfma.get? a.className = some c
  | false => w.registered.get? a.className = none ∧
      (a.module = "" ∨ (a.module ≠ "" ∧ ∃ c, w.importFrom a.module a.className = some c ∧
        ((w.kind c = .kerasMetric ∧ ∃ c', st.metrics.get? a.className = some c') ∨
         (w.kind c = .kerasLoss ∧ ∃ c', st.losses.get? a.className = some c'))))

private theorem Placed.mono {w : World Cls} {st st' : Classes Cls} {a : Config} {b : Bool}
    (hle : Le st st') (h : Placed w st a b) : Placed w st' a b := by
  cases b with
  | true => obtain ⟨c, hc⟩ := h; exact hle.tfma _ c hc
  | false =>
    refine ⟨h.1, ?_⟩
    rcases h.2 with h | ⟨hm, c, hi, ⟨hk, c', hc'⟩ | ⟨hk, c', hc'⟩⟩
    · exact .inl h
    · exact .inr ⟨hm, c, hi, .inl ⟨hk, hle.metrics _ c' hc'⟩⟩
    · exact .inr ⟨hm, c, hi, .inr ⟨hk, hle.losses _ c' hc'⟩⟩

private theorem le_set {d : Dict String Cls} {k : String} {v : Cls} :
    ∀ n c, d.get? n = some c → ∃ c', (d.set k v).get? n = some c' := by
  intro n c h
  rw [Dict.get?_set]
  by_cases hk : k = n
  · exact ⟨v, by simp [hk]⟩
  · exact ⟨c, by simp [hk, h]⟩

private theorem classifyOne_spec {w : World Cls} {all : List Config} (ho : Orderly w all)
    {st st' : Classes Cls} {a : Config} {b : Bool} (ha : a ∈ all) (hi : Inv w all st)
    (h : classifyOne w st a = .ok (b, st')) :
    Inv w all st' ∧ Le st st' ∧ Placed w st' a b := by
  unfold classifyOne at h
  by_cases ht : st.tfma.has a.className = true
  · rw [if_pos ht] at h
    cases h
    exact ⟨hi, .refl _, has_true.mp ht⟩
  · rw [if_neg ht] at h
    have ht' : st.tfma.get? a.className = none := has_false.mp (by simpa using ht)
    have hr : w.registered.get? a.className = none := by
      cases hc : w.registered.get? a.className with
      | none => rfl
      | some c => rw [hi.registered _ c hc] at ht'; cases ht'
    by_cases hm : a.module = ""
    · rw [if_pos hm] at h
      cases h
      exact ⟨hi, .refl _, hr, .inl hm⟩
    · rw [if_neg hm] at h
      cases him : w.importFrom a.module a.className with
      | none => rw [him] at h; cases h
      | some c =>
        rw [him] at h
        have himp : ∀ k, w.kind c = k → Imported w all k a.className c :=
          fun k hk => ⟨a, ha, rfl, hr, hm, him, hk⟩
        cases hkc : w.kind c with
        | other => exact absurd hkc (ho.known a ha c hr hm him)
        | kerasMetric =>
          simp only [hkc] at h
          cases h
          refine ⟨⟨?_, hi.losses, hi.tfma, hi.registered⟩, ⟨le_set, fun _ c h => ⟨c, h⟩, fun _ c h => ⟨c, h⟩⟩,
            hr, .inr ⟨hm, c, him, .inl ⟨hkc, c, Dict.get?_set_self ..⟩⟩⟩
          intro n d hd
          rw [Dict.get?_set] at hd
          by_cases hn : a.className = n
          · simp only [hn, if_true] at hd
            cases hd; subst hn; exact himp _ hkc
          · rw [if_neg hn] at hd; exact hi.metrics n d hd
        | kerasLoss =>
          simp only [hkc] at h
          cases h
          refine ⟨⟨hi.metrics, ?_, hi.tfma, hi.registered⟩, ⟨fun _ c h => ⟨c, h⟩, le_set, fun _ c h => ⟨c, h⟩⟩,
            hr, .inr ⟨hm, c, him, .inr ⟨hkc, c, Dict.get?_set_self ..⟩⟩⟩
          intro n d hd
          rw [Dict.get?_set] at hd
          by_cases hn : a.className = n
          · simp only [hn, if_true] at hd
            cases hd; subst hn; exact himp _ hkc
          · rw [if_neg hn] at hd; exact hi.losses n d hd
        | tfma =>
          simp only [hkc] at h
          cases h
          refine ⟨⟨hi.metrics, hi.losses, ?_, ?_⟩, ⟨fun _ c h => ⟨c, h⟩, fun _ c h => ⟨c, h⟩, le_set⟩,
            c, Dict.get?_set_self ..⟩
          · intro n d hd
            rw [Dict.get?_set] at hd
            by_cases hn : a.className = n
            · simp only [hn, if_true] at hd
              cases hd; subst hn; exact .inr (himp _ hkc)
            · rw [if_neg hn] at hd; exact hi.tfma n d hd
          · intro n d hd
            rw [Dict.get?_set]
            by_cases hn : a.className = n
            · subst hn; rw [hr] at hd; cases hd
            · rw [if_neg hn]; exact hi.registered n d hd

private theorem classify_spec {w : World Cls} {all : List Config} (ho : Orderly w all)
    {l : List Config} (hl : ∀ a ∈ l, a ∈ all) {st st' : Classes Cls} {tf tfma : List Config}
    (hi : Inv w all st) (h : classify w st l = .ok (tf, tfma, st')) :
    Inv w all st' ∧ Le st st' ∧ (tf ++ tfma).Perm l ∧
      (∀ a ∈ tf, Placed w st' a false) ∧ (∀ a ∈ tfma, Placed w st' a true) := by
  induction l generalizing st tf tfma st' with
  | nil =>
    simp only [classify, Except.ok.injEq, Prod.mk.injEq] at h
    obtain ⟨rfl, rfl, rfl⟩ := h
    exact ⟨hi, .refl _, .nil, by simp, by simp⟩
  | cons a l ih =>
    unfold classify at h
    cases h1 : classifyOne w st a with
    | error e => rw [h1] at h; cases h
    | ok r =>
      obtain ⟨b, st1⟩ := r
      rw [h1] at h
      obtain ⟨hi1, hle1, hp1⟩ := classifyOne_spec ho (hl a (by simp)) hi h1
      cases h2 : classify w st1 l with
      | error e => simp only [h2] at h; cases h
      | ok r2 =>
        obtain ⟨tf2, tfma2, st2⟩ := r2
        simp only [h2] at h
        obtain ⟨hi2, hle2, hperm, hA, hB⟩ := ih (fun x hx => hl x (by simp [hx])) hi1 h2
        have hp2 := hp1.mono hle2
        cases b with
        | true =>
          simp only [if_true, Except.ok.injEq, Prod.mk.injEq] at h
          obtain ⟨rfl, rfl, rfl⟩ := h
          refine ⟨hi2, hle1.trans hle2, ?_, hA, ?_⟩
          · exact List.perm_middle.trans (hperm.cons a)
          · intro x hx
            rcases List.mem_cons.mp hx with rfl | hx
            · exact hp2
            · exact hB x hx
        | false =>
          simp only [Bool.false_eq_true, if_false, Except.ok.injEq, Prod.mk.injEq] at h
          obtain ⟨rfl, rfl, rfl⟩ := h
          refine ⟨hi2, hle1.trans hle2, hperm.cons a, ?_, hB⟩
          intro x hx
          rcases List.mem_cons.mp hx with rfl | hx
          · exact hp2
          · exact hA x hx

/-- What was imported under the name of a config is the class of the config. -/
private theorem imported_eq {w : World Cls} {all : List Config} (ho : Orderly w all)
    {a : Config} (ha : a ∈ all) {k : Kind} {c : Cls} (h : Imported w all k a.className c) :
    w.registered.get? a.className = none ∧ a.module ≠ "" ∧
      w.importFrom a.module a.className = some c ∧ w.kind c = k := by
  obtain ⟨b, hb, hn, hr, hm, hi, hk⟩ := h
  have : a.module = b.module := ho.oneModule a ha b hb hn.symm hr
  rw [this]
  exact ⟨hr, hm, hi, hk⟩

private theorem tfInstance_eq {w : World Cls} {all : List Config} (ho : Orderly w all)
    {st : Classes Cls} (hi : Inv w all st) {a : Config} (ha : a ∈ all)
    (hp : Placed w st a false) : tfInstance w st a = metricInstance w a := by
  obtain ⟨hr, hp⟩ := hp
  have hrb : ¬ w.registered.has a.className = true := by simp [Dict.has, hr]
  unfold metricInstance tfInstance
  rw [if_neg hrb]
  rcases hp with hm | ⟨hm, c, him, ⟨hk, c', hc'⟩ | ⟨hk, c', hc'⟩⟩
  · rw [if_pos hm, if_neg (by rw [hm]; exact ho.lossesModule.symm)]
    have : st.metrics.get? a.className = none := by
      cases hc : st.metrics.get? a.className with
      | none => rfl
      | some c => exact absurd hm (imported_eq ho ha (hi.metrics _ c hc)).2.1
    rw [deserializeTfMetric, deserialize_known this, deserializeTfMetric]
  · have hcc : c' = c := by
      have := (imported_eq ho ha (hi.metrics _ c' hc')).2.2.1
      rw [him] at this; exact (Option.some.inj this).symm
    subst hcc
    have hl : a.module ≠ w.lossesModule := fun h =>
      absurd ((ho.losses a ha c' hr hm him).mpr h) (by simp [hk])
    rw [if_neg hl, if_neg hm, him]
    simp only [hk]
    have hg : Dict.get? [(a.className, c')] a.className = some c' := by simp [Dict.get?]
    rw [deserializeTfMetric, deserialize_custom hc', deserializeTfMetric, deserialize_custom hg]
  · have hcc : c' = c := by
      have := (imported_eq ho ha (hi.losses _ c' hc')).2.2.1
      rw [him] at this; exact (Option.some.inj this).symm
    subst hcc
    rw [if_pos ((ho.losses a ha c' hr hm him).mp hk), if_neg hm, him]
    simp only [hk]
    have hg : Dict.get? [(a.className, c')] a.className = some c' := by simp [Dict.get?]
    rw [deserializeTfLoss, deserialize_custom hc', deserializeTfLoss, deserialize_custom hg]

private theorem tfmaInstance_eq {w : World Cls} {all : List Config} (ho : Orderly w all)
    {st : Classes Cls} (hi : Inv w all st) {a : Config} (ha : a ∈ all)
    (hp : Placed w st a true) : deserializeTfma w a st.tfma = metricInstance w a := by
  obtain ⟨c, hc⟩ := hp
  rw [deserializeTfma, deserialize_custom hc]
  unfold metricInstance
  rcases hi.tfma _ c hc with h | h
  · rw [if_pos (has_true.mpr ⟨c, h⟩), deserializeTfma, deserialize_custom h]
  · obtain ⟨hr, hm, him, hk⟩ := imported_eq ho ha h
    have hg : Dict.get? [(a.className, c)] a.className = some c := by simp [Dict.get?]
    have hrb : ¬ w.registered.has a.className = true := by simp [Dict.has, hr]
    rw [if_neg hrb, if_neg hm, him]
    simp only [hk]
    rw [deserializeTfma, deserialize_custom hg]

private theorem mapE_congr {α β : Type} {f g : α → Except Err β} {l : List α}
    (h : ∀ x ∈ l, f x = g x) : mapE f l = mapE g l := by
  induction l with
  | nil => rfl
  | cons x xs ih =>
    simp only [mapE, h x (by simp), ih fun y hy => h y (by simp [hy])]

private theorem zip_map_fst {α β : Type} {R : α → β → Prop} {l : List α} {r : List β}
    (h : List.Forall₂ R l r) : (l.zip r).map Prod.fst = l ∧ ∀ p ∈ l.zip r, R p.1 p.2 := by
  induction h with
  | nil => simp
  | cons hxy _ ih =>
    refine ⟨by simp [ih.1], ?_⟩
    intro p hp
    rcases List.mem_cons.mp hp with rfl | hp
    · exact hxy
    · exact ih.2 p hp

/-- A spec read with the classes known so far. -/
private theorem specInstances_spec {w : World Cls} {all : List Config} (ho : Orderly w all)
    {l : List Config} (hl : ∀ a ∈ l, a ∈ all) {st st' : Classes Cls}
    {row : List (Config × Instance Cls)} (hi : Inv w all st)
    (h : specInstances w st l = .ok (row, st')) :
    Inv w all st' ∧ (row.map Prod.fst).Perm l ∧ ∀ p ∈ row, metricInstance w p.1 = .ok p.2 := by
  unfold specInstances at h
  cases hc : classify w st l with
  | error e => rw [hc] at h; cases h
  | ok r =>
    obtain ⟨tf, tfma, st1⟩ := r
    rw [hc] at h
    obtain ⟨hi1, -, hperm, hA, hB⟩ := classify_spec ho hl hi hc
    have hmem : ∀ a, a ∈ tf ++ tfma → a ∈ all := fun a ha => hl a (hperm.mem_iff.mp ha)
    have e1 : mapE (tfInstance w st1) tf = mapE (metricInstance w) tf :=
      mapE_congr fun a ha => tfInstance_eq ho hi1 (hmem a (by simp [ha])) (hA a ha)
    have e2 : mapE (fun cfg => deserializeTfma w cfg st1.tfma) tfma = mapE (metricInstance w) tfma :=
      mapE_congr fun a ha => tfmaInstance_eq ho hi1 (hmem a (by simp [ha])) (hB a ha)
    simp only [e1, e2] at h
    cases ha : mapE (metricInstance w) tf with
    | error e => simp only [ha] at h; cases h
    | ok ra =>
      cases hb : mapE (metricInstance w) tfma with
      | error e => simp only [ha, hb] at h; cases h
      | ok rb =>
        simp only [ha, hb, Except.ok.injEq, Prod.mk.injEq] at h
        obtain ⟨rfl, rfl⟩ := h
        have hf := List.rel_append (mapE_eq_ok ha) (mapE_eq_ok hb)
        obtain ⟨hfst, hall⟩ := zip_map_fst hf
        exact ⟨hi1, hfst ▸ hperm, hall⟩

private theorem inv_start (w : World Cls) (all : List Config) :
    Inv w all ⟨[], [], w.registered⟩ :=
  ⟨fun _ _ h => by simp [Dict.get?] at h, fun _ _ h => by simp [Dict.get?] at h,
    fun _ _ h => .inl h, fun _ _ h => h⟩

private theorem instancesFrom_spec {w : World Cls} {all : List Config} (ho : Orderly w all)
    {specs : List (List Config)} (hl : ∀ s ∈ specs, ∀ a ∈ s, a ∈ all) {st : Classes Cls}
    {rows : List (List (Config × Instance Cls))} (hi : Inv w all st)
    (h : instancesFrom w st specs = .ok rows) :
    List.Forall₂ (fun spec row => (row.map Prod.fst).Perm spec ∧
      ∀ p ∈ row, metricInstance w p.1 = .ok p.2) specs rows := by
  induction specs generalizing st rows with
  | nil => simp only [instancesFrom, Except.ok.injEq] at h; subst h; exact .nil
  | cons s specs ih =>
    unfold instancesFrom at h
    cases h1 : specInstances w st s with
    | error e => rw [h1] at h; cases h
    | ok r =>
      obtain ⟨row, st'⟩ := r
      rw [h1] at h
      obtain ⟨hi', hrow⟩ := specInstances_spec ho (hl s (by simp)) hi h1
      cases h2 : instancesFrom w st' specs with
      | error e => simp only [h2] at h; cases h
      | ok rows' =>
        simp only [h2, Except.ok.injEq] at h
        subst h
        exact .cons hrow (ih (fun x hx => hl x (by simp [hx])) hi' h2)

private theorem mapE_total {α β : Type} {f : α → Except Err β} {l : List α}
    (h : ∀ x ∈ l, ∃ y, f x = .ok y) : ∃ r, mapE f l = .ok r := by
  induction l with
  | nil => exact ⟨[], rfl⟩
  | cons x xs ih =>
    obtain ⟨y, hy⟩ := h x (by simp)
    obtain ⟨r, hr⟩ := ih fun z hz => h z (by simp [hz])
    exact ⟨y :: r, by simp only [mapE, hy, hr]⟩

private theorem classify_total {w : World Cls} {l : List Config}
    (h : ∀ a ∈ l, ∃ m, metricInstance w a = .ok m)
    {st : Classes Cls} (hi : ∀ n c, w.registered.get? n = some c → ∃ c', st.tfma.get? n = some c') :
    ∃ r, classify w st l = .ok r := by
  induction l generalizing st with
  | nil => exact ⟨_, rfl⟩
  | cons a l ih =>
    have h1 : ∃ r, classifyOne w st a = .ok r ∧
        ∀ n c, w.registered.get? n = some c → ∃ c', r.2.tfma.get? n = some c' := by
      obtain ⟨m, hm⟩ := h a (by simp)
      unfold classifyOne
      by_cases ht : st.tfma.has a.className = true
      · exact ⟨_, if_pos ht, hi⟩
      · have hr : ¬ w.registered.has a.className = true := fun hr => by
          obtain ⟨c, hc⟩ := has_true.mp hr
          exact ht (has_true.mpr (hi _ c hc))
        rw [if_neg ht]
        by_cases hmod : a.module = ""
        · exact ⟨_, if_pos hmod, hi⟩
        · unfold metricInstance at hm
          rw [if_neg hr, if_neg hmod] at hm
          rw [if_neg hmod]
          cases him : w.importFrom a.module a.className with
          | none => rw [him] at hm; cases hm
          | some c =>
            simp only
            cases hk : w.kind c with
            | other =>
              refine ⟨_, rfl, fun n c' h' => ?_⟩
              obtain ⟨y, hy⟩ := hi n c' h'
              exact le_set n y hy
            | tfma =>
              refine ⟨_, rfl, fun n c' h' => ?_⟩
              obtain ⟨y, hy⟩ := hi n c' h'
              exact le_set n y hy
            | kerasMetric => exact ⟨_, rfl, fun n c' h' => hi n c' h'⟩
            | kerasLoss => exact ⟨_, rfl, fun n c' h' => hi n c' h'⟩
    obtain ⟨⟨b, st1⟩, h1, hi1⟩ := h1
    obtain ⟨⟨tf, tfma, st2⟩, h2⟩ := ih (fun x hx => h x (by simp [hx])) hi1
    have h2 : classify w st1 l = .ok (tf, tfma, st2) := h2
    refine ⟨if b then (tf, a :: tfma, st2) else (a :: tf, tfma, st2), ?_⟩
    simp only [classify, h1, h2]
    cases b <;> rfl

private theorem instancesFrom_total {w : World Cls} {all : List Config} (ho : Orderly w all)
    {specs : List (List Config)} (hl : ∀ s ∈ specs, ∀ a ∈ s, a ∈ all)
    (h : ∀ a ∈ all, ∃ m, metricInstance w a = .ok m) {st : Classes Cls} (hi : Inv w all st) :
    ∃ rows, instancesFrom w st specs = .ok rows := by
  induction specs generalizing st with
  | nil => exact ⟨[], rfl⟩
  | cons s specs ih =>
    have hs : ∀ a ∈ s, a ∈ all := hl s (by simp)
    have h1 : ∃ r, specInstances w st s = .ok r := by
      obtain ⟨⟨tf, tfma, st1⟩, hc⟩ := classify_total (l := s) (fun a ha => h a (hs a ha))
        (st := st) (fun n c hn => ⟨c, hi.registered n c hn⟩)
      obtain ⟨hi1, -, hperm, hA, hB⟩ := classify_spec ho hs hi hc
      have hmem : ∀ a, a ∈ tf ++ tfma → a ∈ all := fun a ha => hs a (hperm.mem_iff.mp ha)
      obtain ⟨ra, ha⟩ := mapE_total (f := tfInstance w st1) (l := tf) (fun a ha => by
        rw [tfInstance_eq ho hi1 (hmem a (by simp [ha])) (hA a ha)]
        exact h a (hmem a (by simp [ha])))
      obtain ⟨rb, hb⟩ := mapE_total (f := fun cfg => deserializeTfma w cfg st1.tfma) (l := tfma)
        (fun a ha => by
          rw [tfmaInstance_eq ho hi1 (hmem a (by simp [ha])) (hB a ha)]
          exact h a (hmem a (by simp [ha])))
      exact ⟨((tf ++ tfma).zip (ra ++ rb), st1), by simp only [specInstances, hc, ha, hb]⟩
    obtain ⟨⟨row, st1⟩, h1⟩ := h1
    obtain ⟨hi1, -⟩ := specInstances_spec ho hs hi h1
    obtain ⟨rows, h2⟩ := ih (fun x hx => hl x (by simp [hx])) hi1
    exact ⟨row :: rows, by simp only [instancesFrom, h1, h2]⟩

private theorem forall₂_left {α β : Type} {R : α → β → Prop} {l : List α} {r : List β}
    (h : List.Forall₂ R l r) {x : α} (hx : x ∈ l) : ∃ y, R x y := by
  induction h with
  | nil => cases hx
  | cons hxy _ ih =>
    rcases List.mem_cons.mp hx with rfl | hx
    · exact ⟨_, hxy⟩
    · exact ih hx

/-! ## Theorems -/

/-- Reading all the specs makes, for each config of each spec, the one object the
config stands for, and nothing else. Missing: `Orderly`; without it the claim is
false, see `C121_custom_loss_fails`, `C121_same_name_fails` and
`C121_taken_over_fails`. -/
theorem C121_all_partial (w : World Cls) (specs : List (List Config))
    (ho : Orderly w specs.flatten) (rows : List (List (Config × Instance Cls)))
    (h : instances w specs = .ok rows) :
    List.Forall₂ (fun spec row => (row.map Prod.fst).Perm spec ∧
      ∀ p ∈ row, Made w p.1 p.2) specs rows := by
  refine (instancesFrom_spec ho (fun s hs a ha => List.mem_flatten.mpr ⟨s, hs, ha⟩)
    (inv_start w _) h).imp ?_
  intro spec row hr
  exact ⟨hr.1, fun p hp => (C121_one w p.1 p.2).mp (hr.2 p hp)⟩

/-- The specs are accepted exactly if every config stands for an object. -/
theorem C121_accepted_partial (w : World Cls) (specs : List (List Config))
    (ho : Orderly w specs.flatten) :
    (∃ rows, instances w specs = .ok rows) ↔
      ∀ spec ∈ specs, ∀ cfg ∈ spec, ∃ m, Made w cfg m := by
  constructor
  · rintro ⟨rows, h⟩ spec hs cfg hc
    obtain ⟨row, hperm, hall⟩ := forall₂_left (C121_all_partial w specs ho rows h) hs
    have : cfg ∈ row.map Prod.fst := hperm.mem_iff.mpr hc
    obtain ⟨p, hp, rfl⟩ := List.mem_map.mp this
    exact ⟨p.2, hall p hp⟩
  · intro h
    refine instancesFrom_total ho (fun s hs a ha => List.mem_flatten.mpr ⟨s, hs, ha⟩) ?_
      (inv_start w _)
    intro a ha
    obtain ⟨s, hs, has⟩ := List.mem_flatten.mp ha
    obtain ⟨m, hm⟩ := h s hs a has
    exact ⟨m, (C121_one w a m).mpr hm⟩

/-! ### Where the claim fails -/

/-- The classes of the examples. -/
inductive Demo where
  | tfmaAuc | tfmaMean | kerasAuc | kerasMean | kerasLoss
  | ownA | ownB | ownKerasA | ownKerasB | ownLoss | wrapped
  deriving DecidableEq, Repr

/-- The world of the examples: TFMA's AUC is registered; the modules `a` and `b` each
have a TFMA metric `Own` and a Keras metric `OwnKeras`, and `a` a loss `OwnLoss`. -/
def demo : World Demo where
  registered := [("AUC", .tfmaAuc)]
  kerasMetrics := [("AUC", .kerasAuc), ("Mean", .kerasMean)]
  kerasLosses := [("Hinge", .kerasLoss)]
  importFrom := fun m n =>
    if m = "keras.losses" ∧ n = "Hinge" then some .kerasLoss
    else if m = "keras.metrics" ∧ n = "Mean" then some .kerasMean
    else if m = "keras.metrics" ∧ n = "AUC" then some .kerasAuc
    else if m = "a" ∧ n = "Own" then some .ownA
    else if m = "b" ∧ n = "Own" then some .ownB
    else if m = "a" ∧ n = "OwnKeras" then some .ownKerasA
    else if m = "b" ∧ n = "OwnKeras" then some .ownKerasB
    else if m = "a" ∧ n = "OwnLoss" then some .ownLoss
    else none
  kind := fun c => match c with
    | .tfmaAuc => .tfma | .tfmaMean => .tfma | .ownA => .tfma | .ownB => .tfma
    | .kerasAuc => .kerasMetric | .kerasMean => .kerasMetric
    | .ownKerasA => .kerasMetric | .ownKerasB => .kerasMetric | .wrapped => .kerasMetric
    | .kerasLoss => .kerasLoss | .ownLoss => .kerasLoss
  accepts := fun c p => !(c == .tfmaAuc && p.has "multi_label")
  snake := fun n => if n = "Hinge" then "hinge" else "snake"
  camel := fun n => if n = "cosine_similarity" then "CosineSimilarity" else "Camel"
  lossesModule := "keras.losses"
  className := fun c => match c with
    | .tfmaAuc => "AUC" | .tfmaMean => "Mean" | .kerasAuc => "AUC" | .kerasMean => "Mean"
    | .kerasLoss => "Hinge" | .ownA => "Own" | .ownB => "Own"
    | .ownKerasA => "OwnKeras" | .ownKerasB => "OwnKeras" | .ownLoss => "OwnLoss"
    | .wrapped => "MeanMetricWrapper"
  moduleOf := fun c => match c with
    | .tfmaAuc => "tfma" | .tfmaMean => "tfma" | .kerasAuc => "keras.metrics"
    | .kerasMean => "keras.metrics" | .kerasLoss => "keras.losses" | .ownA => "a"
    | .ownB => "b" | .ownKerasA => "a" | .ownKerasB => "b" | .ownLoss => "a"
    | .wrapped => "keras.metrics"
  keyName := fun c => match c with
    | .tfmaAuc => "AUC" | .tfmaMean => "Mean" | .kerasAuc => "AUC" | .kerasMean => "Mean"
    | .kerasLoss => "Hinge" | .ownA => "Own" | .ownB => "Own"
    | .ownKerasA => "OwnKeras" | .ownKerasB => "OwnKeras" | .ownLoss => "OwnLoss"
    | .wrapped => "MeanMetricWrapper"

/-- Specs that meet the hypotheses of the theorems: a registered metric, a Keras
metric without a module, a loss and metrics of one's own, in two specs. -/
example :
    Orderly demo [⟨"Mean", "", []⟩, ⟨"Own", "a", []⟩, ⟨"Hinge", "keras.losses", []⟩,
      ⟨"AUC", "keras.metrics", []⟩, ⟨"OwnKeras", "b", []⟩, ⟨"Own", "a", []⟩] := by
  refine ⟨by decide, by decide, ?_, ?_⟩
  · simp [demo]
  · simp [demo]

example :
    instances demo [[⟨"Mean", "", []⟩, ⟨"Own", "a", []⟩, ⟨"Hinge", "keras.losses", []⟩],
        [⟨"AUC", "keras.metrics", []⟩, ⟨"OwnKeras", "b", [("name", .str "x")]⟩, ⟨"Own", "a", []⟩]] =
      .ok [[(⟨"Mean", "", []⟩, ⟨.kerasMean, [("name", .str "snake")]⟩),
          (⟨"Hinge", "keras.losses", []⟩, ⟨.kerasLoss, [("name", .str "hinge")]⟩),
          (⟨"Own", "a", []⟩, ⟨.ownA, []⟩)],
        [(⟨"OwnKeras", "b", [("name", .str "x")]⟩, ⟨.ownKerasB, [("name", .str "x")]⟩),
          (⟨"AUC", "keras.metrics", []⟩, ⟨.tfmaAuc, []⟩),
          (⟨"Own", "a", []⟩, ⟨.ownA, []⟩)]] := by
  rfl

/-- A loss of one's own, outside the module of Keras' losses, is an object of its own
for `metric_instance`, but reading specs with it fails. -/
theorem C121_custom_loss_fails :
    ∃ cfg m, Made demo cfg m ∧ demo.kind m.cls = .kerasLoss ∧
      instances demo [[cfg]] = .error .valueError :=
  ⟨⟨"OwnLoss", "a", []⟩, ⟨.ownLoss, [("name", .str "snake")]⟩,
    (C121_one _ _ _).mp rfl, rfl, rfl⟩

/-- Two classes of the same name from two modules: of TFMA metrics the first is used
for both configs, of Keras metrics the last. -/
theorem C121_same_name_fails :
    (∃ a b m n, Made demo a m ∧ Made demo b n ∧ m.cls ≠ n.cls ∧
      instances demo [[a, b]] = .ok [[(a, m), (b, m)]]) ∧
    (∃ a b m n, Made demo a m ∧ Made demo b n ∧ m.cls ≠ n.cls ∧
      instances demo [[a, b]] = .ok [[(a, n), (b, n)]]) :=
  ⟨⟨⟨"Own", "a", []⟩, ⟨"Own", "b", []⟩, ⟨.ownA, []⟩, ⟨.ownB, []⟩,
      (C121_one _ _ _).mp rfl, (C121_one _ _ _).mp rfl, by decide, rfl⟩,
    ⟨⟨"OwnKeras", "a", [("name", .str "x")]⟩, ⟨"OwnKeras", "b", [("name", .str "x")]⟩,
      ⟨.ownKerasA, [("name", .str "x")]⟩, ⟨.ownKerasB, [("name", .str "x")]⟩,
      (C121_one _ _ _).mp rfl, (C121_one _ _ _).mp rfl, by decide, rfl⟩⟩

/-- The class of a name in a later spec depends on the specs before: of two specs with
TFMA metrics of the same name from two modules, the second gets the class of the
first. -/
theorem C121_taken_over_fails :
    ∃ a b m n, Made demo a m ∧ Made demo b n ∧ m.cls ≠ n.cls ∧
      instances demo [[b]] = .ok [[(b, n)]] ∧
      instances demo [[a], [b]] = .ok [[(a, m)], [(b, m)]] :=
  ⟨⟨"Own", "a", []⟩, ⟨"Own", "b", []⟩, ⟨.ownA, []⟩, ⟨.ownB, []⟩,
    (C121_one _ _ _).mp rfl, (C121_one _ _ _).mp rfl, by decide, rfl, rfl⟩

end TFMA.MetricConfigs
