import Verif.Model.LegacyInputs
import Verif.Py.DictLemmas

/-!
# C145: features, labels, weights and predictions out of serialized examples
-/

namespace TFMA
namespace LegacyInputs

variable {A X B : Type}

/-! ### specification -/

/-- The three kinds of values that are picked out of the features. -/
inductive Kind where
  | labels | weights | predictions

/-- The key configured for a kind, and the keys by output. -/
def Spec.keyOf (s : Spec) : Kind → String
  | .labels => s.labelKey
  | .weights => s.exampleWeightKey
  | .predictions => s.predictionKey

/-- The keys by output. -/
def Spec.keysOf (s : Spec) : Kind → Dict String String
  | .labels => s.labelKeys
  | .weights => s.exampleWeightKeys
  | .predictions => s.predictionKeys

/-- What extracts hold for a kind. -/
def Extracts.of (e : Extracts A X B) : Kind → Option (Slot A)
  | .labels => e.labels
  | .weights => e.weights
  | .predictions => e.predictions

/-- A kind is configured for a model. -/
def Spec.Asks (s : Spec) (k : Kind) : Prop := s.keyOf k ≠ "" ∨ s.keysOf k ≠ []

/-- The value a model should have: the feature of its key (None if there is no such feature), or for each output the feature of its key. -/
inductive Picks (features : Dict String A) (key : String) (keys : Dict String String) : Found A → Prop
  | one (a : A) : key ≠ "" → Dict.get? features key = some a → Picks features key keys (.one a)
  | missing : key ≠ "" → Dict.get? features key = none → Picks features key keys .missing
  | outputs (d : Dict String A) : key = "" →
      (∀ o, Dict.get? d o = (Dict.get? keys o).bind fun k => Dict.get? features k) → Picks features key keys (.outputs d)

/-- What there was under the name of a model. -/
def before (s : Option (Slot A)) (m : String) : Option (Found A) :=
  match s with
  | some (.models d) => Dict.get? d m
  | some (.single (.outputs d)) => (Dict.get? d m).map .one
  | _ => none

/-! ### lemmas -/

theorem outputsLoop_get (features : Dict String A) (keys : Dict String String) (hw : Dict.WF keys) (acc : Dict String A) (o : String) :
    Dict.get? (outputsLoop features keys acc) o = ((Dict.get? keys o).bind fun k => Dict.get? features k).or (Dict.get? acc o) := by
  induction keys generalizing acc with
  | nil => simp [outputsLoop]
  | cons x keys ih =>
    obtain ⟨o', k⟩ := x
    have hw' : Dict.WF keys := (List.nodup_cons.1 hw).2
    have hn : o' ∉ Dict.keys keys := (List.nodup_cons.1 hw).1
    unfold outputsLoop
    rw [Dict.get?_cons]
    by_cases ho : o' = o
    · subst ho
      have : Dict.get? keys o' = none := (Dict.get?_eq_none_iff _ _).2 hn
      rw [if_pos rfl]
      cases hf : Dict.get? features k with
      | none => simp [ih hw', this, hf]
      | some a => simp [ih hw', this, hf, Dict.get?_set_self]
    · rw [if_neg ho]
      cases hf : Dict.get? features k with
      | none => simp [ih hw']
      | some a => simp [ih hw', Dict.get?_set_ne _ _ ho]

theorem found_picks (features : Dict String A) (key : String) (keys : Dict String String) (hw : Dict.WF keys) :
    Picks features key keys (found features key keys) := by
  unfold found
  by_cases hk : key = ""
  · rw [if_neg (by simpa using hk)]
    refine .outputs _ hk fun o => ?_
    rw [outputsLoop_get features keys hw]
    simp
  · rw [if_pos hk]
    cases h : Dict.get? features key with
    | some a => exact .one a hk h
    | none => exact .missing hk h

theorem before_dict (s : Slot A) (d : Dict String (Found A)) (h : s.dict? = some d) (m : String) : before (some s) m = Dict.get? d m := by
  cases s with
  | models d' => cases h; rfl
  | foreign e => cases h
  | single f =>
    cases f with
    | one a => cases h
    | missing => cases h
    | outputs d' =>
      cases h
      simp only [before]
      induction d' with
      | nil => rfl
      | cons x d' ih =>
        obtain ⟨n, a⟩ := x
        simp only [List.map_cons, Dict.get?_cons]
        by_cases hx : n = m
        · simp [hx]
        · simp [hx, ih]

/-- one kind on its own. -/
def kindLoop (several : Bool) (features : Dict String A) (k : Kind) : List Spec → Option (Slot A) → Except Err (Option (Slot A))
  | [], s => .ok s
  | m :: ms, s => match addKind several features s m.name (m.keyOf k) (m.keysOf k) with
    | .error e => .error e
    | .ok s' => kindLoop several features k ms s'

theorem specsLoop_ok (several : Bool) (features : Dict String A) (ss : List Spec) (l w p l' w' p' : Option (Slot A))
    (h : specsLoop several features ss l w p = .ok (l', w', p')) :
    kindLoop several features .labels ss l = .ok l' ∧ kindLoop several features .weights ss w = .ok w' ∧
      kindLoop several features .predictions ss p = .ok p' := by
  induction ss generalizing l w p with
  | nil => cases h; exact ⟨rfl, rfl, rfl⟩
  | cons s ss ih =>
    unfold specsLoop at h
    unfold kindLoop
    simp only [Spec.keyOf, Spec.keysOf]
    cases h1 : addKind several features l s.name s.labelKey s.labelKeys with
    | error e => rw [h1] at h; cases h
    | ok l1 =>
      simp only [h1] at h
      cases h2 : addKind several features w s.name s.exampleWeightKey s.exampleWeightKeys with
      | error e => rw [h2] at h; cases h
      | ok w1 =>
        simp only [h2] at h
        cases h3 : addKind several features p s.name s.predictionKey s.predictionKeys with
        | error e => rw [h3] at h; cases h
        | ok p1 =>
          simp only [h3] at h
          exact ih l1 w1 p1 h

theorem parse_ok (parse : B → Except Err (Dict String A)) (specs : List Spec) (e r e' : Extracts A X B)
    (h : parseExample parse specs e = .ok (r, e')) :
    ∃ b features, e.input = some b ∧ parse b = .ok features ∧ r.features = some features ∧ r.input = e.input ∧ r.rest = e.rest ∧
      (∀ k, kindLoop (decide (1 < specs.length)) features k specs (e.of k) = .ok (r.of k)) ∧
      (∀ k, e'.of k = leftBehind (decide (1 < specs.length)) (e.of k) (r.of k)) ∧
      e'.features = e.features ∧ e'.input = e.input ∧ e'.rest = e.rest := by
  unfold parseExample at h
  cases hi : e.input with
  | none => rw [hi] at h; cases h
  | some b =>
    simp only [hi] at h
    cases hp : parse b with
    | error x => rw [hp] at h; cases h
    | ok features =>
      simp only [hp] at h
      cases hs : specsLoop (decide (1 < specs.length)) features specs e.labels e.weights e.predictions with
      | error x => rw [hs] at h; cases h
      | ok t =>
        obtain ⟨l, w, p⟩ := t
        simp only [hs, Except.ok.injEq, Prod.mk.injEq] at h
        obtain ⟨rfl, rfl⟩ := h
        obtain ⟨h1, h2, h3⟩ := specsLoop_ok _ _ _ _ _ _ _ _ _ hs
        refine ⟨b, features, rfl, hp, rfl, rfl, rfl, ?_, ?_, rfl, rfl, rfl⟩
        · intro k; cases k
          · exact h1
          · exact h2
          · exact h3
        · intro k; cases k <;> rfl

theorem kindLoop_several (features : Dict String A) (k : Kind) (ss : List Spec) (hn : (ss.map Spec.name).Nodup)
    (hw : ∀ s ∈ ss, Dict.WF (s.keysOf k)) (s0 s' : Option (Slot A)) (h : kindLoop true features k ss s0 = .ok s') :
    (∀ m ∈ ss, m.Asks k → ∃ d v, s' = some (.models d) ∧ Dict.get? d m.name = some v ∧ Picks features (m.keyOf k) (m.keysOf k) v) ∧
    (∀ n, (∀ m ∈ ss, m.Asks k → m.name ≠ n) → before s' n = before s0 n) ∧
    ((∀ m ∈ ss, ¬ m.Asks k) → s' = s0) ∧
    (∀ d, s0.bind Slot.dict? = some d → ∃ d', s'.bind Slot.dict? = some d') := by
  induction ss generalizing s0 with
  | nil => cases h; exact ⟨by simp, fun _ _ => rfl, fun _ => rfl, fun d hd => ⟨d, hd⟩⟩
  | cons m ss ih =>
    have hn' : (ss.map Spec.name).Nodup := (List.nodup_cons.1 hn).2
    have hm : m.name ∉ ss.map Spec.name := (List.nodup_cons.1 hn).1
    have hw' : ∀ s ∈ ss, Dict.WF (s.keysOf k) := fun s hs => hw s (by simp [hs])
    unfold kindLoop addKind at h
    by_cases ha : m.Asks k
    · rw [if_pos (show _ ∨ _ from ha)] at h
      cases ht : addTo true s0 m.name (found features (m.keyOf k) (m.keysOf k)) with
      | error e => rw [ht] at h; cases h
      | ok s1 =>
        simp only [ht] at h
        obtain ⟨h1, h2, h3, h4⟩ := ih hn' hw' s1 h
        obtain ⟨d1, rfl, hd1, hb1⟩ : ∃ d1, s1 = some (.models d1) ∧
            Dict.get? d1 m.name = some (found features (m.keyOf k) (m.keysOf k)) ∧ ∀ n, m.name ≠ n → Dict.get? d1 n = before s0 n := by
          unfold addTo at ht
          rw [if_pos rfl] at ht
          cases s0 with
          | none =>
            cases ht
            refine ⟨_, rfl, by simp [Dict.get?_cons], fun n hne => ?_⟩
            simp [Dict.get?_cons, hne, before]
          | some s =>
            simp only at ht
            cases hd : s.dict? with
            | none => rw [hd] at ht; cases ht
            | some d =>
              simp only [hd, Except.ok.injEq] at ht
              subst ht
              exact ⟨_, rfl, Dict.get?_set_self .., fun n hne => by rw [Dict.get?_set_ne _ _ hne, before_dict s d hd]⟩
        have hkeep : ∃ d, s' = some (.models d) ∧ Dict.get? d m.name = some (found features (m.keyOf k) (m.keysOf k)) := by
          have hb := h2 m.name fun m' hm' _ he => hm (he ▸ List.mem_map_of_mem hm')
          by_cases hex : ∃ m' ∈ ss, m'.Asks k
          · obtain ⟨m', hm', ha'⟩ := hex
            obtain ⟨d, v, rfl, -⟩ := h1 m' hm' ha'
            exact ⟨d, rfl, hb.trans hd1⟩
          · push Not at hex
            rw [h3 hex]
            exact ⟨d1, rfl, hd1⟩
        refine ⟨fun m' hm' ha' => ?_, fun n hne => ?_, fun hno => absurd ha (hno m (by simp)), fun d _ => h4 d1 rfl⟩
        · rcases List.mem_cons.1 hm' with rfl | hm'
          · obtain ⟨d, hd, hv⟩ := hkeep
            exact ⟨d, _, hd, hv, found_picks _ _ _ (hw _ (by simp))⟩
          · exact h1 m' hm' ha'
        · rw [h2 n fun m' hm' => hne m' (by simp [hm'])]
          exact hb1 n (hne m (by simp) ha)
    · rw [if_neg (show ¬ (_ ∨ _) from ha)] at h
      obtain ⟨h1, h2, h3, h4⟩ := ih hn' hw' s0 h
      refine ⟨fun m' hm' ha' => ?_, fun n hne => h2 n fun m' hm' => hne m' (by simp [hm']),
        fun hno => h3 fun m' hm' => hno m' (by simp [hm']), h4⟩
      rcases List.mem_cons.1 hm' with rfl | hm'
      · exact absurd ha' ha
      · exact h1 m' hm' ha'

/-! ### theorems -/

/-- **C145** (one model): labels, weights and predictions are those of the features of the keys of the model; a kind without keys stays as it
was. -/
theorem C145_one_model (parse : B → Except Err (Dict String A)) (s : Spec) (e r e' : Extracts A X B) (k : Kind) (hw : Dict.WF (s.keysOf k))
    (h : parseExample parse [s] e = .ok (r, e')) :
    (s.Asks k → ∃ b features v, e.input = some b ∧ parse b = .ok features ∧ r.of k = some (.single v) ∧
      Picks features (s.keyOf k) (s.keysOf k) v) ∧
    (¬ s.Asks k → r.of k = e.of k) := by
  obtain ⟨b, features, h1, h2, -, -, -, h3, -⟩ := parse_ok parse [s] e r e' h
  have h3 := h3 k
  simp only [kindLoop, addKind, List.length_singleton, Nat.lt_irrefl, decide_false] at h3
  constructor
  · intro ha
    rw [if_pos (show _ ∨ _ from ha)] at h3
    simp only [addTo, Bool.false_eq_true, if_false, Except.ok.injEq] at h3
    exact ⟨b, features, _, h1, h2, h3.symm, found_picks _ _ _ hw⟩
  · intro ha
    rw [if_neg (show ¬ (_ ∨ _) from ha)] at h3
    exact (Except.ok.inj h3).symm

/-- **C145** (several models): each model has its own labels, weights and predictions under its name, and what was there under other names
stays. -/
theorem C145_models (parse : B → Except Err (Dict String A)) (specs : List Spec) (hlen : 1 < specs.length)
    (hn : (specs.map Spec.name).Nodup) (e r e' : Extracts A X B) (k : Kind) (hw : ∀ s ∈ specs, Dict.WF (s.keysOf k))
    (h : parseExample parse specs e = .ok (r, e')) :
    ∃ b features, e.input = some b ∧ parse b = .ok features ∧
      (∀ s ∈ specs, s.Asks k → ∃ d v, r.of k = some (.models d) ∧ Dict.get? d s.name = some v ∧
        Picks features (s.keyOf k) (s.keysOf k) v) ∧
      (∀ n, (∀ s ∈ specs, s.Asks k → s.name ≠ n) → before (r.of k) n = before (e.of k) n) ∧
      ((∀ s ∈ specs, ¬ s.Asks k) → r.of k = e.of k) := by
  obtain ⟨b, features, h1, h2, -, -, -, h3, -⟩ := parse_ok parse specs e r e' h
  have h3 := h3 k
  rw [decide_eq_true hlen] at h3
  obtain ⟨g1, g2, g3, -⟩ := kindLoop_several features k specs hn hw _ _ h3
  exact ⟨b, features, h1, h2, g1, g2, g3⟩

/-- **C145** (the rest): the features are all those of the example; input and other extracts are as before; in the incoming extracts nothing
changes but labels, weights and predictions. -/
theorem C145_rest (parse : B → Except Err (Dict String A)) (specs : List Spec) (e r e' : Extracts A X B)
    (h : parseExample parse specs e = .ok (r, e')) :
    (∃ b features, e.input = some b ∧ parse b = .ok features ∧ r.features = some features) ∧ r.input = e.input ∧ r.rest = e.rest ∧
      e'.features = e.features ∧ e'.input = e.input ∧ e'.rest = e.rest := by
  obtain ⟨b, features, h1, h2, h3, h4, h5, -, -, h6⟩ := parse_ok parse specs e r e' h
  exact ⟨⟨b, features, h1, h2, h3⟩, h4, h5, h6⟩

/-- **C145** (incoming extracts, partial): the incoming extracts stay as they are with one model, or if they hold no dictionary of labels,
weights or predictions.  Missing: several models and such a dictionary (`C145_incoming_fails`). -/
theorem C145_incoming_partial (parse : B → Except Err (Dict String A)) (specs : List Spec) (e r e' : Extracts A X B) (k : Kind)
    (h : parseExample parse specs e = .ok (r, e')) (hc : specs.length ≤ 1 ∨ ∀ s, e.of k = some s → s.dict? = none) :
    e'.of k = e.of k := by
  obtain ⟨b, features, -, -, -, -, -, -, h3, -⟩ := parse_ok parse specs e r e' h
  rw [h3 k]
  unfold leftBehind
  cases hs : (e.of k).bind Slot.dict? with
  | none => rfl
  | some d =>
    rcases hc with hc | hc
    · rw [decide_eq_false (by omega)]; rfl
    · cases he : e.of k with
      | none => rw [he] at hs; cases hs
      | some s =>
        rw [he] at hs
        have h1 := hc s he
        rw [show s.dict? = some d from hs] at h1
        cases h1

/-- **C145** (false of the code): with several models a dictionary that came in is changed itself, although a copy of the extracts is
returned. -/
theorem C145_incoming_fails (parse : B → Except Err (Dict String A)) (specs : List Spec) (hlen : 1 < specs.length)
    (hn : (specs.map Spec.name).Nodup) (e r e' : Extracts A X B) (k : Kind) (hw : ∀ s ∈ specs, Dict.WF (s.keysOf k))
    (h : parseExample parse specs e = .ok (r, e')) (s : Slot A) (d : Dict String (Found A)) (he : e.of k = some s)
    (hd : s.dict? = some d) (m : Spec) (hm : m ∈ specs) (ha : m.Asks k) (hnew : Dict.get? d m.name = none) :
    before (e.of k) m.name = none ∧ ∃ v, before (e'.of k) m.name = some v := by
  obtain ⟨b, features, -, -, -, -, -, h3, h4, -⟩ := parse_ok parse specs e r e' h
  refine ⟨by rw [he, before_dict s d hd, hnew], ?_⟩
  have h3 := h3 k
  rw [decide_eq_true hlen] at h3
  obtain ⟨g1, -⟩ := kindLoop_several features k specs hn hw _ _ h3
  obtain ⟨d', v, h5, h6, -⟩ := g1 m hm ha
  refine ⟨v, ?_⟩
  rw [h4 k, decide_eq_true hlen]
  unfold leftBehind
  rw [he]
  simp only [Option.bind_some, hd, if_true, h5]
  exact h6

/-- **C145** (false of the code): features which the extracts already held are not merged with those of the example but replaced, and with one
model labels which were there are replaced by None if the example has no such feature, although the documentation says that existing
extracts are merged. -/
theorem C145_merge_fails (a b : A) (x : X) (i : B) :
    let e : Extracts A X B := { input := some i, labels := some (.single (.one a)), features := some [("f", a)], rest := x }
    ∃ r e', parseExample (fun _ => .ok [("g", b)]) [{ name := "", labelKey := "l" }] e = .ok (r, e') ∧
      r.features = some [("g", b)] ∧ r.labels = some (.single .missing) := ⟨_, _, rfl, rfl, rfl⟩

/-- **C145** (accepted): parsing the example is all that can fail, unless there are several models and something else than a dictionary under
labels, weights or predictions. -/
theorem C145_accepted (parse : B → Except Err (Dict String A)) (specs : List Spec) (e : Extracts A X B) (b : B) (features : Dict String A)
    (hi : e.input = some b) (hp : parse b = .ok features)
    (hc : specs.length ≤ 1 ∨ ∀ k s, e.of k = some s → s.dict? ≠ none) : ∃ o, parseExample parse specs e = .ok o := by
  have step : ∀ several : Bool, ∀ s0 : Option (Slot A), ∀ model key keys, (several = false ∨ ∀ s, s0 = some s → s.dict? ≠ none) →
      ∃ s1, addKind several features s0 model key keys = .ok s1 ∧ (several = false ∨ ∀ s, s1 = some s → s.dict? ≠ none) := by
    intro several s0 model key keys hs
    unfold addKind
    by_cases hk : key ≠ "" ∨ keys ≠ []
    · rw [if_pos hk]
      unfold addTo
      cases several with
      | false => exact ⟨_, rfl, .inl rfl⟩
      | true =>
        simp only [if_true]
        cases s0 with
        | none => exact ⟨_, rfl, .inr (by rintro s h; cases h; simp [Slot.dict?])⟩
        | some s =>
          rcases hs with hs | hs
          · cases hs
          · cases hd : s.dict? with
            | none => exact absurd hd (hs s rfl)
            | some d =>
              simp only [hd]
              exact ⟨_, rfl, .inr (by rintro s' h; cases h; simp [Slot.dict?])⟩
    · rw [if_neg hk]; exact ⟨s0, rfl, hs⟩
  have loop : ∀ several : Bool, ∀ ss : List Spec, ∀ l w p : Option (Slot A), (several = false ∨ ∀ s, l = some s → s.dict? ≠ none) →
      (several = false ∨ ∀ s, w = some s → s.dict? ≠ none) → (several = false ∨ ∀ s, p = some s → s.dict? ≠ none) →
      ∃ o, specsLoop several features ss l w p = .ok o := by
    intro several ss
    induction ss with
    | nil => exact fun l w p _ _ _ => ⟨_, rfl⟩
    | cons s ss ih =>
      intro l w p hl hw hp
      obtain ⟨l1, e1, hl1⟩ := step several l s.name s.labelKey s.labelKeys hl
      obtain ⟨w1, e2, hw1⟩ := step several w s.name s.exampleWeightKey s.exampleWeightKeys hw
      obtain ⟨p1, e3, hp1⟩ := step several p s.name s.predictionKey s.predictionKeys hp
      unfold specsLoop
      simp only [e1, e2, e3]
      exact ih l1 w1 p1 hl1 hw1 hp1
  have hc' : ∀ k, decide (1 < specs.length) = false ∨ ∀ s, e.of k = some s → s.dict? ≠ none := by
    intro k
    rcases hc with hc | hc
    · exact .inl (decide_eq_false (by omega))
    · exact .inr (hc k)
  obtain ⟨⟨l, w, p⟩, ho⟩ := loop (decide (1 < specs.length)) specs e.labels e.weights e.predictions (hc' .labels) (hc' .weights)
    (hc' .predictions)
  unfold parseExample
  rw [hi]
  simp only [hp, ho]
  exact ⟨_, rfl⟩

/-- Two models, one with a label for each output; a dictionary of labels came in. -/
private def specs1 : List Spec := [{ name := "m1", labelKey := "y" }, { name := "m2", labelKeys := [("o1", "y"), ("o2", "z"), ("o3", "no")] }]

private def in1 : Extracts ℕ Unit Unit := { input := some (), labels := some (.models [("m0", .one 7)]), rest := () }

/-- the hypotheses of `C145_models`, `C145_incoming_fails` and `C145_accepted`. -/
example : ∃ r e', parseExample (fun _ => .ok [("x", 1), ("y", 2), ("z", 3)]) specs1 in1 = .ok (r, e') ∧ 1 < specs1.length ∧
    (specs1.map Spec.name).Nodup ∧ (∀ s ∈ specs1, Dict.WF (s.keysOf .labels)) ∧ (∀ s ∈ specs1, s.Asks .labels) ∧
    r.labels = some (.models [("m0", .one 7), ("m1", .one 2), ("m2", .outputs [("o1", 2), ("o2", 3)])]) ∧ e'.labels = r.labels := by
  refine ⟨_, _, rfl, by decide, by decide, ?_, ?_, rfl, rfl⟩
  · intro s hs
    simp only [specs1, List.mem_cons, List.not_mem_nil, or_false] at hs
    rcases hs with rfl | rfl
    · exact Dict.WF_nil
    · simp [Spec.keysOf, Dict.WF, Dict.keys]
  · intro s hs
    simp only [specs1, List.mem_cons, List.not_mem_nil, or_false] at hs
    rcases hs with rfl | rfl <;> simp [Spec.Asks, Spec.keyOf, Spec.keysOf]

/-- the hypotheses of `C145_one_model`, `C145_rest` and `C145_incoming_partial`. -/
example : ∃ r e', parseExample (fun _ => .ok [("x", 1), ("y", 2)]) [{ name := "m", labelKey := "y", exampleWeightKey := "w" }] in1 = .ok (r, e') ∧
    r.labels = some (.single (.one 2)) ∧ r.weights = some (.single .missing) ∧ r.predictions = none ∧ e'.labels = in1.labels :=
  ⟨_, _, rfl, rfl, rfl, rfl, rfl⟩

end LegacyInputs
end TFMA
