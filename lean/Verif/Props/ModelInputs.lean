import Verif.Model.ModelInputs
import Verif.Py.DictLemmas

/-!
# C109: what a model is called with
-/

namespace TFMA
namespace ModelInputs

variable {V : Type}

/-! ### Specification -/

/-- The value for an input: the feature of that name; if there is none, the feature whose name with "_input" appended is the name. -/
inductive Source (features : Dict String V) (name : String) (v : V) : Prop
  | same (h : (name, v) ∈ features)
  | suffix (base : String) (hn : ∀ w, (name, w) ∉ features) (hb : name = base ++ "_input") (h : (base, v) ∈ features)

/-- The inputs that a target declares. -/
def Declares (m : Loaded) (t : Target) (s : Option Specs) : Prop := match t with
  | .whole => s.isSome ∧ m.own = s
  | .signature n => ∃ sigs, m.signatures = some sigs ∧ (n, s) ∈ sigs
  | .attribute n => ∃ s', s = some s' ∧ (n, s') ∈ m.attrs

/-! ### Lemmas -/

private theorem stripInput_iff (name base : String) : stripInput name = some base ↔ name = base ++ "_input" := by
  unfold stripInput
  constructor
  · intro h
    dsimp only at h
    split at h
    · rename_i hd
      simp only [Option.some.injEq] at h
      subst h
      apply String.toList_inj.1
      rw [String.toList_append, String.toList_ofList, ← hd, List.take_append_drop]
    · exact absurd h (by simp)
  · rintro rfl
    have hl : ("_input".toList).length = 6 := by decide
    have : (base ++ "_input").toList = base.toList ++ "_input".toList := String.toList_append
    dsimp only
    rw [this, List.length_append, hl, Nat.add_sub_cancel, List.drop_left, List.take_left, if_pos rfl, String.ofList_toList]

private theorem source_iff (features : Dict String V) (hwf : Dict.WF features) (name : String) (v : V) :
    (∃ k, findInputName features name = some k ∧ Dict.get? features k = some v) ↔ Source features name v := by
  unfold findInputName
  constructor
  · rintro ⟨k, hk, hv⟩
    split at hk
    · simp only [Option.some.injEq] at hk
      subst hk
      exact .same (Dict.mem_of_get? hv)
    · rename_i hn
      have hn' : ∀ w, (name, w) ∉ features := by
        intro w hw
        exact hn ((Dict.has_iff _ _).2 (List.mem_map.2 ⟨_, hw, rfl⟩))
      split at hk
      · exact absurd hk (by simp)
      · rename_i base hb
        split at hk
        · simp only [Option.some.injEq] at hk
          subst hk
          exact .suffix _ hn' ((stripInput_iff _ _).1 hb) (Dict.mem_of_get? hv)
        · exact absurd hk (by simp)
  · intro h
    cases h with
    | same h =>
      refine ⟨name, ?_, Dict.get?_of_mem hwf h⟩
      rw [if_pos ((Dict.has_iff _ _).2 (List.mem_map.2 ⟨_, h, rfl⟩))]
    | suffix base hn hb h =>
      refine ⟨base, ?_, Dict.get?_of_mem hwf h⟩
      rw [if_neg, (stripInput_iff _ _).2 hb]
      · dsimp only
        rw [if_pos ((Dict.has_iff _ _).2 (List.mem_map.2 ⟨_, h, rfl⟩))]
      · intro hh
        obtain ⟨v', hv'⟩ := (Dict.mem_keys_iff _ _).1 ((Dict.has_iff _ _).1 hh)
        exact hn _ (Dict.mem_of_get? hv')

private theorem source_unique {features : Dict String V} (hwf : Dict.WF features) {name : String} {v w : V}
    (h1 : Source features name v) (h2 : Source features name w) : v = w := by
  obtain ⟨k, hk, hv⟩ := (source_iff _ hwf _ _).2 h1
  obtain ⟨k', hk', hw⟩ := (source_iff _ hwf _ _).2 h2
  rw [hk, Option.some.injEq] at hk'
  subst hk'
  rw [hv, Option.some.injEq] at hw
  exact hw

private theorem set_append (d : Dict String V) (k : String) (v : V) (h : k ∉ Dict.keys d) :
    Dict.set d k v = d ++ [(k, v)] := by
  induction d with
  | nil => rfl
  | cons p d ih =>
    simp only [Dict.keys, List.map_cons, List.mem_cons, not_or] at h
    rw [Dict.set, if_neg (fun e => h.1 e.symm), ih (by simpa [Dict.keys] using h.2)]
    rfl

private theorem filterLoop_iff (features : Dict String V) (hwf : Dict.WF features) (names : List String)
    (acc d : Dict String V) (hnd : (Dict.keys acc ++ names).Nodup) :
    filterLoop features names acc = some d ↔
      ∃ e, d = acc ++ e ∧ List.Forall₂ (fun n p => p.1 = n ∧ Source features n p.2) names e := by
  induction names generalizing acc with
  | nil =>
    simp only [filterLoop, Option.some.injEq, List.forall₂_nil_left_iff, exists_eq_right, List.append_nil]
    exact eq_comm
  | cons n ns ih =>
    rw [filterLoop]
    have hn : n ∉ Dict.keys acc := by
      intro h
      exact (List.nodup_append.1 hnd).2.2 n h n (by simp) rfl
    constructor
    · intro h
      split at h
      · exact absurd h (by simp)
      · rename_i k hk
        split at h
        · exact absurd h (by simp)
        · rename_i v hv
          have hs : Source features n v := (source_iff _ hwf _ _).1 ⟨k, hk, hv⟩
          rw [set_append _ _ _ hn] at h
          obtain ⟨e, he, hf⟩ := (ih (acc ++ [(n, v)]) (by simpa [Dict.keys] using hnd)).1 h
          exact ⟨(n, v) :: e, by rw [he]; simp, .cons ⟨rfl, hs⟩ hf⟩
    · rintro ⟨e, he, hf⟩
      cases hf with
      | cons hp hf =>
        rename_i p e
        obtain ⟨rfl, hs⟩ := hp
        obtain ⟨k, hk, hv⟩ := (source_iff _ hwf _ _).2 hs
        rw [hk]
        dsimp only
        rw [hv]
        dsimp only
        rw [set_append _ _ _ hn]
        refine (ih (acc ++ [(p.1, p.2)]) (by simpa [Dict.keys] using hnd)).2 ⟨e, ?_, hf⟩
        rw [he]; simp

/-! ### Theorems -/

/-- **C109** (inputs by name): features are passed exactly if the model declares at least one input and there is a feature for every
one of them; then every input gets its feature, the feature of its name if there is one and else the feature of its name
without "_input", and nothing else is passed. -/
theorem C109_inputs (features : Dict String V) (hwf : Dict.WF features) (specs : Specs) (hs : Dict.WF specs)
    (d : Dict String V) :
    getInputs features specs = some d ↔
      specs ≠ [] ∧ List.Forall₂ (fun n p => p.1 = n ∧ Source features n p.2) (specs.map Prod.fst) d := by
  have key : filterByInputNames features (Dict.keys specs) = some d ↔
      specs ≠ [] ∧ List.Forall₂ (fun n p => p.1 = n ∧ Source features n p.2) (specs.map Prod.fst) d := by
    unfold filterByInputNames
    by_cases h : specs = []
    · simp [h, Dict.keys]
    · rw [if_neg (by simpa [Dict.keys] using h), filterLoop_iff _ hwf _ _ _ (by simpa [Dict.keys, Dict.WF] using hs)]
      simp only [List.nil_append]
      constructor
      · rintro ⟨e, rfl, hf⟩
        exact ⟨h, hf⟩
      · rintro ⟨-, hf⟩
        exact ⟨d, rfl, hf⟩
  unfold getInputs
  split
  · rename_i hl
    simp only [reduceCtorEq, false_iff, not_and]
    intro hne hf
    unfold looksSerialized at hl
    split at hl
    · rename_i name
      cases hf with
      | cons hp _ =>
        obtain ⟨k, hk, -⟩ := (source_iff _ hwf _ _).2 hp.2
        rw [hk] at hl
        exact absurd hl (by simp)
    · exact absurd hl (by simp)
  · rw [← key]
    constructor
    · intro h
      split at h
      · exact absurd h (by simp)
      · exact absurd h (by simp)
      · rename_i e he hne
        rw [hne]
        exact h
    · intro h
      rw [h]
      have hne := (key.1 h)
      cases d with
      | nil =>
        exfalso
        have := hne.2
        rw [List.forall₂_nil_right_iff] at this
        exact hne.1 (by simpa using this)
      | cons p d => rfl

/-- **C109** (serialized examples): if some declared input has no feature, no feature is passed at all. -/
theorem C109_all_or_nothing (features : Dict String V) (hwf : Dict.WF features) (specs : Specs) (hs : Dict.WF specs)
    (name : String) (hm : name ∈ specs.map Prod.fst) (hno : ∀ v, ¬ Source features name v) :
    getInputs features specs = none := by
  cases h : getInputs features specs with
  | none => rfl
  | some d =>
    exfalso
    obtain ⟨-, hf⟩ := (C109_inputs features hwf specs hs d).1 h
    obtain ⟨i, hi, rfl⟩ := List.mem_iff_getElem.1 hm
    have hlen := hf.length_eq
    exact hno _ ((List.forall₂_iff_get.1 hf).2 i hi (hlen ▸ hi)).2

/-- **C109** (other features): features that are no input, with or without "_input", make no difference. -/
theorem C109_other_features (features features' : Dict String V) (hwf : Dict.WF features) (hwf' : Dict.WF features')
    (specs : Specs) (hs : Dict.WF specs)
    (h : ∀ name ∈ specs.map Prod.fst, ∀ k, (k = name ∨ k ++ "_input" = name) → ∀ v, (k, v) ∈ features ↔ (k, v) ∈ features') :
    getInputs features specs = getInputs features' specs := by
  have hsrc : ∀ name ∈ specs.map Prod.fst, ∀ v, Source features name v ↔ Source features' name v := by
    intro name hn v
    constructor
    · intro hv
      cases hv with
      | same hv => exact .same ((h name hn name (.inl rfl) v).1 hv)
      | suffix base h1 h2 h3 =>
        exact .suffix base (fun w hw => h1 w ((h name hn name (.inl rfl) w).2 hw)) h2 ((h name hn base (.inr h2.symm) v).1 h3)
    · intro hv
      cases hv with
      | same hv => exact .same ((h name hn name (.inl rfl) v).2 hv)
      | suffix base h1 h2 h3 =>
        exact .suffix base (fun w hw => h1 w ((h name hn name (.inl rfl) w).1 hw)) h2 ((h name hn base (.inr h2.symm) v).2 h3)
  apply Option.ext
  intro d
  rw [C109_inputs _ hwf _ hs, C109_inputs _ hwf' _ hs]
  refine and_congr_right fun _ => ?_
  rw [List.forall₂_iff_get, List.forall₂_iff_get]
  refine and_congr_right fun _ => forall_congr' fun i => forall_congr' fun hi => forall_congr' fun _ => and_congr_right fun _ => ?_
  exact hsrc _ (List.get_mem _ _) _

/-- Non-vacuous: "age_input" gets "age"; the label is not passed; without "age" nothing is passed. -/
example : getInputs [("age", 30), ("label", 1), ("sex", 0)] [("sex", false), ("age_input", false)] =
      some [("sex", 0), ("age_input", 30)] ∧
    getInputs [("label", 1), ("sex", 0)] [("sex", false), ("age_input", false)] = none := by
  constructor <;> decide

/-- **C109** (one feature twice): a model with inputs "x" and "x_input" gets the feature "x" for both of them if there is no
feature "x_input". -/
theorem C109_one_feature_twice (v : V) :
    getInputs [("x", v)] [("x", false), ("x_input", false)] = some [("x", v), ("x_input", v)] := rfl

/-- **C109** (feature named as the input): a model with one string input meant for serialized examples gets a feature instead if
there is one of the same name. -/
theorem C109_feature_for_examples (features : Dict String V) (hwf : Dict.WF features) (v : V)
    (h : ("examples", v) ∈ features) : getInputs features [("examples", true)] = some [("examples", v)] := by
  rw [C109_inputs features hwf _ (by simp [Dict.WF, Dict.keys])]
  exact ⟨by simp, .cons ⟨rfl, .same h⟩ .nil⟩

/-- Non-vacuous. -/
example : ("examples", 5) ∈ [("age", 3), ("examples", 5)] := by decide

private theorem has_pair {W : Type} {d : Dict String W} {k : String} (h : Dict.has d k = true) :
    ∃ w, Dict.get? d k = some w := by
  unfold Dict.has at h
  exact Option.isSome_iff_exists.1 h

private theorem callableNamed_specs {m : Loaded} {name : String} {r : Bool} {s : Option Specs} {t : Target}
    (hs : specsNamed m name r = .ok s) (ht : callableNamed m name r = .ok (some t)) :
    Declares m t s ∧ (t = .signature name ∨ t = .attribute name) := by
  unfold specsNamed at hs
  unfold callableNamed at ht
  cases hm : m.signatures with
  | none => rw [hm] at hs; exact absurd hs (by simp)
  | some sigs =>
    rw [hm] at hs ht
    dsimp only at hs ht
    cases hg : Dict.get? sigs name with
    | some s' =>
      rw [hg] at hs
      rw [if_pos (by unfold Dict.has; rw [hg]; rfl)] at ht
      simp only [Except.ok.injEq, Option.some.injEq] at hs ht
      subst hs; subst ht
      exact ⟨⟨sigs, hm, Dict.mem_of_get? hg⟩, .inl rfl⟩
    | none =>
      rw [hg] at hs
      rw [if_neg (by unfold Dict.has; rw [hg]; simp)] at ht
      dsimp only at hs
      cases ha : Dict.get? m.attrs name with
      | some s' =>
        rw [ha] at hs
        rw [if_pos (by unfold Dict.has; rw [ha]; rfl)] at ht
        simp only [Except.ok.injEq, Option.some.injEq] at hs ht
        subst hs; subst ht
        exact ⟨⟨s', rfl, Dict.mem_of_get? ha⟩, .inr rfl⟩
      | none =>
        rw [if_neg (by unfold Dict.has; rw [ha]; simp)] at ht
        split at ht <;> exact absurd ht (by simp)

private theorem getCallable_specs {m : Loaded} {name : String} {r : Bool} {s : Option Specs} {t : Target}
    (hs : getInputSpecs m name r = .ok s) (ht : getCallable m name r = .ok (some t)) : Declares m t s := by
  unfold getInputSpecs at hs
  unfold getCallable at ht
  by_cases h0 : m.signatures.isNone ∧ m.own.isNone
  · rw [if_pos h0] at ht
    exact absurd ht (by simp)
  · rw [if_neg h0] at hs ht
    by_cases hn : name = ""
    · rw [if_pos hn] at hs ht
      cases ho : m.own with
      | some s' =>
        rw [ho] at hs ht
        simp only [Option.isSome_some, if_true, Except.ok.injEq, Option.some.injEq] at hs ht
        subst ht; subst hs
        exact ⟨rfl, ho⟩
      | none =>
        rw [ho] at hs ht
        simp only [Option.isSome_none] at hs ht
        exact (callableNamed_specs hs ht).1
    · rw [if_neg hn] at hs ht
      exact (callableNamed_specs hs ht).1

private theorem getCallable_named {m : Loaded} {name : String} (hn : name ≠ "") {r : Bool} {t : Target}
    (ht : getCallable m name r = .ok (some t)) : t = .signature name ∨ t = .attribute name := by
  unfold getCallable at ht
  split at ht
  · exact absurd ht (by simp)
  · unfold callableNamed at ht
    split at ht
    · exact absurd ht (by simp)
    · split at ht
      · simp only [Except.ok.injEq, Option.some.injEq] at ht
        exact .inl ht.symm
      · split at ht
        · simp only [Except.ok.injEq, Option.some.injEq] at ht
          exact .inr ht.symm
        · split at ht <;> exact absurd ht (by simp)

/-- **C109** (declared inputs): whatever is called with features is called with the inputs that it declares itself, each with its
feature. -/
theorem C109_declared (m : Loaded) (features : Dict String V) (hwf : Dict.WF features) (name : String) (r : Bool)
    (t : Target) (d : Dict String V)
    (hm : ∀ s, Declares m t (some s) → Dict.WF s)
    (h : call m features name r = .ok (some (t, .named d))) :
    ∃ s, Declares m t (some s) ∧ List.Forall₂ (fun n p => p.1 = n ∧ Source features n p.2) (s.map Prod.fst) d := by
  unfold call at h
  cases hs : getInputSpecs m name r with
  | error e => rw [hs] at h; exact absurd h (by simp)
  | ok specs =>
    rw [hs] at h
    dsimp only at h
    cases hi : tryInputs features specs with
    | none =>
      rw [hi] at h
      dsimp only at h
      split at h
      · exact absurd h (by simp)
      · split at h <;> exact absurd h (by simp)
      · simp at h
    | some d' =>
      rw [hi] at h
      dsimp only at h
      split at h
      · exact absurd h (by simp)
      · split at h <;> exact absurd h (by simp)
      · rename_i t' ht
        simp only [Except.ok.injEq, Option.some.injEq, Prod.mk.injEq, Fed.named.injEq] at h
        obtain ⟨rfl, rfl⟩ := h
        have hd := getCallable_specs hs ht
        unfold tryInputs at hi
        split at hi
        · exact absurd hi (by simp)
        · exact absurd hi (by simp)
        · rename_i s _
          exact ⟨s, hd, ((C109_inputs features hwf s (hm s hd) d').1 hi).2⟩

/-- **C109** (what is called): with a signature name, the signature of that name or else the attribute of that name; without one
the model itself, but only with features: serialized examples always go to the signature "predict", or "serving_default" if
there is none. -/
theorem C109_called (m : Loaded) (features : Dict String V) (name : String) (r : Bool) (t : Target) (f : Fed V)
    (h : call m features name r = .ok (some (t, f))) :
    (name ≠ "" → t = .signature name ∨ t = .attribute name) ∧
    (t = .whole → name = "" ∧ ∃ d, f = .named d) ∧
    (name = "" → f = .serialized → t = .signature (defaultSignature m) ∨ t = .attribute (defaultSignature m)) := by
  have hdef : defaultSignature m ≠ "" := by
    unfold defaultSignature
    split
    · decide
    · split <;> decide
  unfold call at h
  split at h
  · exact absurd h (by simp)
  · split at h
    · rename_i d hd
      split at h
      · exact absurd h (by simp)
      · split at h <;> exact absurd h (by simp)
      · rename_i t' ht
        simp only [Except.ok.injEq, Option.some.injEq, Prod.mk.injEq] at h
        obtain ⟨rfl, rfl⟩ := h
        refine ⟨fun hn => getCallable_named hn ht, ?_, by simp⟩
        rintro rfl
        refine ⟨?_, _, rfl⟩
        by_contra hn
        rcases getCallable_named hn ht with h | h <;> exact absurd h (by simp)
    · split at h
      · exact absurd h (by simp)
      · split at h <;> exact absurd h (by simp)
      · rename_i t' ht
        simp only [Except.ok.injEq, Option.some.injEq, Prod.mk.injEq] at h
        obtain ⟨rfl, rfl⟩ := h
        have hne : (if name = "" then defaultSignature m else name) ≠ "" := by
          split
          · exact hdef
          · assumption
        have := getCallable_named hne ht
        refine ⟨fun hn => by rwa [if_neg hn] at this, ?_, fun hn _ => by rwa [if_pos hn] at this⟩
        rintro rfl
        rcases this with h | h <;> exact absurd h (by simp)

/-- A Keras model with input "age" and a signature for serialized examples. -/
private def keras : Loaded := ⟨some [("age", false)], some [("serving_default", some [("examples", true)])], []⟩

/-- Non-vacuous: with the feature the model itself is called, without it the signature with the examples, also if the signature
is asked for. -/
example : call keras [("age", 30), ("sex", 1)] "" true = .ok (some (.whole, .named [("age", 30)])) ∧
    call keras [("sex", 1)] "" true = .ok (some (.signature "serving_default", .serialized)) ∧
    call keras [("age", 30)] "serving_default" true = .ok (some (.signature "serving_default", .serialized)) ∧
    call keras [("age", 30)] "other" true = .error .valueError := ⟨rfl, rfl, rfl, rfl⟩

/-- **C109** (missing signature): a signature name that is neither a signature nor an attribute raises ValueError when it is
required and is passed over otherwise. -/
theorem C109_missing (m : Loaded) (features : Dict String V) (name : String) (hn : name ≠ "") (r : Bool)
    (sigs : Dict String (Option Specs)) (hs : m.signatures = some sigs) (h1 : name ∉ sigs.map Prod.fst)
    (h2 : name ∉ m.attrs.map Prod.fst) :
    call m features name r = if r then .error .valueError else .ok none := by
  have g1 : Dict.get? sigs name = none := (Dict.get?_eq_none_iff _ _).2 h1
  have g2 : Dict.get? m.attrs name = none := (Dict.get?_eq_none_iff _ _).2 h2
  have hspec : getInputSpecs m name r = if r then .error .valueError else .ok none := by
    unfold getInputSpecs specsNamed
    simp [hs, hn, g1, g2]
  have hcall : getCallable m name r = if r then .error .valueError else .ok none := by
    unfold getCallable callableNamed
    simp [hs, hn, g1, g2, Dict.has]
  unfold call
  rw [hspec]
  cases r
  · simp only [Bool.false_eq_true, if_false, tryInputs, if_neg hn, hcall]
  · simp

/-- Non-vacuous. -/
example : call keras [("age", 30)] "other" false = .ok none := rfl

end ModelInputs
end TFMA
