import Verif.Model.PreprocessingNames
import Verif.Py.DictLemmas

/-! # C172: preprocessing functions of the library are applied to the feature they are given -/

namespace TFMA
namespace PreprocessingNames

open ModelInputs ModelOutputs

variable {V α : Type}

/-! ### helpers -/

private theorem splitChars_none (l : List Char) (h : '@' ∉ l) : splitChars l = (l, []) := by
  induction l with
  | nil => rfl
  | cons c l ih =>
    simp only [List.mem_cons, not_or] at h
    simp only [splitChars, ih h.2, if_neg (Ne.symm h.1)]

private theorem splitChars_one (f x : List Char) (h : '@' ∉ f) :
    splitChars (f ++ '@' :: x) = (f, (splitChars x).1 :: (splitChars x).2) := by
  induction f with
  | nil => simp [splitChars]
  | cons c f ih =>
    simp only [List.mem_cons, not_or] at h
    simp only [List.cons_append, splitChars, ih h.2, if_neg (Ne.symm h.1)]

private theorem splitChars_length (l : List Char) : (splitChars l).2.length = l.count '@' := by
  induction l with
  | nil => rfl
  | cons c l ih =>
    simp only [splitChars, List.count_cons]
    by_cases h : c = '@'
    · simp [h, ih]
    · simp [h, ih]

private theorem at_mem (f x : String) : '@' ∈ (f ++ "@" ++ x).toList := by
  simp

private theorem signature_one (f x : String) (hf : '@' ∉ f.toList) (hx : '@' ∉ x.toList) :
    getPreprocessingSignature (f ++ "@" ++ x) = .ok (f, [x]) := by
  have : (f ++ "@" ++ x).toList = f.toList ++ '@' :: x.toList := by simp
  simp only [getPreprocessingSignature, this, splitChars_one _ _ hf, splitChars_none _ hx]
  simp

private theorem getInputs_one (features : Dict String V) (x : String) (b : Bool) (v : V)
    (h : Dict.get? features x = some v) : getInputs features [(x, b)] = some [(x, v)] := by
  have hh : Dict.has features x = true := by simp [Dict.has, h]
  have hf : findInputName features x = some x := by simp [findInputName, hh]
  have hl : looksSerialized features [(x, b)] = false := by cases b <;> simp [looksSerialized, hf]
  simp [getInputs, hl, filterByInputNames, Dict.keys, filterLoop, hf, h, Dict.set]

private theorem getInputs_none (features : Dict String V) (x : String) (b : Bool)
    (h : findInputName features x = none) : getInputs features [(x, b)] = none := by
  simp [getInputs, filterByInputNames, Dict.keys, filterLoop, h]

private theorem set_end (d : Dict String (Arr α)) (k : String) (v : Arr α) (h : k ∉ Dict.keys d) :
    Dict.set d k v = d ++ [(k, v)] := by
  induction d with
  | nil => rfl
  | cons p d ih =>
    simp only [Dict.keys, List.map_cons, List.mem_cons, not_or] at h
    simp only [Dict.set, if_neg (Ne.symm h.1), List.cons_append]
    rw [ih h.2]

/-! ### theorems -/

/-- **C172** (names).  "function@feature" is read as the function and the feature. -/
theorem C172_name (f x : String) (hf : '@' ∉ f.toList) (hx : '@' ∉ x.toList) :
    getPreprocessingSignature (f ++ "@" ++ x) = .ok (f, [x]) := signature_one f x hf hx

example : '@' ∉ ("whitespace_tokenization" : String).toList ∧ '@' ∉ ("review" : String).toList := by
  constructor <;> simp

/-- **C172** (several features).  A name is refused exactly if it has more than one `@`. -/
theorem C172_refused (name : String) :
    getPreprocessingSignature name = .error .notImplementedError ↔ 2 ≤ name.toList.count '@' := by
  unfold getPreprocessingSignature
  simp only [splitChars_length]
  by_cases h : 1 < name.toList.count '@'
  · simp only [if_pos h, true_iff]; omega
  · simp only [if_neg h, reduceCtorEq, false_iff]; omega

example : 2 ≤ ("f@a@b" : String).toList.count '@' := by decide

/-- **C172** (the feature is passed).  A function of the library gets the feature it is named with and nothing else, whatever the
model has, and what it returns is stored under the name of the function. -/
theorem C172_applied (lib : Dict String Attr) (m : Loaded) (features : Dict String V) (f x : String) (required string : Bool) (v : V)
    (hf : '@' ∉ f.toList) (hx : '@' ∉ x.toList) (hl : Dict.get? lib f = some (.function string))
    (hv : Dict.get? features x = some v) :
    resolve lib m features (f ++ "@" ++ x) required = .ok (some (.library f, .named [(x, v)], f)) := by
  unfold resolve
  rw [if_pos (at_mem f x), signature_one f x hf hx]
  simp only [hl, List.map_cons, List.map_nil, getInputs_one features x string v hv]

example : Dict.get? [("whitespace_tokenization", Attr.function true), ("text", .package)] "whitespace_tokenization" =
    some (.function true) ∧ Dict.get? [("review", [1, 2]), ("age", [3, 4])] "review" = some [1, 2] := by
  constructor <;> rfl

/-- **C172** (names without `@`).  They are never looked up in the library: what is called and with what is the business of the model
(C109), and the outputs are stored under the name, or that of the default signature if the model is called with examples and no name. -/
theorem C172_without (lib : Dict String Attr) (m : Loaded) (features : Dict String V) (name : String) (required : Bool)
    (hn : '@' ∉ name.toList) (c : Callee) (fed : Fed V) (stored : String)
    (h : resolve lib m features name required = .ok (some (c, fed, stored))) :
    ∃ t, c = .model t ∧ call m features name required = .ok (some (t, fed)) ∧
      (name ≠ "" → stored = name) ∧ (name = "" → fed = .serialized → stored = defaultSignature m) ∧
      (name = "" → fed ≠ .serialized → stored = "") := by
  unfold resolve at h
  rw [if_neg hn] at h
  unfold plain at h
  split at h
  · cases h
  · cases h
  · rename_i t d hc
    cases h
    exact ⟨t, rfl, hc, fun _ => rfl, fun _ hs => (nomatch hs), fun he _ => he⟩
  · rename_i t hc
    cases h
    exact ⟨t, rfl, hc, fun he => if_neg he, fun he _ => if_pos he, fun _ hs => absurd rfl hs⟩

example : resolve [("f", Attr.function true)] ⟨some [("x", false)], some [], []⟩ [("x", 1)] "" false =
    .ok (some (.model .whole, .named [("x", 1)], "")) := by rfl

/-- A use of a function of the library: its name, the feature, and what comes out for it. -/
structure Use (V α : Type) where
  fn : String
  feature : String
  value : V
  out : Arr α

/-- The function is in the library, the feature exists, and the function returns one tensor for it, which is stored as `out`. -/
def Use.Good (lib : Dict String Attr) (features : Dict String V) (run : Callee → Fed V → Outs α) (zero : α) (n : ℕ)
    (u : Use V α) : Prop :=
  '@' ∉ u.fn.toList ∧ '@' ∉ u.feature.toList ∧ (∃ s, Dict.get? lib u.fn = some (.function s)) ∧
  Dict.get? features u.feature = some u.value ∧
  ∃ t, run (.library u.fn) (.named [(u.feature, u.value)]) = .one t ∧ denseOne zero n t = .ok u.out

private theorem loop_good (lib : Dict String Attr) (m : Loaded) (features : Dict String V) (run : Callee → Fed V → Outs α)
    (zero : α) (n : ℕ) (required : Bool) (us : List (Use V α)) (hg : ∀ u ∈ us, u.Good lib features run zero n)
    (acc : Option (Dict String (Arr α))) (hn : (Dict.keys (acc.getD []) ++ us.map Use.fn).Nodup) (hne : us ≠ []) :
    signatureLoop zero n (callOf lib features run) m required (us.map fun u => u.fn ++ "@" ++ u.feature) acc =
      .ok (some (acc.getD [] ++ us.map fun u => (u.fn, u.out))) := by
  induction us generalizing acc with
  | nil => exact absurd rfl hne
  | cons u us ih =>
    obtain ⟨hf, hx, ⟨s, hl⟩, hv, t, hr, ho⟩ := hg u (by simp)
    have hc : callOf lib features run m (u.fn ++ "@" ++ u.feature) required = .ok (some (u.fn, .one t)) := by
      simp only [callOf, C172_applied lib m features u.fn u.feature required s u.value hf hx hl hv, hr]
    have hk : u.fn ∉ Dict.keys (acc.getD []) := by
      intro hm
      exact (List.nodup_append.mp hn).2.2 u.fn hm u.fn (by simp) rfl
    have hu : Dict.update (acc.getD []) [(u.fn, u.out)] = acc.getD [] ++ [(u.fn, u.out)] := by
      simp [Dict.update, set_end _ _ _ hk]
    rw [List.map_cons, signatureLoop, hc]
    simp only [toDenseOutputs, ho, hu]
    cases us with
    | nil => simp [signatureLoop]
    | cons u' us =>
      rw [ih (fun w hw => hg w (List.mem_cons_of_mem _ hw)) _ ?_ (by simp)]
      · simp
      · simpa [Dict.keys] using hn

/-- **C172** (what is proved of several functions).  Different functions of the library, each with a feature that exists, give one
output each, stored under the name of the function and computed from its own feature.
Missing: one function with two features, where only the last output is kept (`C172_same_function_fails`). -/
theorem C172_outputs_partial (lib : Dict String Attr) (m : Loaded) (features : Dict String V) (run : Callee → Fed V → Outs α)
    (zero : α) (n : ℕ) (required : Bool) (us : List (Use V α)) (hg : ∀ u ∈ us, u.Good lib features run zero n)
    (hn : (us.map Use.fn).Nodup) (hne : us ≠ []) :
    signatureLoop zero n (callOf lib features run) m required (us.map fun u => u.fn ++ "@" ++ u.feature) none =
      .ok (some (us.map fun u => (u.fn, u.out))) := by
  have := loop_good lib m features run zero n required us hg none (by simpa [Dict.keys] using hn) hne
  simpa using this

/-- A library of two functions that return their column, for the examples. -/
def demoLib : Dict String Attr := [("f", .function false), ("g", .function true)]

/-- What the functions of `demoLib` return. -/
def demoRun : Callee → Fed (List ℕ) → Outs ℕ
  | .library _, .named [(_, column)] => .one (.dense [2, 1] column)
  | _, _ => .named []

example : ∀ u ∈ [(⟨"f", "a", [1, 2], ([2, 1], [1, 2])⟩ : Use (List ℕ) ℕ), ⟨"g", "b", [3, 4], ([2, 1], [3, 4])⟩,
    ⟨"f", "b", [3, 4], ([2, 1], [3, 4])⟩], u.Good demoLib [("a", [1, 2]), ("b", [3, 4])] demoRun 0 2 := by
  intro u hu
  simp only [List.mem_cons, List.not_mem_nil, or_false] at hu
  rcases hu with rfl | rfl | rfl
  · exact ⟨by simp, by simp, ⟨false, rfl⟩, rfl, _, rfl, rfl⟩
  · exact ⟨by simp, by simp, ⟨true, rfl⟩, rfl, _, rfl, rfl⟩
  · exact ⟨by simp, by simp, ⟨false, rfl⟩, rfl, _, rfl, rfl⟩

/-- **C172** (fails: one function for two features).  The outputs have the name of the function without the feature, so that of
"f@a" and "f@b" only what was computed from `b` is left. -/
theorem C172_same_function_fails (lib : Dict String Attr) (m : Loaded) (features : Dict String V) (run : Callee → Fed V → Outs α)
    (zero : α) (n : ℕ) (required : Bool) (u w : Use V α) (hu : u.Good lib features run zero n)
    (hw : w.Good lib features run zero n) (h : u.fn = w.fn) :
    signatureLoop zero n (callOf lib features run) m required [u.fn ++ "@" ++ u.feature, w.fn ++ "@" ++ w.feature] none =
      .ok (some [(w.fn, w.out)]) := by
  obtain ⟨hf, hx, ⟨s, hl⟩, hv, t, hr, ho⟩ := hu
  obtain ⟨hf', hx', ⟨s', hl'⟩, hv', t', hr', ho'⟩ := hw
  have hc : callOf lib features run m (u.fn ++ "@" ++ u.feature) required = .ok (some (u.fn, .one t)) := by
    simp only [callOf, C172_applied lib m features u.fn u.feature required s u.value hf hx hl hv, hr]
  have hc' : callOf lib features run m (w.fn ++ "@" ++ w.feature) required = .ok (some (w.fn, .one t')) := by
    simp only [callOf, C172_applied lib m features w.fn w.feature required s' w.value hf' hx' hl' hv', hr']
  rw [signatureLoop, hc]
  simp only [toDenseOutputs, ho]
  rw [signatureLoop, hc']
  simp only [toDenseOutputs, ho', signatureLoop, Dict.update, Option.getD, List.foldl, Dict.set, h, if_true]

/-- **C172** (fails: a feature that does not exist).  The function is not refused: it is called with the serialized examples, and what
it makes of them is stored under its name. -/
theorem C172_missing_feature_fails (lib : Dict String Attr) (m : Loaded) (features : Dict String V) (f x : String)
    (required string : Bool) (hf : '@' ∉ f.toList) (hx : '@' ∉ x.toList) (hl : Dict.get? lib f = some (.function string))
    (hv : Dict.get? features x = none) (hs : ∀ base, x = base ++ "_input" → Dict.get? features base = none) :
    resolve lib m features (f ++ "@" ++ x) required = .ok (some (.library f, .serialized, f)) := by
  have hn : findInputName features x = none := by
    have hh : Dict.has features x = false := by simp [Dict.has, hv]
    simp only [findInputName, hh, Bool.false_eq_true, if_false]
    cases hb : stripInput x with
    | none => rfl
    | some base =>
      have : x = base ++ "_input" := by
        unfold stripInput at hb
        simp only at hb
        split at hb
        · rename_i he
          cases hb
          apply String.toList_injective
          rw [String.toList_append, ← he]
          simp
        · cases hb
      simp [Dict.has, hs base this]
  unfold resolve
  rw [if_pos (at_mem f x), signature_one f x hf hx]
  simp only [hl, List.map_cons, List.map_nil, getInputs_none features x string hn]

example : Dict.get? ([("review", 1)] : Dict String ℕ) "revieww" = none := by rfl

/-- **C172** (fails: functions of the model).  The feature after the `@` has no effect on a function of the model: it is called as if
it were named without one, with the inputs it declares. -/
theorem C172_model_function_fails (lib : Dict String Attr) (m : Loaded) (features : Dict String V) (f x : String) (required : Bool)
    (hf : '@' ∉ f.toList) (hx : '@' ∉ x.toList) (hl : Dict.get? lib f = none) :
    resolve lib m features (f ++ "@" ++ x) required = resolve lib m features f required := by
  unfold resolve
  rw [if_pos (at_mem f x), signature_one f x hf hx, if_neg hf]
  simp only [hl]

example : resolve ([] : Dict String Attr) ⟨none, some [("f", some [("a", false)])], []⟩ [("a", 1), ("b", 2)] "f@b" true =
    .ok (some (.model (.signature "f"), .named [("a", 1)], "f")) := by rfl

/-- **C172** (fails: names of modules).  With the name of a module of the package ("text@x") nothing is called, even if the model has
a function of that name; without the feature the function of the model is called. -/
theorem C172_module_name_fails (lib : Dict String Attr) (m : Loaded) (features : Dict String V) (f x : String) (required : Bool)
    (hf : '@' ∉ f.toList) (hx : '@' ∉ x.toList) (hl : Dict.get? lib f = some .package) :
    ∃ e, resolve lib m features (f ++ "@" ++ x) required = .error e := by
  unfold resolve
  rw [if_pos (at_mem f x), signature_one f x hf hx]
  simp only [hl]
  cases getInputSpecs m f required with
  | error e => exact ⟨e, rfl⟩
  | ok s => exact ⟨.valueError, rfl⟩

example : resolve [("text", Attr.package)] ⟨none, some [("text", some [("a", false)])], []⟩ [("a", 1)] "text@a" true =
      .error .valueError ∧
    resolve [("text", Attr.package)] ⟨none, some [("text", some [("a", false)])], []⟩ [("a", 1)] "text" true =
      .ok (some (.model (.signature "text"), .named [("a", 1)], "text")) := by
  constructor <;> rfl

end PreprocessingNames
end TFMA
