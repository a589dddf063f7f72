import Verif.Model.SpecRepresentations
import Verif.Py.DictLemmas
import Mathlib.Data.List.Basic
import Mathlib.Data.List.Forall2
import Mathlib.Data.List.Induction

/-!
# C168: tensor representations of inputs; C169: validation of alternatives
-/

namespace TFMA
namespace SpecRepresentations

private theorem set_append {W : Type} (d : Dict String W) (k : String) (v : W) (h : k ∉ d.map Prod.fst) :
    Dict.set d k v = d ++ [(k, v)] := by
  induction d with
  | nil => rfl
  | cons x xs ih =>
    have hx : ¬ x.1 = k := fun e => h (by simp [e])
    obtain ⟨a, b⟩ := x
    simp only [Dict.set, List.cons_append]
    rw [if_neg hx, ih fun e => h (by simp only [List.map_cons, List.mem_cons]; exact Or.inr e)]

/-! ### C168 -/

/-- The representation that an input is to have: sparse and ragged inputs by their column, other ones with the size of every dimension but
the first. -/
inductive Represents (name : String) : TypeSpec → Representation → Prop where
  | sparse : Represents name .sparse (.varlen name)
  | ragged : Represents name .ragged (.ragged [name])
  | scalar : Represents name (.dense (some [])) (.dense name [])
  | dense (batch : Option ℕ) (sizes : List ℕ) : Represents name (.dense (some (batch :: sizes.map some))) (.dense name sizes)

private theorem dims_iff (shape : List (Option ℕ)) (acc l : List ℕ) :
    dims shape acc = .ok l ↔ ∃ sizes : List ℕ, shape = sizes.map some ∧ l = acc ++ sizes := by
  induction shape generalizing acc with
  | nil =>
    constructor
    · intro h; cases h; exact ⟨[], rfl, by simp⟩
    · rintro ⟨sizes, h, rfl⟩
      cases sizes with
      | nil => simp [dims]
      | cons => cases h
  | cons d ds ih =>
    cases d with
    | none =>
      constructor
      · intro h; cases h
      · rintro ⟨sizes, h, _⟩
        cases sizes <;> cases h
    | some n =>
      simp only [dims]
      rw [ih]
      constructor
      · rintro ⟨sizes, rfl, rfl⟩
        exact ⟨n :: sizes, rfl, by simp⟩
      · rintro ⟨sizes, h, rfl⟩
        cases sizes with
        | nil => cases h
        | cons m sizes =>
          cases h
          exact ⟨sizes, rfl, by simp⟩

private theorem representation_iff (name : String) (spec : TypeSpec) (r : Representation) :
    representation name spec = .ok r ↔ Represents name spec r := by
  cases spec with
  | sparse =>
    constructor
    · intro h; cases h; exact .sparse
    · intro h; cases h; rfl
  | ragged =>
    constructor
    · intro h; cases h; exact .ragged
    · intro h; cases h; rfl
  | dense shape =>
    cases shape with
    | none =>
      constructor
      · intro h; cases h
      · intro h; cases h
    | some shape =>
      match shape with
      | [] =>
        constructor
        · intro h; cases h; exact .scalar
        · intro h; cases h; rfl
      | b :: rest =>
        have hif : (if 1 < (b :: rest).length then (b :: rest).drop 1 else []) = rest := by
          cases rest <;> simp
        simp only [representation, hif]
        cases hd : dims rest [] with
        | error e =>
          constructor
          · intro h; cases h
          · intro h
            cases h with
            | dense _ sizes =>
              have := (dims_iff (sizes.map some) [] sizes).2 ⟨sizes, rfl, by simp⟩
              rw [hd] at this
              cases this
        | ok l =>
          obtain ⟨sizes, hs, hl⟩ := (dims_iff rest [] l).1 hd
          simp only [List.nil_append] at hl
          subst hl
          constructor
          · intro h
            cases h
            rw [hs]
            exact .dense b l
          · intro h
            cases h with
            | dense _ sizes' =>
              have hinj : l = sizes' := by
                have hm := congrArg (List.filterMap id) hs
                simpa [List.filterMap_map, Function.comp_def] using hm.symm
              rw [hinj]

private theorem loop_iff (specs : Dict String TypeSpec) (acc r : Dict String Representation)
    (hn : (acc.map Prod.fst ++ specs.map Prod.fst).Nodup) :
    loop specs acc = .ok r ↔ ∃ e, r = acc ++ e ∧ List.Forall₂ (fun x y => x.1 = y.1 ∧ Represents x.1 x.2 y.2) specs e := by
  induction specs generalizing acc with
  | nil =>
    constructor
    · intro h; cases h; exact ⟨[], by simp, .nil⟩
    · rintro ⟨e, rfl, he⟩; cases he; simp [loop]
  | cons x xs ih =>
    obtain ⟨k, spec⟩ := x
    have hk : k ∉ acc.map Prod.fst := by
      intro hmem
      exact (List.nodup_append.1 hn).2.2 k hmem k (by simp) rfl
    unfold loop
    cases hc : representation k spec with
    | error err =>
      constructor
      · intro h; cases h
      · rintro ⟨e, _, he⟩
        cases he with
        | cons hxy _ =>
          have h2 := (representation_iff k spec _).2 hxy.2
          rw [hc] at h2
          cases h2
    | ok v =>
      have hv := (representation_iff k spec v).1 hc
      show loop xs (Dict.set acc k v) = .ok r ↔ _
      rw [set_append acc k v hk, ih _ (by simpa using hn)]
      constructor
      · rintro ⟨e, rfl, he⟩
        exact ⟨(k, v) :: e, by simp, .cons ⟨rfl, hv⟩ he⟩
      · rintro ⟨e, rfl, he⟩
        cases he with
        | @cons _ b _ bs hxy hrest =>
          have h2 := (representation_iff k spec _).2 hxy.2
          rw [hc] at h2
          obtain ⟨b1, b2⟩ := b
          cases h2
          have : k = b1 := hxy.1
          subst this
          exact ⟨bs, by simp, hrest⟩

/-- **C168**: every input gets, under its own name, the representation of its kind and column with the size of every dimension but the first;
nothing else is represented.  If there is no such representation for some input, because a dimension or the rank is not known, the
conversion fails. -/
theorem C168_represented (specs : Dict String TypeSpec) (hw : Dict.WF specs) (r : Dict String Representation) :
    inputSpecsToTensorRepresentations specs = .ok r ↔
      List.Forall₂ (fun x y => x.1 = y.1 ∧ Represents x.1 x.2 y.2) specs r := by
  unfold inputSpecsToTensorRepresentations
  rw [loop_iff specs [] r (by simpa [Dict.WF, Dict.keys] using hw)]
  simp

example : inputSpecsToTensorRepresentations
    [("a", .dense (some [none, some 3, some 2])), ("b", .sparse), ("c", .dense (some [none])), ("d", .ragged)] =
    .ok [("a", .dense "a" [3, 2]), ("b", .varlen "b"), ("c", .dense "c" []), ("d", .ragged ["d"])] := by rfl

/-- **C168** fails as a round trip: a tensor without dimensions and one with only the dimension
of the batch have the same representation, so that the spec cannot be found again. -/
theorem C168_rank_fails (name : String) (batch : Option ℕ) :
    inputSpecsToTensorRepresentations [(name, .dense (some []))] = inputSpecsToTensorRepresentations [(name, .dense (some [batch]))] := rfl

/-! ### C169 -/

variable {X P A : Type}

/-- What each alternative gives. -/
def evaluated (extracts : X) (alternatives : Dict String (X → P)) : Dict String P := alternatives.map fun x => (x.1, x.2 extracts)

private theorem evaluations_eq (extracts : X) (alternatives : Dict String (X → P)) (acc : Dict String P)
    (hn : (acc.map Prod.fst ++ alternatives.map Prod.fst).Nodup) :
    evaluations extracts alternatives acc = acc ++ evaluated extracts alternatives := by
  induction alternatives generalizing acc with
  | nil => simp [evaluations, evaluated]
  | cons x xs ih =>
    obtain ⟨k, f⟩ := x
    have hk : k ∉ acc.map Prod.fst := by
      intro hmem
      exact (List.nodup_append.1 hn).2.2 k hmem k (by simp) rfl
    simp only [evaluations]
    rw [set_append acc k _ hk, ih _ (by simpa using hn)]
    simp [evaluated]

private theorem get?_update {W : Type} (d e : Dict String W) (k : String) :
    Dict.get? (Dict.update d e) k = (Dict.get? e.reverse k).or (Dict.get? d k) := by
  induction e using List.reverseRecOn with
  | nil => simp [Dict.update]
  | append_singleton xs x ih =>
    obtain ⟨k', v⟩ := x
    have : Dict.update d (xs ++ [(k', v)]) = Dict.set (Dict.update d xs) k' v := by simp [Dict.update]
    rw [this, Dict.get?_set, List.reverse_append]
    simp only [List.reverse_cons, List.reverse_nil, List.nil_append, List.singleton_append, Dict.get?_cons]
    by_cases h : k' = k
    · simp [h]
    · simp [h, ih]

private theorem get?_reverse {W : Type} (e : Dict String W) (hw : Dict.WF e) (k : String) : Dict.get? e.reverse k = Dict.get? e k := by
  have hw' : Dict.WF e.reverse := by
    have : (e.map Prod.fst).reverse.Nodup := List.nodup_reverse.2 hw
    simpa [Dict.WF, Dict.keys, List.map_reverse] using this
  cases h : Dict.get? e k with
  | some v => exact Dict.get?_of_mem hw' (List.mem_reverse.2 (Dict.mem_of_get? h))
  | none =>
    cases h' : Dict.get? e.reverse k with
    | none => rfl
    | some v =>
      have := Dict.get?_of_mem hw (List.mem_reverse.1 (Dict.mem_of_get? h'))
      rw [h] at this
      cases this

private theorem validations_get (evals : Dict String P) (validators : List (Dict String P → Dict String A))
    (hw : ∀ v ∈ validators, Dict.WF (v evals)) (acc : Dict String A) (k : String) (a : A) :
    Dict.get? (validations evals validators acc) k = some a ↔
      (∃ before v after, validators = before ++ v :: after ∧ (k, a) ∈ v evals ∧ ∀ w ∈ after, k ∉ (w evals).map Prod.fst) ∨
      ((∀ w ∈ validators, k ∉ (w evals).map Prod.fst) ∧ Dict.get? acc k = some a) := by
  induction validators generalizing acc with
  | nil => simp [validations]
  | cons v vs ih =>
    have hv := hw v (by simp)
    simp only [validations]
    rw [ih (fun w hw' => hw w (by simp [hw'])), get?_update, get?_reverse _ hv]
    constructor
    · rintro (⟨b, u, c, rfl, h1, h2⟩ | ⟨h1, h2⟩)
      · exact Or.inl ⟨v :: b, u, c, rfl, h1, h2⟩
      · cases hg : Dict.get? (v evals) k with
        | some a' =>
          rw [hg] at h2
          simp only [Option.some_or] at h2
          cases h2
          exact Or.inl ⟨[], v, vs, rfl, Dict.mem_of_get? hg, h1⟩
        | none =>
          rw [hg] at h2
          simp only [Option.none_or] at h2
          refine Or.inr ⟨?_, h2⟩
          intro w hw'
          rcases List.mem_cons.1 hw' with rfl | hw'
          · exact (Dict.get?_eq_none_iff _ _).1 hg
          · exact h1 w hw'
    · rintro (⟨b, u, c, h, h1, h2⟩ | ⟨h1, h2⟩)
      · cases b with
        | nil =>
          cases h
          refine Or.inr ⟨h2, ?_⟩
          rw [Dict.get?_of_mem hv h1]
          rfl
        | cons b' b =>
          cases h
          exact Or.inl ⟨b, u, c, rfl, h1, h2⟩
      · refine Or.inr ⟨fun w hw' => h1 w (by simp [hw']), ?_⟩
        rw [(Dict.get?_eq_none_iff (v evals) k).2 (h1 v (by simp))]
        simpa using h2

/-- **C169**: every validator sees the evaluations of all alternatives, each of the same extracts and under its own key, and the outcome
has under each key the output of the last validator that has the key, and nothing else. -/
theorem C169_validated (extracts : X) (alternatives : Dict String (X → P)) (ha : Dict.WF alternatives)
    (validators : List (Dict String P → Dict String A)) (hw : ∀ v ∈ validators, Dict.WF (v (evaluated extracts alternatives)))
    (key : String) (a : A) : Dict.get? (validate extracts alternatives validators) key = some a ↔
      ∃ before v after, validators = before ++ v :: after ∧ (key, a) ∈ v (evaluated extracts alternatives) ∧
        ∀ w ∈ after, key ∉ (w (evaluated extracts alternatives)).map Prod.fst := by
  unfold validate
  rw [evaluations_eq extracts alternatives [] (by simpa [Dict.WF, Dict.keys] using ha)]
  simp only [List.nil_append]
  rw [validations_get _ validators hw]
  simp

example : validate 3 [("a", (· + 1)), ("b", (· * 2))] [fun d => d, fun _ => [("a", 0)]] = [("a", 0), ("b", 6)] := by rfl

/-- **C169**: of two validators that share a key the earlier one's output is lost. -/
theorem C169_replaced (extracts : X) (alternatives : Dict String (X → P)) (ha : Dict.WF alternatives)
    (v w : Dict String P → Dict String A) (hv : Dict.WF (v (evaluated extracts alternatives)))
    (hw : Dict.WF (w (evaluated extracts alternatives))) (key : String) (a b : A) (h1 : (key, a) ∈ v (evaluated extracts alternatives))
    (h2 : (key, b) ∈ w (evaluated extracts alternatives)) (hab : a ≠ b) :
    Dict.get? (validate extracts alternatives [v, w]) key ≠ some a := by
  have hall : ∀ u ∈ [v, w], Dict.WF (u (evaluated extracts alternatives)) := by
    intro u hu
    simp only [List.mem_cons, List.not_mem_nil, or_false] at hu
    rcases hu with rfl | rfl
    · exact hv
    · exact hw
  have := (C169_validated extracts alternatives ha [v, w] hall key b).2 ⟨[v], w, [], rfl, h2, by simp⟩
  rw [this]
  intro h
  exact hab (Option.some.inj h).symm

example : (("a" : String), 4) ∈ (fun d : Dict String ℕ => d) (evaluated 3 [("a", (· + 1)), ("b", (· * 2))]) := by decide

end SpecRepresentations
end TFMA
