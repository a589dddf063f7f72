import Verif.Model.BulkInference
import Verif.Py.DictLemmas
import Mathlib.Tactic.Common
import Mathlib.Data.List.Forall2
import Mathlib.Data.List.Infix

/-!
# C135: predictions by bulk inference
-/

namespace TFMA
namespace BulkInference

open Extracts (Leaf)

/-! ### specification -/

/-- The serialized example of an extract: its input, an array of no dimension. -/
def InputIs (e : Ext) (b : String) : Prop := (Tree.node e).at? ["input"] = some (.leaf (.nd [] [.bytes b]))

/-- What the prediction log of one example stands for. -/
inductive Means : Log → Tree (Leaf Cell) → Prop
  /-- a classification: labels and scores side by side -/
  | classify (cs : List (String × ℚ)) (t : Tree (Leaf Cell)) :
      t.at? ["classes"] = some (.leaf (.nd [cs.length] (cs.map fun c => .text c.1))) →
      t.at? ["scores"] = some (.leaf (.nd [cs.length] (cs.map fun c => .num c.2))) →
      (∀ k p, k ≠ "classes" → k ≠ "scores" → t.at? (k :: p) = none) → Means (.classify [cs]) t
  | regress (vs : List ℚ) : Means (.regress vs) (.leaf (.nd [vs.length] (vs.map .num)))
  /-- one output: itself, without the dimension of the batch -/
  | single (k : String) (s : List ℕ) (d : List ℚ) :
      Means (.predict [(k, 1 :: s, d)]) (.leaf (.nd s (d.map .num)))
  /-- several outputs (or none): each under its name -/
  | several (outputs : Dict String (List ℕ × List ℚ)) (t : Tree (Leaf Cell)) : outputs.length ≠ 1 →
      (∃ f, t = .node f) →
      (∀ k x, Dict.get? outputs k = some x → ∃ s, x.1 = 1 :: s ∧ t.at? [k] = some (.leaf (.nd s (x.2.map .num)))) →
      (∀ k, Dict.get? outputs k = none → t.at? [k] = none) → Means (.predict outputs) t

/-- `m` is the model of the spec: the one of its name, or the only one there is if it has no name. -/
def ModelOf (models : List (String × Shared)) (s : Spec) (m : Shared) : Prop :=
  (s.name, m) ∈ models ∨ (models = [("", m)])

/-- The signature called: the one configured, else "predict" if the model has it, else "serving_default". -/
def SignatureOf (s : Spec) (m : Shared) (sig : String) : Prop :=
  (s.signatureName ≠ "" ∧ sig = s.signatureName) ∨
  (s.signatureName = "" ∧ (∃ g ∈ m.graphs, "predict" ∈ Dict.keys g) ∧ sig = "predict") ∨
  (s.signatureName = "" ∧ (∀ g ∈ m.graphs, "predict" ∉ Dict.keys g) ∧ sig = "serving_default")

/-- `v` is the prediction of the model of the spec for the serialized example `b`. -/
def PredictionFor (predict : String → String → String → Log) (models : List (String × Shared)) (s : Spec) (b : String)
    (v : Tree (Leaf Cell)) : Prop :=
  ∃ m sig, ModelOf models s m ∧ SignatureOf s m sig ∧ Means (predict m.path sig b) v

/-- The extracts `t` are those of `e` with the predictions for its own input. -/
def Predicted (predict : String → String → String → Log) (models : List (String × Shared)) (specs : List Spec)
    (path : List String) (e : Ext) (t : Tree (Leaf Cell)) : Prop :=
  ∃ b, InputIs e b ∧
    (∀ s, specs = [s] → ∃ v, PredictionFor predict models s b v ∧ t.at? path = some v) ∧
    (2 ≤ specs.length → ∀ s ∈ specs, ∃ v, PredictionFor predict models s b v ∧ t.at? (path ++ [s.name]) = some v) ∧
    (2 ≤ specs.length → ∀ k, (∀ s ∈ specs, s.name ≠ k) → t.at? (path ++ [k]) = none) ∧
    ∀ q, ¬ path <+: q → ¬ q <+: path → t.at? q = (Tree.node e).at? q

/-! ### lemmas -/

theorem at?_append (t : Tree (Leaf Cell)) (p q : Path) : t.at? (p ++ q) = (t.at? p).bind fun u => u.at? q := by
  induction p generalizing t with
  | nil => cases t <;> rfl
  | cons k p ih =>
    cases t with
    | leaf a => rfl
    | node f =>
      simp only [List.cons_append, Tree.at?]
      cases f.find? k with
      | none => rfl
      | some u => exact ih u

theorem copyAndSet_at (t : Tree (Leaf Cell)) (p : Path) (v t' : Tree (Leaf Cell)) (h : copyAndSet t p v = .ok t') :
    t'.at? p = some v := by
  induction p generalizing t t' with
  | nil => cases t <;> simp [copyAndSet] at h
  | cons k p ih =>
    cases t with
    | leaf a => simp [copyAndSet] at h
    | node f =>
      cases p with
      | nil =>
        simp only [copyAndSet, Except.ok.injEq] at h
        subst h
        simp [Tree.at?, Forest.find?_set]
      | cons k' p =>
        simp only [copyAndSet] at h
        split at h
        · cases h
        · rename_i t1 ht1
          simp only [Except.ok.injEq] at h
          subst h
          have := ih _ _ ht1
          simp only [Tree.at?, Forest.find?_set, if_true]
          exact this

theorem copyAndSet_other (t : Tree (Leaf Cell)) (p : Path) (v t' : Tree (Leaf Cell)) (h : copyAndSet t p v = .ok t')
    (q : Path) (hpq : ¬ p <+: q) (hqp : ¬ q <+: p) : t'.at? q = t.at? q := by
  induction p generalizing t t' q with
  | nil => simp at hpq
  | cons k p ih =>
    cases q with
    | nil => simp at hqp
    | cons k1 q =>
      cases t with
      | leaf a => simp [copyAndSet] at h
      | node f =>
        by_cases hk : k = k1
        · subst hk
          have hpq' : ¬ p <+: q := fun hh => hpq (List.cons_prefix_cons.mpr ⟨rfl, hh⟩)
          have hqp' : ¬ q <+: p := fun hh => hqp (List.cons_prefix_cons.mpr ⟨rfl, hh⟩)
          cases p with
          | nil => simp at hpq'
          | cons k' p =>
            cases q with
            | nil => simp at hqp'
            | cons q1 q2 =>
              simp only [copyAndSet] at h
              split at h
              · cases h
              · rename_i t1 ht1
                simp only [Except.ok.injEq] at h
                subst h
                have := ih _ _ ht1 (q1 :: q2) hpq' hqp'
                simp only [Tree.at?, Forest.find?_set, if_true]
                rw [this]
                cases hf : f.find? k with
                | none => simp [Tree.at?, Forest.find?]
                | some u => simp
        · cases p with
          | nil =>
            simp only [copyAndSet, Except.ok.injEq] at h
            subst h
            simp [Tree.at?, Forest.find?_set, Ne.symm hk, hk]
          | cons k' p =>
            simp only [copyAndSet] at h
            split at h
            · cases h
            · simp only [Except.ok.injEq] at h
              subst h
              simp [Tree.at?, Forest.find?_set, Ne.symm hk, hk]

/-- both loops that fill a dictionary. -/
def setAll {V : Type} (g : V → Except Err (Tree (Leaf Cell))) :
    Dict String V → Forest (Leaf Cell) → Except Err (Forest (Leaf Cell))
  | [], acc => .ok acc
  | (k, x) :: rest, acc => match g x with
    | .error e => .error e
    | .ok v => setAll g rest (acc.set k v)

theorem squeezeAll_eq (d : Dict String (List ℕ × List ℚ)) (acc : Forest (Leaf Cell)) :
    squeezeAll d acc = setAll squeeze0 d acc := by
  induction d generalizing acc with
  | nil => rfl
  | cons p d ih =>
    obtain ⟨k, x⟩ := p
    simp only [squeezeAll, setAll]
    cases squeeze0 x with
    | error e => rfl
    | ok v => exact ih _

theorem parseAll_eq (d : Dict String Log) (acc : Forest (Leaf Cell)) : parseAll d acc = setAll parseLog d acc := by
  induction d generalizing acc with
  | nil => rfl
  | cons p d ih =>
    obtain ⟨k, x⟩ := p
    simp only [parseAll, setAll]
    cases parseLog x with
    | error e => rfl
    | ok v => exact ih _

theorem setAll_spec {V : Type} (g : V → Except Err (Tree (Leaf Cell))) (d : Dict String V) (hd : Dict.WF d)
    (acc f : Forest (Leaf Cell)) (h : setAll g d acc = .ok f) (k : String) :
    match Dict.get? d k with
    | some x => ∃ v, g x = .ok v ∧ f.find? k = some v
    | none => f.find? k = acc.find? k := by
  induction d generalizing acc with
  | nil => simp only [setAll, Except.ok.injEq] at h; rw [h]; rfl
  | cons p d ih =>
    obtain ⟨n, x⟩ := p
    have hnot : n ∉ Dict.keys d := (List.nodup_cons.1 hd).1
    simp only [setAll] at h
    cases hg : g x with
    | error e => rw [hg] at h; cases h
    | ok v =>
      simp only [hg] at h
      have := ih (List.nodup_cons.1 hd).2 _ h
      rw [Dict.get?_cons]
      by_cases hk : n = k
      · subst hk
        rw [(Dict.get?_eq_none_iff d n).2 hnot] at this
        rw [if_pos rfl]
        exact ⟨v, hg, by rw [this, Forest.find?_set, if_pos rfl]⟩
      · rw [if_neg hk]
        rw [Forest.find?_set, if_neg (by first | exact hk | exact Ne.symm hk)] at this
        exact this

/-- a dictionary is unwrapped exactly if it has one entry. -/
theorem setAll_single {V : Type} (g : V → Except Err (Tree (Leaf Cell))) (k : String) (x : V) (f : Forest (Leaf Cell))
    (h : setAll g [(k, x)] .nil = .ok f) : g x = .ok (unwrap f) := by
  simp only [setAll] at h
  cases hg : g x with
  | error e => rw [hg] at h; cases h
  | ok v =>
    simp only [hg, Except.ok.injEq] at h
    subst h
    rfl

theorem keys_set_length (f : Forest (Leaf Cell)) (k : String) (v : Tree (Leaf Cell)) (hk : k ∉ f.keys) :
    (f.set k v).keys = f.keys ++ [k] := by
  induction f using Forest.rec (motive_1 := fun _ => True) with
  | leaf => trivial
  | node => trivial
  | nil => rfl
  | cons k' t rest _ ih =>
    simp only [Forest.keys, List.mem_cons, not_or] at hk
    simp only [Forest.set]
    rw [if_neg (Ne.symm hk.1)]
    simp [Forest.keys, ih hk.2]

theorem setAll_keys {V : Type} (g : V → Except Err (Tree (Leaf Cell))) (d : Dict String V) (hd : Dict.WF d)
    (acc f : Forest (Leaf Cell)) (hdis : ∀ k ∈ Dict.keys d, k ∉ acc.keys) (h : setAll g d acc = .ok f) :
    f.keys = acc.keys ++ Dict.keys d := by
  induction d generalizing acc with
  | nil => simp only [setAll, Except.ok.injEq] at h; rw [h]; simp [Dict.keys]
  | cons p d ih =>
    obtain ⟨n, x⟩ := p
    have hnot : n ∉ Dict.keys d := (List.nodup_cons.1 hd).1
    simp only [setAll] at h
    cases hg : g x with
    | error e => rw [hg] at h; cases h
    | ok v =>
      simp only [hg] at h
      have hn : n ∉ acc.keys := hdis n (by simp [Dict.keys])
      rw [ih (List.nodup_cons.1 hd).2 _ ?_ h, keys_set_length _ _ _ hn]
      · simp [Dict.keys]
      · intro k hk
        rw [keys_set_length _ _ _ hn]
        simp only [List.mem_append, List.mem_singleton, not_or]
        refine ⟨hdis k (by simp only [Dict.keys, List.map_cons, List.mem_cons]; exact Or.inr hk), ?_⟩
        rintro rfl; exact hnot hk

theorem unwrap_node (f : Forest (Leaf Cell)) (h : f.keys.length ≠ 1) : unwrap f = .node f := by
  cases f with
  | nil => rfl
  | cons k t rest =>
    cases rest with
    | nil => simp [Forest.keys] at h
    | cons _ _ _ => rfl

theorem setAll_several {V : Type} (g : V → Except Err (Tree (Leaf Cell))) (d : Dict String V) (hd : Dict.WF d)
    (f : Forest (Leaf Cell)) (h : setAll g d .nil = .ok f) (hl : d.length ≠ 1) : unwrap f = .node f := by
  apply unwrap_node
  rw [setAll_keys g d hd .nil f (by simp [Forest.keys]) h]
  simpa [Forest.keys, Dict.keys] using hl

theorem foldl_set {V W : Type} (f : V → W) (l : List (String × V)) (acc : Dict String W)
    (hn : (Dict.keys acc ++ l.map Prod.fst).Nodup) :
    l.foldl (fun d x => Dict.set d x.1 (f x.2)) acc = acc ++ l.map fun x => (x.1, f x.2) := by
  induction l generalizing acc with
  | nil => simp
  | cons x l ih =>
    have hx : x.1 ∉ Dict.keys acc := by
      intro hx
      rw [List.nodup_append] at hn
      exact hn.2.2 _ hx _ (by simp) rfl
    have hset : ∀ (d : Dict String W), x.1 ∉ Dict.keys d → Dict.set d x.1 (f x.2) = d ++ [(x.1, f x.2)] := by
      intro d
      induction d with
      | nil => intro _; rfl
      | cons p d ihd =>
        intro hd
        obtain ⟨k, w⟩ := p
        simp only [Dict.keys, List.map_cons, List.mem_cons, not_or] at hd
        simp only [Dict.set]
        rw [if_neg (Ne.symm hd.1), ihd hd.2]
        rfl
    rw [List.foldl_cons, hset acc hx, ih]
    · simp
    · have e : Dict.keys (acc ++ [(x.1, f x.2)]) ++ l.map Prod.fst = Dict.keys acc ++ (x :: l).map Prod.fst := by
        simp [Dict.keys]
      rw [e]; exact hn

theorem byName_eq (models : List (String × Shared)) (hn : (models.map Prod.fst).Nodup) : byName models = models := by
  have := foldl_set id models [] (by simpa [Dict.keys] using hn)
  simpa [byName] using this

theorem logsOf_eq (predict : String → String → String → Log) (is : List (String × String × String))
    (hn : (is.map Prod.fst).Nodup) (b : String) :
    logsOf predict is b = is.map fun i => (i.1, predict i.2.1 i.2.2 b) := by
  have := foldl_set (fun i : String × String => predict i.1 i.2 b) is [] (by simpa [Dict.keys] using hn)
  simpa [logsOf] using this

theorem sharedFor_ok (models : List (String × Shared)) (hn : (models.map Prod.fst).Nodup) (s : Spec) (m : Shared)
    (h : sharedFor s.name models = .ok m) : ModelOf models s m := by
  unfold sharedFor at h
  cases hg : Dict.get? models s.name with
  | some m' =>
    simp only [hg, Except.ok.injEq] at h
    subst h
    exact Or.inl (Dict.mem_of_get? hg)
  | none =>
    simp only [hg] at h
    split at h
    · obtain rfl := Except.ok.inj h; exact Or.inr rfl
    · cases h

theorem defaultSignature_spec (s : Spec) (m : Shared) (h : s.signatureName = "") :
    SignatureOf s m (defaultSignature m.graphs) := by
  unfold defaultSignature
  by_cases hp : m.graphs.any (fun g => Dict.has g "predict")
  · rw [if_pos hp]
    rw [List.any_eq_true] at hp
    obtain ⟨g, hg, hh⟩ := hp
    exact Or.inr (Or.inl ⟨h, ⟨g, hg, (Dict.has_iff g _).1 hh⟩, rfl⟩)
  · rw [if_neg hp]
    refine Or.inr (Or.inr ⟨h, fun g hg hk => hp ?_, rfl⟩)
    rw [List.any_eq_true]
    exact ⟨g, hg, (Dict.has_iff g _).2 hk⟩

theorem specs_ok (models : List (String × Shared)) (hn : (models.map Prod.fst).Nodup) (specs ss : List Spec)
    (is : List (String × String × String)) (h1 : withSignatures models specs = .ok ss)
    (h2 : inferenceSpecs models ss = .ok is) :
    List.Forall₂ (fun s i => i.1 = s.name ∧ ∃ m, ModelOf models s m ∧ i.2.1 = m.path ∧ SignatureOf s m i.2.2) specs is := by
  induction specs generalizing ss is with
  | nil =>
    obtain rfl := Except.ok.inj h1
    obtain rfl := Except.ok.inj h2
    exact .nil
  | cons s specs ih =>
    unfold withSignatures at h1
    by_cases hs : s.signatureName = ""
    · rw [if_pos hs] at h1
      cases hm : sharedFor s.name models with
      | error e => rw [hm] at h1; cases h1
      | ok m =>
        simp only [hm] at h1
        cases hw : withSignatures models specs with
        | error e => rw [hw] at h1; cases h1
        | ok ss' =>
          simp only [hw, Except.ok.injEq] at h1
          subst h1
          unfold inferenceSpecs at h2
          simp only [hm] at h2
          cases hi : inferenceSpecs models ss' with
          | error e => rw [hi] at h2; cases h2
          | ok is' =>
            simp only [hi, Except.ok.injEq] at h2
            subst h2
            exact .cons ⟨rfl, m, sharedFor_ok models hn s m hm, rfl, defaultSignature_spec s m hs⟩ (ih ss' is' hw hi)
    · rw [if_neg hs] at h1
      cases hw : withSignatures models specs with
      | error e => rw [hw] at h1; cases h1
      | ok ss' =>
        simp only [hw, Except.ok.injEq] at h1
        subst h1
        unfold inferenceSpecs at h2
        cases hm : sharedFor s.name models with
        | error e => rw [hm] at h2; cases h2
        | ok m =>
          simp only [hm] at h2
          cases hi : inferenceSpecs models ss' with
          | error e => rw [hi] at h2; cases h2
          | ok is' =>
            simp only [hi, Except.ok.injEq] at h2
            subst h2
            exact .cons ⟨rfl, m, sharedFor_ok models hn s m hm, rfl, Or.inl ⟨hs, rfl⟩⟩ (ih ss' is' hw hi)

theorem modelInput_ok (e : Ext) (b : String) (h : modelInput e = .ok b) : InputIs e b := by
  unfold modelInput at h
  unfold InputIs
  simp only [Tree.at?]
  split at h
  · cases h
  · cases h
  · cases h
  · cases h
  · cases h
  · cases h
  · rename_i hf
    obtain rfl := Except.ok.inj h
    rw [hf]
  · cases h

/-! ### theorems -/

/-- **C135** (prediction logs): the prediction log of an example is read as what it means: labels and scores of a
classification, the values of a regression, the only output of a prediction or all of them by name. -/
theorem C135_logs (l : Log) (v : Tree (Leaf Cell)) (hwf : ∀ o, l = .predict o → Dict.WF o) (h : parseLog l = .ok v) :
    Means l v := by
  cases l with
  | classify cs =>
    match cs, h with
    | [], h => cases h
    | [c], h =>
      obtain rfl := Except.ok.inj h
      refine .classify c _ rfl rfl ?_
      intro k p h1 h2
      simp [Tree.at?, Forest.find?, Ne.symm h1, Ne.symm h2]
    | _ :: _ :: _, h => cases h
  | regress vs => obtain rfl := Except.ok.inj h; exact .regress vs
  | predict o =>
    have hw := hwf o rfl
    simp only [parseLog, squeezeAll_eq] at h
    cases hs : setAll squeeze0 o .nil with
    | error e => rw [hs] at h; cases h
    | ok f =>
      simp only [hs, Except.ok.injEq] at h
      subst h
      by_cases hl : o.length = 1
      · obtain ⟨⟨k, s, d⟩, rfl⟩ := List.length_eq_one_iff.1 hl
        have hq := setAll_single squeeze0 k (s, d) f hs
        match s, hq with
        | 1 :: s, hq => rw [← Except.ok.inj hq]; exact .single k s d
        | [], hq => simp [squeeze0] at hq
        | 0 :: _, hq => simp [squeeze0] at hq
        | (n + 2) :: _, hq => simp [squeeze0] at hq
      · rw [setAll_several squeeze0 o hw f hs hl]
        refine .several o _ hl ⟨f, rfl⟩ ?_ ?_
        · intro k x hx
          have := setAll_spec squeeze0 o hw .nil f hs k
          rw [hx] at this
          obtain ⟨v, hv, hf⟩ := this
          obtain ⟨s, d⟩ := x
          match s, hv with
          | 1 :: s, hv =>
            refine ⟨s, rfl, ?_⟩
            simp only [Tree.at?, hf, ← Except.ok.inj hv]
          | [], hv => simp [squeeze0] at hv
          | 0 :: _, hv => simp [squeeze0] at hv
          | (n + 2) :: _, hv => simp [squeeze0] at hv
        · intro k hk
          have := setAll_spec squeeze0 o hw .nil f hs k
          rw [hk] at this
          simp [Tree.at?, this, Forest.find?]
  | multiInference => cases h
  | session => cases h
  | unset => cases h

/-- **C135** (other logs): logs of several inferences, of sessions and without content, classifications of none or
several examples, and outputs for none or several examples are refused. -/
theorem C135_logs_refused :
    parseLog .multiInference = .error .notImplementedError ∧ parseLog .unset = .error .notImplementedError ∧
    parseLog .session = .error .valueError ∧
    (∀ cs : List (List (String × ℚ)), cs.length ≠ 1 → parseLog (.classify cs) = .error .assertionError) ∧
    (∀ (o : Dict String (List ℕ × List ℚ)), (∃ k x, (k, x) ∈ o ∧ x.1.head? ≠ some 1) →
      parseLog (.predict o) = .error .valueError) := by
  refine ⟨rfl, rfl, rfl, ?_, ?_⟩
  · intro cs h
    match cs, h with
    | [], _ => rfl
    | [_], h => simp at h
    | _ :: _ :: _, _ => rfl
  · rintro o ⟨k, x, hm, hx⟩
    have key : ∀ (d : Dict String (List ℕ × List ℚ)) (acc : Forest (Leaf Cell)), (k, x) ∈ d →
        squeezeAll d acc = .error .valueError := by
      intro d
      induction d with
      | nil => intro _ h; cases h
      | cons p d ih =>
        intro acc h
        obtain ⟨k', s, v⟩ := p
        rw [List.mem_cons] at h
        simp only [squeezeAll]
        rcases h with h | h
        · simp only [Prod.mk.injEq] at h
          obtain ⟨rfl, rfl⟩ := h
          match s, hx with
          | [], _ => rfl
          | 0 :: _, _ => rfl
          | 1 :: _, hx => simp at hx
          | (n + 2) :: _, _ => rfl
        · match s with
          | [] => rfl
          | 0 :: _ => rfl
          | 1 :: _ => exact ih _ h
          | (n + 2) :: _ => rfl
    simp only [parseLog, key o .nil hm]

private theorem runRow_ok (predict : String → String → String → Log) (hp : ∀ a b c o, predict a b c = .predict o → Dict.WF o)
    (models : List (String × Shared)) (specs : List Spec) (hsn : (specs.map Spec.name).Nodup)
    (is : List (String × String × String))
    (his : List.Forall₂ (fun s i => i.1 = s.name ∧ ∃ m, ModelOf models s m ∧ i.2.1 = m.path ∧ SignatureOf s m i.2.2) specs is)
    (path : List String) (e : Ext) (t : Tree (Leaf Cell)) (h : runRow predict is path none e = .ok t) :
    Predicted predict models specs path e t := by
  have hnames : is.map Prod.fst = specs.map Spec.name := by
    clear hsn h
    induction his with
    | nil => rfl
    | cons hh _ ih => simp [hh.1, ih]
  unfold runRow at h
  cases hi : modelInput e with
  | error er => rw [hi] at h; cases h
  | ok b =>
    simp only [hi] at h
    rw [logsOf_eq predict is (by rw [hnames]; exact hsn)] at h
    unfold insertPredictions at h
    rw [parseAll_eq] at h
    cases hs : setAll parseLog (is.map fun i => (i.1, predict i.2.1 i.2.2 b)) .nil with
    | error er => rw [hs] at h; cases h
    | ok f =>
      simp only [hs] at h
      cases hc : copyAndSet (.node e) path (unwrap f) with
      | error er => rw [hc] at h; cases h
      | ok e' =>
        simp only [hc, Except.ok.injEq] at h
        subst h
        have hwf : Dict.WF (is.map fun i => (i.1, predict i.2.1 i.2.2 b)) := by
          unfold Dict.WF Dict.keys
          rw [List.map_map]
          have : (Prod.fst ∘ fun i : String × String × String => (i.1, predict i.2.1 i.2.2 b)) = Prod.fst := rfl
          rw [this, hnames]; exact hsn
        have hat := copyAndSet_at _ _ _ _ hc
        refine ⟨b, modelInput_ok e b hi, ?_, ?_, ?_, fun q h1 h2 => copyAndSet_other _ _ _ _ hc q h1 h2⟩
        · rintro s rfl
          cases his with
          | cons hh ht =>
            cases ht
            rename_i i
            obtain ⟨hin, m, hm, hpath, hsig⟩ := hh
            have := setAll_single parseLog _ _ f hs
            refine ⟨unwrap f, ⟨m, i.2.2, hm, hsig, ?_⟩, hat⟩
            rw [← hpath]
            exact C135_logs _ _ (hp _ _ _) this
        · intro hlen s hsmem
          have hl : (is.map fun i => (i.1, predict i.2.1 i.2.2 b)).length ≠ 1 := by
            rw [List.length_map, ← his.length_eq]; omega
          have hun := setAll_several parseLog _ hwf f hs hl
          have hex : ∃ i ∈ is, i.1 = s.name ∧ ∃ m, ModelOf models s m ∧ i.2.1 = m.path ∧ SignatureOf s m i.2.2 := by
            clear hs hwf hl hun hnames hsn hlen
            induction his with
            | nil => cases hsmem
            | cons hh _ ih =>
              rw [List.mem_cons] at hsmem
              rcases hsmem with rfl | hsmem
              · exact ⟨_, by simp, hh⟩
              · obtain ⟨i, hi, hrest⟩ := ih hsmem
                exact ⟨i, by simp [hi], hrest⟩
          obtain ⟨i, hi1, hin, m, hm, hpath, hsig⟩ := hex
          have hget : Dict.get? (is.map fun i => (i.1, predict i.2.1 i.2.2 b)) s.name = some (predict i.2.1 i.2.2 b) :=
            Dict.get?_of_mem hwf (by rw [List.mem_map]; exact ⟨i, hi1, by rw [hin]⟩)
          have := setAll_spec parseLog _ hwf .nil f hs s.name
          rw [hget] at this
          obtain ⟨v, hv, hf⟩ := this
          refine ⟨v, ⟨m, i.2.2, hm, hsig, ?_⟩, ?_⟩
          · rw [← hpath]; exact C135_logs _ _ (hp _ _ _) hv
          · rw [at?_append, hat, hun]
            simp [Tree.at?, hf]
        · intro hlen k hk
          have hl : (is.map fun i => (i.1, predict i.2.1 i.2.2 b)).length ≠ 1 := by
            rw [List.length_map, ← his.length_eq]; omega
          have hun := setAll_several parseLog _ hwf f hs hl
          have hget : Dict.get? (is.map fun i => (i.1, predict i.2.1 i.2.2 b)) k = none := by
            rw [Dict.get?_eq_none_iff]
            unfold Dict.keys
            rw [List.map_map]
            have : (Prod.fst ∘ fun i : String × String × String => (i.1, predict i.2.1 i.2.2 b)) = Prod.fst := rfl
            rw [this, hnames, List.mem_map]
            rintro ⟨s, hs1, hs2⟩
            exact hk s hs1 hs2
          have := setAll_spec parseLog _ hwf .nil f hs k
          rw [hget] at this
          rw [at?_append, hat, hun]
          simp [Tree.at?, this, Forest.find?]

/-- **C135** (own predictions): every example of every batch comes out once, in order, with the predictions every model
makes for the serialized example it holds itself: as they are for one model, by model name for several; the rest of its
extracts is unchanged. -/
theorem C135_predictions (predict : String → String → String → Log)
    (hp : ∀ a b c o, predict a b c = .predict o → Dict.WF o) (models : List (String × Shared))
    (hmn : (models.map Prod.fst).Nodup) (specs : List Spec) (hsn : (specs.map Spec.name).Nodup) (path : List String)
    (batches : List Ext) (outs : List (Tree (Leaf Cell))) (h : extractor predict models specs path batches = .ok outs) :
    ∃ rowss, List.Forall₂ (fun b rows => Extracts.splitExtracts false false b = .ok rows) batches rowss ∧
      List.Forall₂ (Predicted predict models specs path) rowss.flatten outs := by
  unfold extractor at h
  split at h
  · cases h
  · rw [byName_eq models hmn] at h
    cases hw : withSignatures models specs with
    | error e => rw [hw] at h; cases h
    | ok ss =>
      simp only [hw] at h
      cases hi : inferenceSpecs models ss with
      | error e => rw [hi] at h; cases h
      | ok is =>
        simp only [hi] at h
        have his := specs_ok models hmn specs ss is hw hi
        unfold runInference at h
        cases hs : splitAll batches with
        | error e => rw [hs] at h; cases h
        | ok rows =>
          simp only [hs] at h
          have hsplit : ∀ (bs : List Ext) (rows : List Ext), splitAll bs = .ok rows → ∃ rowss,
              List.Forall₂ (fun b rows => Extracts.splitExtracts false false b = .ok rows) bs rowss ∧
              rows = rowss.flatten := by
            intro bs
            induction bs with
            | nil => intro rows h; obtain rfl := Except.ok.inj h; exact ⟨[], .nil, rfl⟩
            | cons b bs ih =>
              intro rows h
              unfold splitAll at h
              cases hb : Extracts.splitExtracts false false b with
              | error e => rw [hb] at h; cases h
              | ok r =>
                simp only [hb] at h
                cases hr : splitAll bs with
                | error e => rw [hr] at h; cases h
                | ok rest =>
                  simp only [hr, Except.ok.injEq] at h
                  obtain ⟨rowss, h1, h2⟩ := ih rest hr
                  exact ⟨r :: rowss, .cons hb h1, by rw [← h, h2]; rfl⟩
          obtain ⟨rowss, h1, rfl⟩ := hsplit batches rows hs
          refine ⟨rowss, h1, ?_⟩
          clear hs h1
          generalize rowss.flatten = rows at h
          induction rows generalizing outs with
          | nil => obtain rfl := Except.ok.inj h; exact .nil
          | cons r rows ih =>
            unfold Extracts.mapE at h
            cases hr : runRow predict is path none r with
            | error e => rw [hr] at h; cases h
            | ok t =>
              simp only [hr] at h
              cases hm : Extracts.mapE (runRow predict is path none) rows with
              | error e => rw [hm] at h; cases h
              | ok ts =>
                simp only [hm, Except.ok.injEq] at h
                subst h
                exact .cons (runRow_ok predict hp models specs hsn is his path r t hr) (ih ts hm)

/-- **C135** (inputs): an example without serialized input is refused: with ValueError if there is none or it is not
bytes, with TypeError if it is None. -/
theorem C135_input_refused (predict : String → String → String → Log) (is : List (String × String × String))
    (path : List String) (logPath : Option (List String)) (e : Ext) :
    ((Tree.node e).at? ["input"] = none → runRow predict is path logPath e = .error .valueError) ∧
    (∀ s d, (Tree.node e).at? ["input"] = some (.leaf (.nd s d)) → (∀ b, (s, d) ≠ ([], [.bytes b])) →
      runRow predict is path logPath e = .error .valueError) ∧
    ((Tree.node e).at? ["input"] = some (.leaf .none) → runRow predict is path logPath e = .error .typeError) := by
  have hat : (Tree.node e).at? ["input"] = e.find? "input" := by
    simp only [Tree.at?]
    cases e.find? "input" with
    | none => rfl
    | some t => cases t <;> rfl
  rw [hat]
  refine ⟨?_, ?_, ?_⟩
  · intro h; simp only [runRow, modelInput, h]
  · intro s d h hne
    have : modelInput e = .error .valueError := by
      unfold modelInput
      rw [h]
      split
      · rfl
      · rfl
      · rename_i heq; cases heq
      · rename_i heq; cases heq
      · rename_i heq; cases heq
      · rename_i heq; cases heq
      · rename_i b heq
        simp only [Option.some.injEq, Tree.leaf.injEq, Leaf.nd.injEq] at heq
        exact absurd (by rw [heq.1, heq.2]) (hne b)
      · rfl
    simp only [runRow, this]
  · intro h; simp only [runRow, modelInput, h]

/-- **C135** (models by name): the extractor cannot be created without models, nor with a spec whose model is not there. -/
theorem C135_models (predict : String → String → String → Log) (models : List (String × Shared))
    (hmn : (models.map Prod.fst).Nodup) (specs : List Spec) (path : List String) (batches : List Ext)
    (h : models = [] ∨ ∃ s ∈ specs, ∀ m, ¬ ModelOf models s m) :
    extractor predict models specs path batches = .error .valueError := by
  unfold extractor
  rcases h with rfl | ⟨s, hs, hm⟩
  · rfl
  · split
    · rfl
    · rw [byName_eq models hmn]
      have hno : sharedFor s.name models = .error .valueError := by
        cases hsh : sharedFor s.name models with
        | ok m => exact absurd (sharedFor_ok models hmn s m hsh) (hm m)
        | error e =>
          unfold sharedFor at hsh
          split at hsh
          · cases hsh
          · split at hsh
            · cases hsh
            · rw [← Except.error.inj hsh]
      have herr : ∀ (n : String) e, sharedFor n models = .error e → e = .valueError := by
        intro n e hsh
        unfold sharedFor at hsh
        split at hsh
        · cases hsh
        · split at hsh
          · cases hsh
          · exact (Except.error.inj hsh).symm
      have herr2 : ∀ (l : List Spec) e, withSignatures models l = .error e → e = .valueError := by
        intro l
        induction l with
        | nil => intro e h; cases h
        | cons a l ih =>
          intro e h
          unfold withSignatures at h
          split at h
          · cases hsh : sharedFor a.name models with
            | error e' => simp only [hsh, Except.error.injEq] at h; rw [← h]; exact herr _ _ hsh
            | ok m =>
              simp only [hsh] at h
              cases hw : withSignatures models l with
              | error e' => simp only [hw, Except.error.injEq] at h; rw [← h]; exact ih _ hw
              | ok ss => rw [hw] at h; cases h
          · cases hw : withSignatures models l with
            | error e' => simp only [hw, Except.error.injEq] at h; rw [← h]; exact ih _ hw
            | ok ss => rw [hw] at h; cases h
      cases hw : withSignatures models specs with
      | error e => rw [herr2 _ _ hw]
      | ok ss =>
        have hmem : ∃ s' ∈ ss, s'.name = s.name := by
          clear herr2 hmn
          induction specs generalizing ss with
          | nil => cases hs
          | cons a l ih =>
            unfold withSignatures at hw
            rw [List.mem_cons] at hs
            split at hw
            · cases hsh : sharedFor a.name models with
              | error e' => rw [hsh] at hw; cases hw
              | ok m =>
                simp only [hsh] at hw
                cases hw2 : withSignatures models l with
                | error e' => rw [hw2] at hw; cases hw
                | ok ss2 =>
                  simp only [hw2, Except.ok.injEq] at hw
                  subst hw
                  rcases hs with rfl | hs
                  · exact ⟨_, List.mem_cons_self, rfl⟩
                  · obtain ⟨s', h1, h2⟩ := ih hs ss2 hw2
                    exact ⟨s', by simp [h1], h2⟩
            · cases hw2 : withSignatures models l with
              | error e' => rw [hw2] at hw; cases hw
              | ok ss2 =>
                simp only [hw2, Except.ok.injEq] at hw
                subst hw
                rcases hs with rfl | hs
                · exact ⟨_, by simp, rfl⟩
                · obtain ⟨s', h1, h2⟩ := ih hs ss2 hw2
                  exact ⟨s', by simp [h1], h2⟩
        obtain ⟨s', hs', hname⟩ := hmem
        have : inferenceSpecs models ss = .error .valueError := by
          clear hw
          induction ss with
          | nil => cases hs'
          | cons a l ih =>
            unfold inferenceSpecs
            cases hsh : sharedFor a.name models with
            | error e' => rw [herr _ _ hsh]
            | ok m =>
              rw [List.mem_cons] at hs'
              rcases hs' with rfl | hs'
              · rw [hname, hno] at hsh; cases hsh
              · simp only
                rw [ih hs']
        simp only [this]

/-- The signature takes one input of serialized examples: it is looked up in the first graph that has it. -/
def TakesExamples (m : Shared) (sig : String) : Prop :=
  ∃ pre g post k, m.graphs = pre ++ g :: post ∧ (∀ g' ∈ pre, Dict.get? g' sig = none) ∧
    Dict.get? g sig = some [(k, true)]

private theorem signatureDef_iff (sig : String) (inputs : Signature) (graphs : List (Dict String Signature)) :
    signatureDef sig graphs = .ok inputs ↔ ∃ pre g post, graphs = pre ++ g :: post ∧
      (∀ g' ∈ pre, Dict.get? g' sig = none) ∧ Dict.get? g sig = some inputs := by
  induction graphs with
  | nil => simp [signatureDef]
  | cons a l ih =>
    unfold signatureDef
    cases ha : Dict.get? a sig with
    | some x =>
      simp only [Except.ok.injEq]
      constructor
      · rintro rfl; exact ⟨[], a, l, rfl, by simp, ha⟩
      · rintro ⟨pre, g, post, he, hpre, hg⟩
        cases pre with
        | nil =>
          simp only [List.nil_append, List.cons.injEq] at he
          rw [← he.1, ha] at hg; exact Option.some.inj hg
        | cons c pre =>
          simp only [List.cons_append, List.cons.injEq] at he
          have := hpre c (by simp)
          rw [← he.1, ha] at this; cases this
    | none =>
      simp only
      rw [ih]
      constructor
      · rintro ⟨pre, g, post, rfl, hpre, hg⟩
        refine ⟨a :: pre, g, post, rfl, ?_, hg⟩
        intro g' hg'
        rw [List.mem_cons] at hg'
        rcases hg' with rfl | hg'
        · exact ha
        · exact hpre g' hg'
      · rintro ⟨pre, g, post, he, hpre, hg⟩
        cases pre with
        | nil =>
          simp only [List.nil_append, List.cons.injEq] at he
          rw [← he.1, ha] at hg; cases hg
        | cons c pre =>
          simp only [List.cons_append, List.cons.injEq] at he
          exact ⟨pre, g, post, he.2, fun g' hg' => hpre g' (by simp [hg']), hg⟩

private theorem sharedFor_of (models : List (String × Shared)) (hn : (models.map Prod.fst).Nodup) (s : Spec) (m : Shared)
    (h : ModelOf models s m) : sharedFor s.name models = .ok m := by
  unfold sharedFor
  rcases h with h | rfl
  · rw [Dict.get?_of_mem hn h]
  · rw [Dict.get?_cons]
    by_cases hs : "" = s.name
    · rw [if_pos hs]
    · rw [if_neg hs]; rfl

private theorem signature_unique (s : Spec) (m : Shared) (sig : String) (h : SignatureOf s m sig) :
    sig = if s.signatureName ≠ "" then s.signatureName else defaultSignature m.graphs := by
  rcases h with ⟨h1, h2⟩ | ⟨h1, ⟨g, hg, hk⟩, h3⟩ | ⟨h1, h2, h3⟩
  · rw [if_pos h1, h2]
  · rw [if_neg (by simpa using h1), h3, defaultSignature, if_pos]
    rw [List.any_eq_true]; exact ⟨g, hg, (Dict.has_iff g _).2 hk⟩
  · rw [if_neg (by simpa using h1), h3, defaultSignature, if_neg]
    rw [List.any_eq_true]
    rintro ⟨g, hg, hh⟩
    exact h2 g hg ((Dict.has_iff g _).1 hh)

/-- **C135** (supported configurations): a configuration is reported as fit for bulk inference exactly if all models are
of the two supported types and the model of each spec has the signature to be called, with one input of serialized
examples. -/
theorem C135_valid_config (models : List (String × Shared)) (hmn : (models.map Prod.fst).Nodup) (specs : List Spec) :
    validConfig (some models) specs = .ok true ↔
      (∀ x ∈ models, x.2.modelType = "tf_generic" ∨ x.2.modelType = "tf_estimator") ∧
      ∀ s ∈ specs, ∃ m sig, ModelOf models s m ∧ SignatureOf s m sig ∧ TakesExamples m sig := by
  unfold validConfig
  simp only
  by_cases ht : models.any (fun m => m.2.modelType ≠ "tf_generic" && m.2.modelType ≠ "tf_estimator")
  · rw [if_pos ht]
    rw [List.any_eq_true] at ht
    obtain ⟨x, hx, hxt⟩ := ht
    constructor
    · intro h; cases h
    · rintro ⟨h, _⟩
      have := h x hx
      simp only [ne_eq, decide_not, Bool.and_eq_true, Bool.not_eq_eq_eq_not, Bool.not_true, decide_eq_false_iff_not]
        at hxt
      rcases this with h1 | h1
      · exact absurd h1 hxt.1
      · exact absurd h1 hxt.2
  · rw [if_neg ht]
    have htypes : ∀ x ∈ models, x.2.modelType = "tf_generic" ∨ x.2.modelType = "tf_estimator" := by
      intro x hx
      by_contra hcon
      push Not at hcon
      apply ht
      rw [List.any_eq_true]
      exact ⟨x, hx, by simp [hcon.1, hcon.2]⟩
    rw [byName_eq models hmn]
    refine Iff.trans ?_ (Iff.symm (and_iff_right htypes))
    clear htypes ht
    induction specs with
    | nil => simp [validSpecs]
    | cons s specs ih =>
      rw [List.forall_mem_cons, ← ih, validSpecs]
      cases hm : sharedFor s.name models with
      | error e =>
        simp only [reduceCtorEq, false_iff, not_and]
        rintro ⟨m, sig, hmod, _⟩
        rw [sharedFor_of models hmn s m hmod] at hm; cases hm
      | ok m =>
        have hmod := sharedFor_ok models hmn s m hm
        have hsigOf : SignatureOf s m (if s.signatureName ≠ "" then s.signatureName else defaultSignature m.graphs) := by
          by_cases hs : s.signatureName = ""
          · rw [if_neg (by simpa using hs)]; exact defaultSignature_spec s m hs
          · rw [if_pos hs]; exact Or.inl ⟨hs, rfl⟩
        simp only
        have hone : (∃ m sig, ModelOf models s m ∧ SignatureOf s m sig ∧ TakesExamples m sig) ↔
            ∃ k, signatureDef (if s.signatureName ≠ "" then s.signatureName else defaultSignature m.graphs) m.graphs =
              .ok [(k, true)] := by
          constructor
          · rintro ⟨m', sig, h1, h2, pre, g, post, k, h3⟩
            have : m' = m := by
              have := sharedFor_of models hmn s m' h1
              rw [hm] at this; exact (Except.ok.inj this).symm
            subst this
            rw [← signature_unique s m' sig h2]
            exact ⟨k, (signatureDef_iff _ _ _).2 ⟨pre, g, post, h3⟩⟩
          · rintro ⟨k, hk⟩
            obtain ⟨pre, g, post, h3⟩ := (signatureDef_iff _ _ _).1 hk
            exact ⟨m, _, hmod, hsigOf, pre, g, post, k, h3⟩
        rw [hone]
        cases hd : signatureDef (if s.signatureName ≠ "" then s.signatureName else defaultSignature m.graphs) m.graphs with
        | error e => simp
        | ok inputs =>
          simp only [Except.ok.injEq]
          match inputs with
          | [] => simp
          | [(k, true)] => simp
          | [(k, false)] => simp
          | _ :: _ :: _ => simp

/-- **C135** (no exception): if every spec has a model, the question is answered with true or false — a missing signature,
one with several inputs, or an unsupported model type raises no exception. -/
theorem C135_valid_decides (models : List (String × Shared)) (hmn : (models.map Prod.fst).Nodup) (specs : List Spec)
    (hs : ∀ s ∈ specs, ∃ m, ModelOf models s m) : ∃ b, validConfig (some models) specs = .ok b := by
  unfold validConfig
  simp only
  by_cases ht : models.any (fun m => m.2.modelType ≠ "tf_generic" && m.2.modelType ≠ "tf_estimator")
  · exact ⟨false, by rw [if_pos ht]⟩
  · rw [if_neg ht, byName_eq models hmn]
    clear ht
    induction specs with
    | nil => exact ⟨true, rfl⟩
    | cons s rest ih =>
      obtain ⟨m, hm⟩ := hs s (by simp)
      unfold validSpecs
      rw [sharedFor_of models hmn s m hm]
      simp only
      cases signatureDef (if s.signatureName ≠ "" then s.signatureName else defaultSignature m.graphs) m.graphs with
      | error e => exact ⟨false, rfl⟩
      | ok inputs =>
        simp only
        by_cases h1 : inputs.length ≠ 1
        · exact ⟨false, by rw [if_pos h1]⟩
        · rw [if_neg h1]
          by_cases h2 : inputs.any (fun i => !i.2) = true
          · exact ⟨false, by rw [if_pos h2]⟩
          · rw [if_neg h2]
            exact ih fun x hx => hs x (by simp [hx])

/-- **C135** (no models): without models no configuration is fit. -/
theorem C135_valid_no_models (specs : List Spec) : validConfig none specs = .ok false := rfl

/-- **C135** (raw logs): where prediction logs are asked for they are stored as they are, by model name if there are
several, and the predictions are still there if neither path contains the other. -/
theorem C135_raw_logs (outputPath logPath : List String) (hl : logPath ≠ []) (e : Ext) (logs : Dict String Log)
    (hw : Dict.WF logs) (t : Tree (Leaf Cell)) (h : insertPredictions outputPath (some logPath) e logs = .ok t) :
    (∀ n l, logs = [(n, l)] → t.at? logPath = some (.leaf (.nd [] [.log l]))) ∧
    (logs.length ≠ 1 → ∀ n l, Dict.get? logs n = some l → t.at? (logPath ++ [n]) = some (.leaf (.nd [] [.log l]))) ∧
    (¬ logPath <+: outputPath → ¬ outputPath <+: logPath →
      ∃ t', insertPredictions outputPath none e logs = .ok t' ∧ t.at? outputPath = t'.at? outputPath) := by
  obtain ⟨k, ks, rfl⟩ := List.exists_cons_of_ne_nil hl
  unfold insertPredictions at h
  cases hs : parseAll logs .nil with
  | error er => rw [hs] at h; cases h
  | ok f =>
    simp only [hs] at h
    cases hc : copyAndSet (.node e) outputPath (unwrap f) with
    | error er => rw [hc] at h; cases h
    | ok e' =>
      simp only [hc] at h
      have hat := copyAndSet_at _ _ _ _ h
      refine ⟨?_, ?_, ?_⟩
      · rintro n l rfl
        rw [hat]; rfl
      · intro hlen n l hn
        have hkeys : ∀ d : Dict String Log, (logForest d).keys = Dict.keys d := by
          intro d
          induction d with
          | nil => rfl
          | cons p d ih => obtain ⟨a, b⟩ := p; simp [logForest, Forest.keys, ih, Dict.keys]
        have hfind : ∀ d : Dict String Log, Dict.get? d n = some l →
            (logForest d).find? n = some (.leaf (.nd [] [.log l])) := by
          intro d
          induction d with
          | nil => intro h; cases h
          | cons p d ih =>
            intro hh
            obtain ⟨a, b⟩ := p
            rw [Dict.get?_cons] at hh
            simp only [logForest, Forest.find?]
            by_cases hk : a = n
            · rw [if_pos hk] at hh ⊢
              rw [Option.some.inj hh]
            · rw [if_neg hk] at hh ⊢
              exact ih hh
        have hun : unwrap (logForest logs) = .node (logForest logs) := by
          apply unwrap_node
          rw [hkeys]
          simpa [Dict.keys] using hlen
        rw [at?_append, hat, hun]
        simp [Tree.at?, hfind logs hn]
      · intro h1 h2
        refine ⟨e', ?_, copyAndSet_other _ _ _ _ h _ h1 h2⟩
        simp only [insertPredictions, hs, hc]

/-- **C135** (same names): two specs of the same name leave the predictions of the second alone, as if there were one
model; hence the hypothesis of `C135_predictions` that names are distinct. -/
theorem C135_same_name (predict : String → String → String → Log) (name p₁ p₂ s₁ s₂ b : String) :
    logsOf predict [(name, p₁, s₁), (name, p₂, s₂)] b = [(name, predict p₂ s₂ b)] := by
  simp [logsOf, Dict.set]

/-! ### examples -/

private def demo : String → String → String → Log := fun path sig input =>
  .predict [("out", [1, 2], [if path = "/a" then 1 else 2, if input = "x" then 10 else if sig = "predict" then 20 else 30])]

private def models1 : List (String × Shared) :=
  [("m1", ⟨"/a", "tf_generic", [[("serving_default", [("examples", true)]), ("predict", [("examples", true)])]]⟩),
   ("m2", ⟨"/b", "tf_estimator", [[("serving_default", [("examples", true)])]]⟩)]

private def specs1 : List Spec := [⟨"m1", ""⟩, ⟨"m2", ""⟩]

private def batch1 : Ext :=
  .cons "input" (.leaf (.nd [2] [.bytes "x", .bytes "y"])) (.cons "weight" (.leaf (.nd [2] [.num 5, .num 6])) .nil)

/-- two models and a batch of two examples meet the hypotheses of `C135_predictions`; each example has its own
predictions. -/
example : ∃ o1 o2, extractor demo models1 specs1 ["predictions"] [batch1] = .ok [o1, o2] ∧
    (models1.map Prod.fst).Nodup ∧ (specs1.map Spec.name).Nodup ∧
    (∀ a b c o, demo a b c = .predict o → Dict.WF o) ∧
    o1.at? ["predictions", "m1"] = some (.leaf (.nd [2] [.num 1, .num 10])) ∧
    o1.at? ["predictions", "m2"] = some (.leaf (.nd [2] [.num 2, .num 10])) ∧
    o2.at? ["predictions", "m1"] = some (.leaf (.nd [2] [.num 1, .num 20])) ∧
    o2.at? ["predictions", "m2"] = some (.leaf (.nd [2] [.num 2, .num 30])) ∧
    o2.at? ["weight"] = some (.leaf (.nd [] [.num 6])) := by
  refine ⟨_, _, rfl, by decide, by decide, ?_, rfl, rfl, rfl, rfl, rfl⟩
  intro a b c o h
  simp only [demo, Log.predict.injEq] at h
  subst h
  simp [Dict.WF, Dict.keys]

/-- one model: its output directly. -/
example : ∃ o1 o2, extractor demo (models1.take 1) [⟨"m1", "serving_default"⟩] ["predictions"] [batch1] = .ok [o1, o2] ∧
    o2.at? ["predictions"] = some (.leaf (.nd [2] [.num 1, .num 30])) := ⟨_, _, rfl, rfl⟩

/-- a classification and several outputs for `C135_logs`; a log for `C135_logs_refused`. -/
example : (∃ v, parseLog (.classify [[("cat", 9/10), ("dog", 1/10)]]) = .ok v) ∧
    (∃ v, parseLog (.predict [("a", [1], [3]), ("b", [1, 2], [4, 5])]) = .ok v ∧
      v.at? ["b"] = some (.leaf (.nd [2] [.num 4, .num 5]))) ∧
    parseLog (.predict [("a", [2], [3, 4])]) = .error .valueError := ⟨⟨_, rfl⟩, ⟨_, rfl, rfl⟩, rfl⟩

/-- the hypotheses of `C135_models` and `C135_input_refused`. -/
example : (∃ s ∈ [(⟨"m3", ""⟩ : Spec)], ∀ m, ¬ ModelOf models1 s m) ∧
    runRow demo [("m1", "/a", "predict")] ["predictions"] none (.cons "input" (.leaf (.nd [] [.num 1])) .nil) =
      .error .valueError := by
  refine ⟨⟨_, List.mem_singleton.2 rfl, ?_⟩, rfl⟩
  rintro m (h | h)
  · simp [models1] at h
  · simp [models1] at h

/-- a configuration fit for bulk inference and one that is not (a signature with two inputs). -/
example : validConfig (some models1) specs1 = .ok true ∧
    validConfig (some [("", ⟨"/c", "tf_generic", [[("serving_default", [("a", true), ("b", true)])]]⟩)]) [⟨"m", ""⟩] =
      .ok false := ⟨rfl, rfl⟩

/-- a model without the signature asked for (`C135_valid_decides`). -/
example : validConfig (some models1) [⟨"m1", "no_such_signature"⟩] = .ok false ∧
    ∃ m, ModelOf models1 ⟨"m1", "no_such_signature"⟩ m := ⟨rfl, _, .inl (List.mem_cons_self ..)⟩

/-- logs stored under another key (`C135_raw_logs`). -/
example : ∃ t, insertPredictions ["predictions"] (some ["logs"]) .nil [("a", .regress [1]), ("b", .regress [2])] = .ok t ∧
    t.at? ["logs", "b"] = some (.leaf (.nd [] [.log (.regress [2])])) ∧
    t.at? ["predictions", "b"] = some (.leaf (.nd [1] [.num 2])) ∧
    ¬ (["logs"] : List String) <+: ["predictions"] := ⟨_, rfl, rfl, rfl, by decide⟩

end BulkInference
end TFMA
