import Verif.Model.StandardExtracts
import Verif.Props.KeysGet
import Mathlib.Tactic.Tauto

/-!
# C129: extracts set and got by model and output name

Specification: a value is where the path extract key, model name, output name leads (`Tree.at?`).
-/

namespace TFMA
namespace StdExtracts

variable {V : Type}

/-- The path of a value: the key of the extract and the names that are given. -/
def pathOf (key : String) (model output : Option String) : Path := key :: (model.toList ++ output.toList)

/-- A name that is given is not empty. -/
def Named (n : Option String) : Prop := n ≠ some ""

private theorem truthy_eq {n : Option String} (h : Named n) : truthy n = n.toList := by
  cases n with
  | none => rfl
  | some s =>
    have : s ≠ "" := fun e => h (by rw [e])
    simp [truthy, this]

private theorem set_at (t : Val V) (p : Path) (v t' : Val V) (h : setByKeys t p v = .ok t') :
    t'.at? p = some v := by
  induction p generalizing t t' with
  | nil => simp [setByKeys] at h
  | cons k p ih =>
    cases t with
    | leaf a => simp [setByKeys] at h
    | node f =>
      cases p with
      | nil =>
        simp only [setByKeys, Except.ok.injEq] at h
        subst h
        simp [Tree.at?, Forest.find?_set]
      | cons k' p =>
        simp only [setByKeys] at h
        split at h
        · cases h
        · rename_i t1 ht1
          simp only [Except.ok.injEq] at h
          subst h
          have := ih _ _ ht1
          simp only [Tree.at?, Forest.find?_set, if_true]
          exact this

/-- the paths neither of which is a prefix of the other. -/
private theorem set_other (t : Val V) (p : Path) (v t' : Val V) (h : setByKeys t p v = .ok t') (q : Path)
    (hpq : ¬ p <+: q) (hqp : ¬ q <+: p) : t'.at? q = t.at? q := by
  induction p generalizing t t' q with
  | nil => simp at hpq
  | cons k p ih =>
    cases q with
    | nil => simp at hqp
    | cons k1 q =>
      cases t with
      | leaf a => simp [setByKeys] at h
      | node f =>
        by_cases hk : k = k1
        · subst hk
          have hpq' : ¬ p <+: q := fun hh => hpq (List.cons_prefix_cons.mpr ⟨rfl, hh⟩)
          have hqp' : ¬ q <+: p := fun hh => hqp (List.cons_prefix_cons.mpr ⟨rfl, hh⟩)
          cases p with
          | nil => simp at hpq'
          | cons k' p =>
            cases q with
            | nil => simp at hqp'
            | cons q1 q2 =>
              simp only [setByKeys] at h
              split at h
              · cases h
              · rename_i t1 ht1
                simp only [Except.ok.injEq] at h
                subst h
                have := ih _ _ ht1 (q1 :: q2) hpq' hqp'
                simp only [Tree.at?, Forest.find?_set, if_true]
                rw [this]
                unfold Forest.has
                cases hf : f.find? k with
                | none => simp [Tree.at?, Forest.find?]
                | some u => simp
        · cases p with
          | nil =>
            simp only [setByKeys, Except.ok.injEq] at h
            subst h
            simp [Tree.at?, Forest.find?_set, Ne.symm hk, hk]
          | cons k' p =>
            simp only [setByKeys] at h
            split at h
            · cases h
            · simp only [Except.ok.injEq] at h
              subst h
              simp [Tree.at?, Forest.find?_set, Ne.symm hk, hk]

private theorem getOptional_found {f : Ext V} {k : String} {t : Val V} (h : f.find? k = some t)
    (hne : t ≠ .node .nil) : getOptional f k = t := by
  unfold getOptional
  rw [h]
  cases t with
  | leaf a => rfl
  | node g => cases g with
    | nil => exact absurd rfl hne
    | cons _ _ _ => rfl

private theorem optionally_found {f : Ext V} {k : String} {t : Val V} (h : f.find? k = some t)
    (hne : t ≠ .node .nil) : optionally (.node f) k = t := by
  unfold optionally
  have : f.has k = true := by simp [Forest.has, h]
  simp only [this, Bool.or_true, if_true]
  exact getOptional_found h hne

/-- What a path leads to is what is got. -/
private theorem get_at (e : Ext V) (key : String) (model output : Option String) (v : Val V)
    (h : (Tree.node e).at? (pathOf key model output) = some v) (hv : v ≠ .node .nil) :
    getByKey e key model output = v := by
  unfold getByKey
  cases hk : e.find? key with
  | none => simp [pathOf, Tree.at?, hk] at h
  | some t =>
    simp only [pathOf, Tree.at?, hk] at h
    simp only [Option.getD_some]
    cases model with
    | none =>
      cases output with
      | none => simpa [Tree.at?] using h
      | some o =>
        cases t with
        | leaf a => simp [Tree.at?] at h
        | node f =>
          simp only [Option.toList, List.nil_append, Tree.at?] at h
          cases hf : f.find? o with
          | none => simp [hf] at h
          | some u =>
            simp only [hf, Option.some.injEq] at h
            subst h
            exact optionally_found hf hv
    | some m =>
      cases t with
      | leaf a => cases output <;> simp [Tree.at?] at h
      | node f =>
        simp only [Option.toList, List.cons_append, List.nil_append, Tree.at?] at h
        cases hf : f.find? m with
        | none => cases output <;> simp [hf] at h
        | some u =>
          simp only [hf] at h
          cases output with
          | none =>
            simp only [Tree.at?, Option.some.injEq] at h
            subst h
            exact optionally_found hf hv
          | some o =>
            cases u with
            | leaf a => simp [Tree.at?] at h
            | node g =>
              simp only [Tree.at?] at h
              cases hg : g.find? o with
              | none => simp [hg] at h
              | some w =>
                simp only [hg, Option.some.injEq] at h
                subst h
                have hgn : (Tree.node g : Val V) ≠ .node .nil := by
                  intro hh
                  cases hh
                  simp [Forest.find?] at hg
                simp only [optionally_found hf hgn]
                exact optionally_found hg hv

/-- **C129 (set, then get).** What is set for an extract, a model and an output is what is got for them, if it is no
empty dictionary. -/
theorem C129_set_get (e e' : Ext V) (key : String) (v : Val V) (model output : Option String)
    (hm : Named model) (ho : Named output) (hv : v ≠ .node .nil)
    (h : setByKey e key v model output = .ok (.node e')) : getByKey e' key model output = v := by
  unfold setByKey at h
  rw [truthy_eq hm, truthy_eq ho] at h
  exact get_at e' key model output v (set_at _ _ _ _ h) hv

/-- **C129 (nothing else changes).** What another path leads to, of another extract, another model or another output, is
got as before. -/
theorem C129_set_others (e e' : Ext V) (key : String) (v : Val V) (model output : Option String)
    (hm : Named model) (ho : Named output) (h : setByKey e key v model output = .ok (.node e'))
    (key' : String) (model' output' : Option String)
    (h1 : ¬ pathOf key model output <+: pathOf key' model' output')
    (h2 : ¬ pathOf key' model' output' <+: pathOf key model output) (u : Val V) (hu : u ≠ .node .nil)
    (hat : (Tree.node e).at? (pathOf key' model' output') = some u) :
    getByKey e key' model' output' = u ∧ getByKey e' key' model' output' = u := by
  refine ⟨get_at e key' model' output' u hat hu, ?_⟩
  unfold setByKey at h
  rw [truthy_eq hm, truthy_eq ho] at h
  apply get_at e' key' model' output' u _ hu
  rw [← hat]
  exact set_other _ _ _ _ h _ h1 h2

private theorem set_result (t : Val V) (p : Path) (v t' : Val V) (h : setByKeys t p v = .ok t') :
    ∃ f, t' = .node f := by
  cases p with
  | nil => simp [setByKeys] at h
  | cons k p =>
    cases t with
    | leaf a => simp [setByKeys] at h
    | node f =>
      cases p with
      | nil => exact ⟨_, (Except.ok.inj h).symm⟩
      | cons k' p =>
        simp only [setByKeys] at h
        split at h
        · cases h
        · exact ⟨_, (Except.ok.inj h).symm⟩

private theorem set_find_other (f f' : Ext V) (k : String) (p : Path) (v : Val V)
    (h : setByKeys (.node f) (k :: p) v = .ok (.node f')) (k' : String) (hk : k ≠ k') :
    f'.find? k' = f.find? k' := by
  cases p with
  | nil =>
    simp only [setByKeys, Except.ok.injEq, Tree.node.injEq] at h
    subst h
    simp [Forest.find?_set, hk, Ne.symm hk]
  | cons a p =>
    simp only [setByKeys] at h
    split at h
    · cases h
    · simp only [Except.ok.injEq, Tree.node.injEq] at h
      subst h
      simp [Forest.find?_set, hk, Ne.symm hk]

/-- **C129 (other extracts).** Setting labels never changes what is got for predictions, whatever names are given, and so
for any two extracts. -/
theorem C129_other_extracts (e e' : Ext V) (key : String) (v : Val V) (model output : Option String)
    (h : setByKey e key v model output = .ok (.node e')) (key' : String) (hk : key ≠ key')
    (model' output' : Option String) : getByKey e' key' model' output' = getByKey e key' model' output' := by
  unfold getByKey
  rw [set_find_other e e' key _ v h key' hk]

private theorem set_error_iff (t : Val V) (p : Path) (v : Val V) :
    (∃ er, setByKeys t p v = .error er) ↔
      p = [] ∨ ∃ q a, q <+: p ∧ q ≠ p ∧ t.at? q = some (.leaf a) := by
  induction p generalizing t with
  | nil => simp [setByKeys]
  | cons k p ih =>
    cases t with
    | leaf a =>
      simp only [setByKeys, Except.error.injEq, exists_eq', true_iff]
      exact Or.inr ⟨[], a, List.nil_prefix, by simp, rfl⟩
    | node f =>
      cases p with
      | nil =>
        simp only [setByKeys]
        constructor
        · rintro ⟨er, he⟩
          cases he
        · rintro (h | ⟨q, a, hq, hne, hat⟩)
          · cases h
          · cases q with
            | nil => simp [Tree.at?] at hat
            | cons q1 q2 =>
              obtain ⟨rfl, h2⟩ := List.cons_prefix_cons.mp hq
              have : q2 = [] := List.prefix_nil.mp h2
              subst this
              exact absurd rfl hne
      | cons k' p =>
        have ih' := ih (if f.has k then (f.find? k).getD (.leaf none) else .node .nil)
        have hl : (∃ er, setByKeys (.node f) (k :: k' :: p) v = .error er) ↔
            ∃ er, setByKeys (if f.has k then (f.find? k).getD (.leaf none) else .node .nil) (k' :: p) v
              = .error er := by
          conv_lhs => simp only [setByKeys]
          cases setByKeys (if f.has k then (f.find? k).getD (.leaf none) else .node .nil) (k' :: p) v with
          | error er => simp
          | ok t => simp
        rw [hl, ih']
        constructor
        · rintro (h | ⟨q, a, hq, hne, hat⟩)
          · cases h
          · refine Or.inr ⟨k :: q, a, List.cons_prefix_cons.mpr ⟨rfl, hq⟩, fun hh => hne (List.cons.inj hh).2, ?_⟩
            unfold Forest.has at hat
            cases hf : f.find? k with
            | none =>
              rw [hf] at hat
              simp only [Option.isSome_none, Bool.false_eq_true, if_false] at hat
              cases q with
              | nil => simp [Tree.at?] at hat
              | cons _ _ => simp [Tree.at?, Forest.find?] at hat
            | some u =>
              rw [hf] at hat
              simp only [Option.isSome_some, if_true, Option.getD_some] at hat
              simp only [Tree.at?, hf]
              exact hat
        · rintro (h | ⟨q, a, hq, hne, hat⟩)
          · cases h
          · cases q with
            | nil => simp [Tree.at?] at hat
            | cons q1 q2 =>
              obtain ⟨rfl, h2⟩ := List.cons_prefix_cons.mp hq
              refine Or.inr ⟨q2, a, h2, fun hh => hne (by rw [hh]), ?_⟩
              simp only [Tree.at?] at hat
              cases hf : f.find? q1 with
              | none => simp [hf] at hat
              | some u =>
                simp only [hf] at hat
                simpa [Forest.has, hf] using hat

private theorem set_error_kind (t : Val V) (k k' : String) (p : Path) (v : Val V) (f : Ext V) (ht : t = .node f)
    (er : Err) (h : setByKeys t (k :: k' :: p) v = .error er) : er = .runtimeError := by
  subst ht
  simp only [setByKeys] at h
  split at h
  · exact (Except.error.inj h).symm
  · cases h

/-- **C129 (when setting fails).** Setting fails, with a RuntimeError, exactly if a value that is no dictionary is already
stored at the extract itself (and a name is given) or for the model (and an output name is given): a value for a
model cannot be added to extracts that hold the value of a single model. -/
theorem C129_set_fails (e : Ext V) (key : String) (v : Val V) (model output : Option String)
    (hm : Named model) (ho : Named output) :
    (∃ er, setByKey e key v model output = .error er) ↔
      ∃ q a, q <+: pathOf key model output ∧ q ≠ pathOf key model output ∧ (Tree.node e).at? q = some (.leaf a) := by
  unfold setByKey
  rw [truthy_eq hm, truthy_eq ho]
  rw [set_error_iff]
  constructor
  · rintro (h | h)
    · cases h
    · exact h
  · exact Or.inr

/-- **C129 (which error).** The error is a RuntimeError. -/
theorem C129_set_error (e : Ext V) (key : String) (v : Val V) (model output : Option String) (er : Err)
    (h : setByKey e key v model output = .error er) : er = .runtimeError := by
  unfold setByKey at h
  cases hp : truthy model ++ truthy output with
  | nil => rw [hp] at h; simp [setByKeys] at h
  | cons a l => rw [hp] at h; exact set_error_kind _ _ _ _ _ _ rfl _ h

private theorem prefixed_nil (key : String) (f : Ext V) (acc : Ext V)
    (h : ∀ k ∈ f.keys, ∀ r, k ≠ key ++ "/" ++ r) : prefixed key acc f = acc := by
  induction f using Forest.rec (motive_1 := fun _ => True) generalizing acc with
  | leaf => trivial
  | node => trivial
  | nil => rfl
  | cons k t rest _ ih =>
    unfold prefixed
    have hs : Keys.stripPrefix? key k = none := by
      cases hs : Keys.stripPrefix? key k with
      | none => rfl
      | some r =>
        exact absurd ((Keys.stripPrefix_iff key k r).mp hs) (h k (by simp [Forest.keys]) r)
    rw [hs]
    exact ih acc (fun k' hk' => h k' (by simp [Forest.keys, hk']))

/-- **C129 (a model that is not there).** If an extract holds a dictionary without an entry for the model and without
entries whose name starts with the name of the model and a slash, what is got for that model is the whole dictionary,
with the values of all the other models: the caller is not told that the model is missing. -/
theorem C129_missing_model (e f : Ext V) (key m : String) (he : e.find? key = some (.node f))
    (h1 : m ∉ f.keys) (h2 : ∀ k ∈ f.keys, ∀ r, k ≠ m ++ "/" ++ r) :
    getByKey e key (some m) none = .node f := by
  unfold getByKey
  rw [he]
  simp only [Option.getD_some]
  unfold optionally getOptional
  have hf := (Forest.find?_eq_none_iff f m).mpr h1
  simp [hf, Forest.has, prefixed_nil m f .nil h2, notNone]

/-- **C129 (values without names).** A value that is no dictionary is the value of every model and output. -/
theorem C129_unnamed (e : Ext V) (key : String) (a : Option V) (he : e.find? key = some (.leaf a))
    (model output : Option String) : getByKey e key model output = .leaf a := by
  unfold getByKey
  rw [he]
  cases model <;> cases output <;> rfl

/-! ## Names of models and outputs -/

private theorem find_of_mem_items (f : Ext V) (hf : f.WF) (k : String) (t : Val V) (h : (k, t) ∈ f.items) :
    f.find? k = some t := by
  induction f using Forest.rec (motive_1 := fun _ => True) with
  | leaf => trivial
  | node => trivial
  | nil => simp [Forest.items] at h
  | cons k' t' rest _ ih =>
    simp only [Forest.items, List.mem_cons, Prod.mk.injEq] at h
    simp only [Forest.WF] at hf
    unfold Forest.find?
    rcases h with ⟨rfl, rfl⟩ | h
    · simp
    · have h1 := ih hf.2.2 h
      have : k' ≠ k := by
        intro hh
        subst hh
        exact hf.1 ((Forest.mem_keys_iff rest k').mpr ⟨t, h1⟩)
      simp [this, h1]

/-- the paths below a dictionary are at most as long as the depth allows. -/
private def Fits (maxDepth depth : ℕ) (p : Path) : Prop := maxDepth = 0 ∨ depth + p.length ≤ maxDepth

private theorem mem_keysF (maxDepth : ℕ) (f : Ext V) : ∀ (depth : ℕ) (_ : maxDepth = 0 ∨ depth < maxDepth)
    (_ : f.WF) (p : Path),
    p ∈ keysF maxDepth depth f ↔ p ≠ [] ∧ (∃ a, (Tree.node f).at? p = some (.leaf a)) ∧ Fits maxDepth depth p := by
  induction f using Forest.rec (motive_1 := fun t => ∀ (k : String) (depth : ℕ)
      (_ : maxDepth = 0 ∨ depth < maxDepth) (_ : t.WF) (p : Path),
      p ∈ keysT maxDepth depth k t ↔
        ∃ q, p = k :: q ∧ (∃ a, t.at? q = some (.leaf a)) ∧ Fits maxDepth depth (k :: q)) with
  | leaf a =>
    rename_i k depth hd hw p
    simp only [keysT, List.mem_singleton]
    constructor
    · rintro rfl
      refine ⟨[], rfl, ⟨_, rfl⟩, ?_⟩
      unfold Fits
      simp only [List.length_singleton]
      omega
    · rintro ⟨q, rfl, ⟨a, ha⟩, -⟩
      cases q with
      | nil => rfl
      | cons _ _ => simp [Tree.at?] at ha
  | node f ih =>
    rename_i k depth hd hw p
    simp only [keysT, List.mem_map]
    have hw' : f.WF := by simpa [Tree.WF] using hw
    constructor
    · rintro ⟨q, hq, rfl⟩
      split at hq
      · cases hq
      · rename_i hc
        have hd' : maxDepth = 0 ∨ depth + 1 < maxDepth := by omega
        obtain ⟨h1, h2, h3⟩ := (ih (depth + 1) hd' hw' q).mp hq
        refine ⟨q, rfl, h2, ?_⟩
        unfold Fits at h3 ⊢
        simp only [List.length_cons]
        omega
    · rintro ⟨q, rfl, h2, h3⟩
      refine ⟨q, ?_, rfl⟩
      have hq : q ≠ [] := by
        rintro rfl
        obtain ⟨a, ha⟩ := h2
        simp [Tree.at?] at ha
      have hlen : 0 < q.length := List.length_pos_iff.mpr hq
      unfold Fits at h3
      simp only [List.length_cons] at h3
      rw [if_neg (by omega)]
      refine (ih (depth + 1) (by omega) hw' q).mpr ⟨hq, h2, ?_⟩
      unfold Fits
      omega
  | nil =>
    intro depth hd hw p
    simp only [keysF, List.not_mem_nil, false_iff]
    rintro ⟨hp, ⟨a, ha⟩, -⟩
    cases p with
    | nil => exact hp rfl
    | cons k q => simp [Tree.at?, Forest.find?] at ha
  | cons k t rest iht ihr =>
    intro depth hd hw p
    simp only [Forest.WF] at hw
    simp only [keysF, List.mem_append]
    rw [iht k depth hd hw.2.1 p, ihr depth hd hw.2.2 p]
    cases p with
    | nil => simp
    | cons k1 q =>
      simp only [List.cons.injEq, ne_eq, reduceCtorEq, not_false_eq_true, true_and, Tree.at?, Forest.find?]
      by_cases hk : k = k1
      · subst hk
        have hn := (Forest.find?_eq_none_iff rest k).mpr hw.1
        simp only [hn, if_true]
        constructor
        · rintro (⟨q', ⟨-, rfl⟩, h2, h3⟩ | ⟨⟨a, ha⟩, -⟩)
          · exact ⟨h2, h3⟩
          · cases ha
        · rintro ⟨h2, h3⟩
          exact Or.inl ⟨q, ⟨trivial, rfl⟩, h2, h3⟩
      · simp only [hk, if_false]
        constructor
        · rintro (⟨q', ⟨h, -⟩, -⟩ | h)
          · exact absurd h.symm hk
          · exact h
        · exact Or.inr

/-- **C129 (key paths).** The key paths of a nested dictionary are the paths to the values that are no dictionaries. With a
maximal depth they are those of at most that many keys. -/
theorem C129_key_paths (f : Ext V) (hf : f.WF) (maxDepth : ℕ) (p : Path) :
    p ∈ getKeys f maxDepth 0 ↔
      p ≠ [] ∧ (∃ a, (Tree.node f).at? p = some (.leaf a)) ∧ (maxDepth = 0 ∨ p.length ≤ maxDepth) := by
  unfold getKeys
  rw [if_neg (by omega), mem_keysF maxDepth f 0 (by omega) hf p]
  unfold Fits
  simp

private theorem heads_keysF (maxDepth depth : ℕ) (f : Ext V) (p : Path) (h : p ∈ keysF maxDepth depth f) :
    ∃ k q, p = k :: q ∧ k ∈ f.keys := by
  induction f using Forest.rec (motive_1 := fun _ => True) with
  | leaf => trivial
  | node => trivial
  | nil => simp [keysF] at h
  | cons k t rest _ ih =>
    simp only [keysF, List.mem_append] at h
    rcases h with h | h
    · cases t with
      | leaf a =>
        simp only [keysT, List.mem_singleton] at h
        exact ⟨k, [], h, by simp [Forest.keys]⟩
      | node g =>
        simp only [keysT, List.mem_map] at h
        obtain ⟨q, -, rfl⟩ := h
        exact ⟨k, q, rfl, by simp [Forest.keys]⟩
    · obtain ⟨k', q, rfl, hk⟩ := ih h
      exact ⟨k', q, rfl, by simp [Forest.keys, hk]⟩

private theorem nodup_keysF (maxDepth : ℕ) (f : Ext V) : ∀ (depth : ℕ), f.WF → (keysF maxDepth depth f).Nodup := by
  induction f using Forest.rec (motive_1 := fun t => ∀ (k : String) (depth : ℕ), t.WF →
      (keysT maxDepth depth k t).Nodup) with
  | leaf a => simp [keysT]
  | node f ih =>
    rename_i k depth hw
    simp only [keysT]
    apply List.Nodup.map (fun a b h => (List.cons.inj h).2)
    split
    · simp
    · exact ih _ (by simpa [Tree.WF] using hw)
  | nil => intro depth _; simp [keysF]
  | cons k t rest iht ihr =>
    intro depth hw
    simp only [Forest.WF] at hw
    simp only [keysF]
    rw [List.nodup_append]
    refine ⟨iht k depth hw.2.1, ihr depth hw.2.2, ?_⟩
    intro a ha b hb hab
    subst hab
    obtain ⟨k', q, rfl, hk⟩ := heads_keysF _ _ _ _ hb
    have : k' = k := by
      cases t with
      | leaf _ => simp only [keysT, List.mem_singleton, List.cons.injEq] at ha; exact ha.1
      | node g =>
        simp only [keysT, List.mem_map, List.cons.injEq] at ha
        obtain ⟨_, -, h, -⟩ := ha
        exact h.symm
    subst this
    exact hw.1 hk

/-- **C129 (each path once).** -/
theorem C129_key_paths_once (f : Ext V) (hf : f.WF) (maxDepth : ℕ) : (getKeys f maxDepth 0).Nodup := by
  unfold getKeys
  split
  · simp
  · exact nodup_keysF _ _ _ hf

private theorem find_WF (e : Ext V) (he : e.WF) (k : String) (f : Ext V) (h : e.find? k = some (.node f)) : f.WF := by
  have := Forest.WF_find? he h
  simpa [Tree.WF] using this

/-- **C129 (names lead to predictions).** Every pair of a model name and an output name that is listed has predictions of
its own: what is got for the pair is a value that is no dictionary. -/
theorem C129_names_sound (e : Ext V) (he : e.WF) (specs : List String) (n : List (Option String))
    (h : n ∈ modelAndOutputNames e specs) :
    ∃ model output a, n = [model, output] ∧ getByKey e "predictions" model output = .leaf a := by
  unfold modelAndOutputNames at h
  cases hp : e.find? "predictions" with
  | none => simp [hp] at h
  | some t =>
    rw [hp] at h
    cases t with
    | leaf a =>
      simp only [List.mem_singleton] at h
      exact ⟨none, none, a, h, C129_unnamed e _ a hp none none⟩
    | node f =>
      simp only [List.mem_map] at h
      obtain ⟨p, hpk, rfl⟩ := h
      obtain ⟨h1, ⟨a, ha⟩, h3⟩ := (C129_key_paths f (find_WF e he _ f hp) 2 p).mp hpk
      match p, h1, ha, h3 with
      | [], h1, _, _ => exact absurd rfl h1
      | [k], _, ha, _ =>
        have hat : ∀ m o : Option String, m.toList ++ o.toList = [k] →
            getByKey e "predictions" m o = .leaf a := by
          intro m o hmo
          apply get_at e _ m o _ _ (by simp)
          simp only [pathOf, Tree.at?, hp, hmo]
          exact ha
        simp only [namesOf]
        generalize (if specs = [] then [""] else specs) = names
        split
        · exact ⟨some k, none, a, rfl, hat _ _ rfl⟩
        · exact ⟨none, some k, a, rfl, hat _ _ rfl⟩
      | [k, k'], _, ha, _ =>
        refine ⟨some k, some k', a, rfl, ?_⟩
        apply get_at e _ _ _ _ _ (by simp)
        simp only [pathOf, Tree.at?, hp, Option.toList, List.cons_append, List.nil_append]
        exact ha
      | k :: k' :: k'' :: q, _, _, h3 => simp at h3

/-- **C129 (names).** What is listed for predictions of several models with one output each is every model once, for one
model with several outputs every output once, for several models with several outputs every pair once; the model
names are recognised by the configuration. -/
theorem C129_names (e f : Ext V) (he : e.WF) (hp : e.find? "predictions" = some (.node f)) (specs : List String)
    (hs : specs ≠ []) (n : List (Option String)) :
    n ∈ modelAndOutputNames e specs ↔
      (∃ k a, f.find? k = some (.leaf a) ∧ k ∈ specs ∧ n = [some k, none]) ∨
      (∃ k a, f.find? k = some (.leaf a) ∧ k ∉ specs ∧ n = [none, some k]) ∨
      (∃ k g k' a, f.find? k = some (.node g) ∧ g.find? k' = some (.leaf a) ∧ n = [some k, some k']) := by
  unfold modelAndOutputNames
  rw [hp]
  simp only [hs, if_false, List.mem_map]
  have hkp := C129_key_paths f (find_WF e he _ f hp) 2
  constructor
  · rintro ⟨p, hpk, rfl⟩
    obtain ⟨h1, ⟨a, ha⟩, h3⟩ := (hkp p).mp hpk
    match p, h1, ha, h3 with
    | [], h1, _, _ => exact absurd rfl h1
    | [k], _, ha, _ =>
      simp only [Tree.at?] at ha
      cases hf : f.find? k with
      | none => simp [hf] at ha
      | some t =>
        simp only [hf, Option.some.injEq] at ha
        subst ha
        by_cases hk : k ∈ specs
        · exact Or.inl ⟨k, a, hf, hk, by simp [namesOf, hk]⟩
        · exact Or.inr (Or.inl ⟨k, a, hf, hk, by simp [namesOf, hk]⟩)
    | [k, k'], _, ha, _ =>
      simp only [Tree.at?] at ha
      cases hf : f.find? k with
      | none => simp [hf] at ha
      | some t =>
        simp only [hf] at ha
        cases t with
        | leaf b => simp [Tree.at?] at ha
        | node g =>
          simp only [Tree.at?] at ha
          cases hg : g.find? k' with
          | none => simp [hg] at ha
          | some u =>
            simp only [hg, Option.some.injEq] at ha
            subst ha
            exact Or.inr (Or.inr ⟨k, g, k', a, hf, hg, rfl⟩)
    | k :: k' :: k'' :: q, _, _, h3 => simp at h3
  · rintro (⟨k, a, hf, hk, rfl⟩ | ⟨k, a, hf, hk, rfl⟩ | ⟨k, g, k', a, hf, hg, rfl⟩)
    · exact ⟨[k], (hkp [k]).mpr ⟨by simp, ⟨a, by simp [Tree.at?, hf]⟩, by simp⟩, by simp [namesOf, hk]⟩
    · exact ⟨[k], (hkp [k]).mpr ⟨by simp, ⟨a, by simp [Tree.at?, hf]⟩, by simp⟩, by simp [namesOf, hk]⟩
    · exact ⟨[k, k'], (hkp [k, k']).mpr ⟨by simp, ⟨a, by simp [Tree.at?, hf, hg]⟩, by simp⟩, rfl⟩

/-- **C129 (names, each once).** -/
theorem C129_names_once (e : Ext V) (he : e.WF) (specs : List String) : (modelAndOutputNames e specs).Nodup := by
  unfold modelAndOutputNames
  cases hp : e.find? "predictions" with
  | none => simp
  | some t =>
    cases t with
    | leaf a => simp
    | node f =>
      simp only
      apply List.Nodup.map _ (C129_key_paths_once f (find_WF e he _ f hp) 2)
      intro p q h
      have key : ∀ p : Path, (namesOf (if specs = [] then [""] else specs) p).filterMap id = p := by
        intro p
        match p with
        | [] => rfl
        | [k] =>
          simp only [namesOf]
          generalize (if specs = [] then [""] else specs) = names
          split <;> rfl
        | k :: k' :: r =>
          unfold namesOf
          simp [List.filterMap_map]
      rw [← key p, ← key q, h]

/-- **C129 (predictions that are dictionaries, `_fails`).** The predictions of an output that are themselves a dictionary
(say probabilities and classes) are not seen: with several models and outputs nothing is listed, and with one model
the output is listed as a model. -/
theorem C129_dict_predictions_fails :
    modelAndOutputNames (V := ℕ) (.cons "predictions" (.node (.cons "m" (.node (.cons "o" (.node
      (.cons "probabilities" (.leaf (some 1)) .nil)) .nil)) .nil)) .nil) ["m", "b"] = [] ∧
    modelAndOutputNames (V := ℕ) (.cons "predictions" (.node (.cons "o" (.node
      (.cons "probabilities" (.leaf (some 1)) .nil)) .nil)) .nil) [""] = [[some "o", some "probabilities"]] := by
  decide

/-- **C129 (an output with the name of the model, `_fails`).** An output of the only model that has the name of the model is
listed as a model. -/
theorem C129_same_name_fails :
    modelAndOutputNames (V := ℕ) (.cons "predictions" (.node (.cons "a" (.leaf (some 1)) (.cons "b" (.leaf (some 2))
      .nil))) .nil) ["a"] = [[some "a", none], [none, some "b"]] := by
  decide

/-- **C129 (the empty name, `_fails`).** For setting, the empty name is no name; for getting it is a name: a value set for the
empty model name need not be the value got for it. -/
theorem C129_empty_name_fails :
    ∃ (e' : Ext ℕ) (v : Val ℕ), v ≠ .node .nil ∧
      setByKey (.nil : Ext ℕ) "labels" v (some "") none = .ok (.node e') ∧
      getByKey e' "labels" (some "") none ≠ v := by
  refine ⟨.cons "labels" (.node (.cons "" (.leaf (some 3)) .nil)) .nil, .node (.cons "" (.leaf (some 3)) .nil), ?_, ?_, ?_⟩
  · simp
  · simp [setByKey, truthy, setByKeys, Forest.set]
  · simp [getByKey, Forest.find?, optionally, getOptional, Forest.has]

/-- **C129 (metric inputs).** Metric inputs that have the labels under "label", as older callers give them, and not under
"labels", return them as labels; inputs that have "labels" ignore "label". -/
theorem C129_metric_inputs (e : Ext V) (model output : Option String) :
    getMetricInput e "labels" model output =
      (if e.has "labels" then getByKey e "labels" model output else getByKey e "label" model output) ∧
    getMetricInput e "predictions" model output =
      (if e.has "predictions" then getByKey e "predictions" model output else getByKey e "prediction" model output) := by
  have h1 : ("labels".toList.getLast? == some 's') = true := by decide
  have h2 : ("predictions".toList.getLast? == some 's') = true := by decide
  have h3 : String.ofList "labels".toList.dropLast = "label" := by decide
  have h4 : String.ofList "predictions".toList.dropLast = "prediction" := by decide
  unfold getMetricInput
  simp only [h1, h2, h3, h4, Bool.and_true]
  constructor
  · cases e.has "labels" <;> simp
  · cases e.has "predictions" <;> simp

/-! ## Concrete cases -/

private def sample : Ext ℕ :=
  .cons "labels" (.leaf (some 7)) (.cons "predictions" (.node (.cons "m" (.node (.cons "o" (.leaf (some 1)) .nil))
    .nil)) .nil)

example : ∃ e', setByKey sample "predictions" (.leaf (some 5)) (some "b") (some "o") = .ok (.node e') ∧
    getByKey e' "predictions" (some "b") (some "o") = .leaf (some 5) ∧
    getByKey e' "predictions" (some "m") (some "o") = .leaf (some 1) ∧
    modelAndOutputNames e' ["m", "b"] = [[some "m", some "o"], [some "b", some "o"]] := by
  refine ⟨_, rfl, ?_, ?_, ?_⟩
  · rfl
  · rfl
  · decide

example : setByKey sample "labels" (.leaf (some 5)) (some "b") none = .error .runtimeError := by
  simp [setByKey, sample, truthy, setByKeys, Forest.has, Forest.find?]

example : sample.WF ∧ Named (some "b") ∧ pathOf "labels" (some "b") none = ["labels", "b"] := by
  refine ⟨?_, ?_, rfl⟩
  · simp [sample, Forest.WF, Tree.WF, Forest.keys]
  · simp [Named]

end StdExtracts
end TFMA
