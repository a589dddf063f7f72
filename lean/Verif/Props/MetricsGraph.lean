import Verif.Model.MetricsGraph
import Verif.Py.DictLemmas
import Mathlib.Data.List.Basic

/-!
# C167: metrics computed in a graph that is shared by threads
-/

namespace TFMA
namespace MetricsGraph

variable {V E R : Type}

/-- The examples one after the other, from the first values of the variables to the second ones. -/
inductive Serially (env : Env V E R) : List V → List E → List V → Prop where
  | nil (vs : List V) : Serially env vs [] vs
  | cons (vs vs' vs'' : List V) (e : E) (es : List E) : env.update vs [e] = (vs', none) → Serially env vs' es vs'' →
      Serially env vs (e :: es) vs''

/-- An update with several examples that succeeds is the update with one after the other. -/
def Batched (env : Env V E R) : Prop := ∀ vs es vs', env.update vs es = (vs', none) → Serially env vs es vs'

/-- The exception can be created again with a longer first argument. -/
def Copied (env : Env V E R) (e : Exc) : Prop :=
  ∃ t rest, e.args = .text t :: rest ∧ ∀ s, env.accepts e.cls (.text (t ++ s) :: rest) = true

private theorem performUpdate_none (env : Env V E R) (vs : List V) (es : List E) (vs' : List V) :
    performUpdate env vs es = (vs', none) ↔ env.update vs es = (vs', none) := by
  unfold performUpdate
  split
  · rename_i h; rw [h]
  · rename_i h
    rw [h]
    constructor <;> intro h2 <;> cases h2

private theorem serially_none (env : Env V E R) (es : List E) : ∀ vs vs', serially env vs es = (vs', none) ↔ Serially env vs es vs' := by
  induction es with
  | nil =>
    intro vs vs'
    constructor
    · intro h; cases h; exact .nil vs
    · intro h; cases h; rfl
  | cons e es ih =>
    intro vs vs'
    unfold serially
    split
    · rename_i w hw
      rw [ih]
      rw [performUpdate_none] at hw
      constructor
      · intro h; exact .cons _ _ _ _ _ hw h
      · intro h
        cases h with
        | cons _ w' _ _ _ h1 h2 =>
          rw [hw] at h1
          cases h1
          exact h2
    · rename_i w err hw
      constructor
      · intro h; cases h
      · intro h
        cases h with
        | cons _ w' _ _ _ h1 h2 =>
          rw [← performUpdate_none, hw] at h1
          cases h1

private theorem reraise_copied (env : Env V E R) (e : Exc) (m : String) (h : Copied env e) : (reraise env e m).cls = e.cls := by
  obtain ⟨t, rest, h1, h2⟩ := h
  have := h2 (" additional message: " ++ m)
  rw [← String.append_assoc] at this
  unfold reraise
  rw [h1]
  simp only [this, if_true]

/-- **C167**: the variables that are returned are those of the examples, each counted once, from the initial values; nothing of what the
graph computed before enters. -/
theorem C167_update (env : Env V E R) (hb : Batched env) (before : List V) (examples : List E) (after r : List V)
    (h : resetUpdateGet env before examples = (after, .ok r)) : Serially env env.init examples r ∧ after = r := by
  unfold resetUpdateGet resetVars at h
  split at h
  · rename_i vs hv
    cases h
    exact ⟨hb _ _ _ ((performUpdate_none _ _ _ _).1 hv), rfl⟩
  · split at h
    · split at h
      · rename_i vs' hs
        cases h
        exact ⟨(serially_none _ _ _ _).1 hs, rfl⟩
      · cases h
    · cases h

/-- **C167**: examples that can be computed one after the other are computed, even if they cannot be computed together, as long as the
failure is one of those that are tried again and the exception can be created again with a longer message. -/
theorem C167_retried (env : Env V E R) (hb : Batched env) (before : List V) (examples : List E) (r : List V)
    (hs : Serially env env.init examples r)
    (hf : ∀ vs e, env.update env.init examples = (vs, some e) → retried e.cls = true ∧ Copied env e) :
    resetUpdateGet env before examples = (r, .ok r) := by
  unfold resetUpdateGet resetVars
  cases hu : env.update env.init examples with
  | mk vs o =>
    cases o with
    | none =>
      rw [(performUpdate_none _ _ _ _).2 hu]
      have h2 := (serially_none env _ _ _).2 (hb _ _ _ hu)
      have h3 := (serially_none env _ _ _).2 hs
      rw [h2] at h3
      cases h3
      rfl
    | some e =>
      obtain ⟨hr, hc⟩ := hf vs e hu
      have hp : ∃ e', performUpdate env env.init examples = (vs, some e') ∧ retried e'.cls = true := by
        unfold performUpdate
        rw [hu]
        refine ⟨_, rfl, ?_⟩
        split
        · rw [reraise_copied env e _ hc]; exact hr
        · exact hr
      obtain ⟨e', hp, hr'⟩ := hp
      rw [hp]
      simp only [hr', if_true, (serially_none env _ _ _).2 hs]

/-- **C167** fails for exceptions that have no arguments: the exceptions of TensorFlow leave `args` empty, so that the one that is raised with
the message is a RuntimeError, which is not tried again, although the examples can be computed one after the other. -/
theorem C167_not_retried_fails (env : Env V E R) (before : List V) (examples : List E) (vs : List V) (retry : Bool)
    (hu : env.update env.init examples = (vs, some ⟨.op retry, []⟩)) :
    ∃ e, resetUpdateGet env before examples = (vs, .error e) ∧ e.cls = .runtime := by
  have hp : performUpdate env env.init examples = (vs, some (reraise env ⟨.op retry, []⟩ (env.rawInput examples))) := by
    unfold performUpdate
    rw [hu]
    rfl
  refine ⟨reraise env ⟨.op retry, []⟩ (env.rawInput examples), ?_, rfl⟩
  unfold resetUpdateGet resetVars
  rw [hp]
  rfl

/-- The call does not use what the graph holds. -/
def Closed : Op V E → Prop
  | .resetUpdateGet _ => True
  | .setAndGet _ => True
  | _ => False

private theorem step_closed (env : Env V E R) (names : List String) (op : Op V E) (hc : Closed op) (vs vs' : List V) :
    (step env names vs op).2 = (step env names vs' op).2 := by
  cases op with
  | resetUpdateGet es => rfl
  | setAndGet values =>
    by_cases h : values.length < env.init.length <;> simp only [step, setVars, h, if_true, if_false]
  | getVars => exact hc.elim
  | setVars _ => exact hc.elim
  | reset => exact hc.elim
  | getValues => exact hc.elim

/-- **C167**: in whatever order the calls of several threads get the lock, a call that computes the variables of examples, or the values
of given variables, returns what it would return if it were the only call. -/
theorem C167_any_order (env : Env V E R) (names : List String) (vars : List V) (before after : List (Op V E)) (op : Op V E)
    (hc : Closed op) : (run env names vars (before ++ op :: after))[before.length]? = (run env names env.init [op])[0]? := by
  induction before generalizing vars with
  | nil =>
    simp only [List.nil_append, run, List.length_nil, List.getElem?_cons_zero]
    rw [step_closed env names op hc vars env.init]
  | cons x xs ih =>
    simp only [List.cons_append, run, List.length_cons, List.getElem?_cons_succ]
    exact ih _

/-- **C167** fails for calls that set the variables and calls that read the values: another thread can set other variables in between. -/
theorem C167_separate_fails (env : Env V E R) (names : List String) (vars mine other : List V) (h1 : mine.length = env.init.length)
    (h2 : other.length = env.init.length) :
    run env names vars [.setVars mine, .setVars other, .getValues] =
      [.done, .done, .values (getValues env names other)] := by
  have e1 : ¬ mine.length < env.init.length := by omega
  have e2 : ¬ other.length < env.init.length := by omega
  simp only [run, step, setVars, e1, e2, if_false]
  rw [← h2, List.take_length]

private theorem set_append {W : Type} (d : Dict String W) (k : String) (v : W) (h : k ∉ d.map Prod.fst) :
    Dict.set d k v = d ++ [(k, v)] := by
  induction d with
  | nil => rfl
  | cons x xs ih =>
    have hx : ¬ x.1 = k := fun e => h (by simp [e])
    obtain ⟨a, b⟩ := x
    simp only [Dict.set, List.cons_append]
    rw [if_neg hx, ih fun e => h (by simp only [List.map_cons, List.mem_cons]; exact Or.inr e)]

private theorem update_append {W : Type} (d e : Dict String W) (h : (d.map Prod.fst ++ e.map Prod.fst).Nodup) : Dict.update d e = d ++ e := by
  induction e generalizing d with
  | nil => simp [Dict.update]
  | cons x xs ih =>
    obtain ⟨k, v⟩ := x
    have hk : k ∉ d.map Prod.fst := by
      intro hmem
      exact (List.nodup_append.1 h).2.2 k hmem k (by simp) rfl
    have := ih (d ++ [(k, v)]) (by simpa using h)
    simp only [Dict.update, List.foldl_cons] at this ⊢
    rw [set_append d k v hk, this]
    simp

/-- **C167**: variables that are set give back their values under the names of the metrics: each metric with the value of its own
operation. -/
theorem C167_values (env : Env V E R) (names : List String) (hn : names.Nodup) (vars values : List V)
    (hl : values.length = env.init.length) (hv : (env.values values).length = names.length) :
    ∃ d, (step env names vars (.setAndGet values)).2 = .values d ∧ d.map Prod.fst = names ∧ d.map Prod.snd = env.values values := by
  have e1 : ¬ values.length < env.init.length := by omega
  refine ⟨names.zip (env.values values), ?_, List.map_fst_zip (by omega), List.map_snd_zip (by omega)⟩
  simp only [step, setVars, e1, if_false]
  rw [← hl, List.take_length]
  unfold getValues
  rw [update_append]
  · rfl
  · rw [List.map_fst_zip (by omega)]
    simpa using hn

/-- **C167**: variables that were read and are set again are read again, whatever happened in between. -/
theorem C167_round_trip (env : Env V E R) (names : List String) (values vars : List V) (hl : values.length = env.init.length) :
    run env names vars [.setVars values, .getVars] = [.done, .vars values] := by
  have e1 : ¬ values.length < env.init.length := by omega
  simp only [run, step, setVars, e1, if_false]
  rw [← hl, List.take_length]

/-! ### Registration -/

/-- The registry with more metrics. -/
def extended {A : Type} (r : Registry A) (ops : Dict String (A × A)) : Registry A where
  names := r.names ++ ops.map Prod.fst
  valueOps := r.valueOps ++ ops.map fun x => x.2.1
  updateOps := r.updateOps ++ ops.map fun x => x.2.2
  grouped := r.grouped

private theorem registerLoop_ok {A : Type} (ops : Dict String (A × A)) (r : Registry A) (h : (r.names ++ ops.map Prod.fst).Nodup) :
    registerLoop ops r = (extended r ops, none) := by
  induction ops generalizing r with
  | nil => simp [registerLoop, extended]
  | cons x xs ih =>
    obtain ⟨n, a, b⟩ := x
    have hn : n ∉ r.names := by
      intro hmem
      exact (List.nodup_append.1 h).2.2 n hmem n (by simp) rfl
    have hc : r.names.contains n = false := by simpa using hn
    unfold registerLoop
    rw [hc]
    simp only [Bool.false_eq_true, if_false]
    rw [ih _ (by simpa using h)]
    simp [extended]

private theorem registerLoop_conflict {A : Type} (before after : Dict String (A × A)) (n : String) (op : A × A) (r : Registry A)
    (h : (r.names ++ before.map Prod.fst).Nodup) (hn : n ∈ r.names) :
    registerLoop (before ++ (n, op) :: after) r = (extended r before, some .valueError) := by
  induction before generalizing r with
  | nil =>
    obtain ⟨a, b⟩ := op
    have hc : r.names.contains n = true := by simpa using hn
    simp only [List.nil_append, registerLoop, hc, if_true]
    simp [extended]
  | cons x xs ih =>
    obtain ⟨m, a, b⟩ := x
    have hm : m ∉ r.names := by
      intro hmem
      exact (List.nodup_append.1 h).2.2 m hmem m (by simp) rfl
    have hc : r.names.contains m = false := by simpa using hm
    simp only [List.cons_append]
    unfold registerLoop
    rw [hc]
    simp only [Bool.false_eq_true, if_false]
    rw [ih _ (by simpa using h) (by simp [hn])]
    simp [extended]

/-- The first metric whose name is taken. -/
private theorem split_first {A : Type} (taken : List String) (ops : Dict String (A × A)) (h : ∃ x ∈ ops, x.1 ∈ taken) :
    ∃ before n op after, ops = before ++ (n, op) :: after ∧ n ∈ taken ∧ ∀ x ∈ before, x.1 ∉ taken := by
  induction ops with
  | nil => obtain ⟨x, hx, _⟩ := h; cases hx
  | cons y ys ih =>
    obtain ⟨n, op⟩ := y
    by_cases hn : n ∈ taken
    · exact ⟨[], n, op, ys, rfl, hn, by simp⟩
    · obtain ⟨x, hx, hxt⟩ := h
      rcases List.mem_cons.1 hx with rfl | hx
      · exact absurd hxt hn
      · obtain ⟨b, n', op', a, rfl, h1, h2⟩ := ih ⟨x, hx, hxt⟩
        refine ⟨(n, op) :: b, n', op', a, rfl, h1, ?_⟩
        intro z hz
        rcases List.mem_cons.1 hz with rfl | hz
        · exact hn
        · exact h2 z hz

private theorem register_ok {A : Type} (ops : Dict String (A × A)) (hw : Dict.WF ops) (r r' : Registry A) (hr : r.names.Nodup) :
    register ops r = (r', none) ↔
      (∀ x ∈ ops, x.1 ∉ r.names) ∧ r' = { extended r ops with grouped := (extended r ops).updateOps } := by
  by_cases hd : ∀ x ∈ ops, x.1 ∉ r.names
  · have hnd : (r.names ++ ops.map Prod.fst).Nodup := by
      rw [List.nodup_append]
      refine ⟨hr, hw, ?_⟩
      intro a ha b hb hab
      obtain ⟨x, hx, rfl⟩ := List.mem_map.1 hb
      exact hd x hx (hab ▸ ha)
    unfold register
    rw [registerLoop_ok ops r hnd]
    constructor
    · intro h; cases h; exact ⟨hd, rfl⟩
    · rintro ⟨_, rfl⟩; rfl
  · have hd' : ∃ x ∈ ops, x.1 ∈ r.names := by
      by_contra hno
      exact hd fun x hx hm => hno ⟨x, hx, hm⟩
    obtain ⟨b, n, op, a, rfl, h1, h2⟩ := split_first r.names ops hd'
    have hnd : (r.names ++ b.map Prod.fst).Nodup := by
      rw [List.nodup_append]
      refine ⟨hr, ?_, ?_⟩
      · have : (b.map Prod.fst ++ ((n, op) :: a).map Prod.fst).Nodup := by simpa [Dict.WF, Dict.keys] using hw
        exact (List.nodup_append.1 this).1
      · intro p hp q hq hpq
        obtain ⟨x, hx, rfl⟩ := List.mem_map.1 hq
        exact h2 x hx (hpq ▸ hp)
    unfold register
    rw [registerLoop_conflict b a n op r hnd h1]
    constructor
    · intro h; cases h
    · rintro ⟨h, _⟩
      exact absurd h1 (h (n, op) (by simp))

private theorem callbacksLoop_iff {A : Type} (added : List (Dict String (A × A))) (ops res : Dict String (A × A))
    (hw : ∀ d ∈ added, Dict.WF d) (ho : Dict.WF ops) :
    callbacksLoop added ops = .ok res ↔ ((ops ++ added.flatten).map Prod.fst).Nodup ∧ res = ops ++ added.flatten := by
  induction added generalizing ops with
  | nil =>
    simp only [callbacksLoop, List.flatten_nil, List.append_nil]
    constructor
    · intro h; cases h; exact ⟨ho, rfl⟩
    · rintro ⟨_, rfl⟩; rfl
  | cons d ds ih =>
    have hd := hw d (by simp)
    by_cases hc : (d.any fun x => Dict.has ops x.1) = true
    · simp only [callbacksLoop, hc, if_true]
      constructor
      · intro h; cases h
      · rintro ⟨hnd, _⟩
        obtain ⟨x, hx, hxo⟩ := List.any_eq_true.1 hc
        have hk := (Dict.has_iff ops x.1).1 hxo
        rw [List.map_append, List.nodup_append] at hnd
        exact absurd rfl (hnd.2.2 x.1 hk x.1 (List.mem_map.2 ⟨x, by simp [hx], rfl⟩))
    · have hdis : ∀ x ∈ d, x.1 ∉ ops.map Prod.fst := by
        intro x hx hm
        exact hc (List.any_eq_true.2 ⟨x, hx, (Dict.has_iff ops x.1).2 hm⟩)
      have hnd : (ops.map Prod.fst ++ d.map Prod.fst).Nodup := by
        rw [List.nodup_append]
        refine ⟨ho, hd, ?_⟩
        intro a ha b hb hab
        obtain ⟨x, hx, rfl⟩ := List.mem_map.1 hb
        exact hdis x hx (hab ▸ ha)
      have hc' : (d.any fun x => Dict.has ops x.1) = false := by simpa using hc
      simp only [callbacksLoop, hc', Bool.false_eq_true, if_false, update_append ops d hnd]
      rw [ih (ops ++ d) (fun e he => hw e (by simp [he])) (by simpa [Dict.WF, Dict.keys] using hnd)]
      simp only [List.flatten_cons, List.append_assoc]

/-- **C167**: metrics of callbacks are added if and only if all their names are different from each other and from those of the graph; then
the graph has exactly the metrics it had and the new ones, and all of them are updated. -/
theorem C167_registered {A : Type} (added : List (Dict String (A × A))) (hw : ∀ d ∈ added, Dict.WF d) (r r' : Registry A)
    (hr : r.names.Nodup) : registerCallbacks added r = (r', none) ↔
      (r.names ++ added.flatten.map Prod.fst).Nodup ∧
      r'.names = r.names ++ added.flatten.map Prod.fst ∧ r'.valueOps = r.valueOps ++ added.flatten.map (fun x => x.2.1) ∧
      r'.updateOps = r.updateOps ++ added.flatten.map (fun x => x.2.2) ∧ r'.grouped = r'.updateOps := by
  have hcb := fun res => callbacksLoop_iff added [] res hw Dict.WF_nil
  unfold registerCallbacks
  cases hc : callbacksLoop added [] with
  | error e =>
    constructor
    · intro h; cases h
    · rintro ⟨hnd, _⟩
      have := (hcb added.flatten).2 ⟨by simpa using (List.nodup_append.1 hnd).2.1, by simp⟩
      rw [hc] at this
      cases this
  | ok ops =>
    obtain ⟨hnd, rfl⟩ := (hcb ops).1 hc
    simp only [List.nil_append] at hnd ⊢
    rw [register_ok added.flatten hnd r r' hr]
    constructor
    · rintro ⟨hd, rfl⟩
      refine ⟨?_, rfl, rfl, rfl, rfl⟩
      rw [List.nodup_append]
      refine ⟨hr, hnd, ?_⟩
      intro a ha b hb hab
      obtain ⟨x, hx, rfl⟩ := List.mem_map.1 hb
      exact hd x hx (hab ▸ ha)
    · rintro ⟨hall, h1, h2, h3, h4⟩
      refine ⟨?_, ?_⟩
      · intro x hx hm
        exact absurd rfl ((List.nodup_append.1 hall).2.2 x.1 hm x.1 (List.mem_map.2 ⟨x, hx, rfl⟩))
      · cases r'
        simp only at h1 h2 h3 h4
        subst h1 h2 h3 h4
        rfl

/-- **C167** fails for metrics that are registered in vain: those before the one whose name is taken stay in the graph, with a value that is
reported but an update that is never run. -/
theorem C167_in_vain_fails {A : Type} (before after : Dict String (A × A)) (n : String) (op : A × A) (r : Registry A)
    (h : (r.names ++ before.map Prod.fst).Nodup) (hn : n ∈ r.names) :
    ∃ r', register (before ++ (n, op) :: after) r = (r', some .valueError) ∧ r'.names = r.names ++ before.map Prod.fst ∧
      r'.grouped = r.grouped := by
  refine ⟨extended r before, ?_, rfl, rfl⟩
  unfold register
  rw [registerLoop_conflict before after n op r h hn]

/-! ### Examples -/

/-- A count of examples that refuses batches of more than two. -/
def demo (exc : Exc) : Env ℕ ℕ ℕ where
  init := [0]
  update vs es := if es.length ≤ 2 then (vs.map (· + es.length), none) else (vs.map (· + 100), some exc)
  values vs := vs
  accepts _ args := args.length == 1
  format _ := "error"
  rawInput _ := "raw_input = "

example : resetUpdateGet (demo ⟨.value, [.text "too many"]⟩) [7] [1, 2, 3] = ([3], .ok [3]) := by decide

example : Copied (demo ⟨.value, [.text "too many"]⟩) ⟨.value, [.text "too many"]⟩ := ⟨"too many", [], rfl, fun _ => rfl⟩

example : ∃ r, resetUpdateGet (demo ⟨.op true, []⟩) [7] [1, 2, 3] = ([100], .error r) := ⟨_, rfl⟩

example : Serially (demo ⟨.op true, []⟩) [0] [1, 2, 3] [3] :=
  .cons _ [1] _ _ _ rfl (.cons _ [2] _ _ _ rfl (.cons _ [3] _ _ _ rfl (.nil _)))

example : Batched (demo ⟨.op true, []⟩) := by
  intro vs es vs' h
  have hs : ∀ es : List ℕ, ∀ vs : List ℕ, Serially (demo ⟨.op true, []⟩) vs es (vs.map (· + es.length)) := by
    intro es
    induction es with
    | nil => intro vs; simpa using Serially.nil (env := demo ⟨.op true, []⟩) vs
    | cons e es ih =>
      intro vs
      refine .cons vs (vs.map (· + 1)) _ e es rfl ?_
      have h2 := ih (vs.map (· + 1))
      simpa [List.map_map, Function.comp_def, Nat.add_comm, Nat.add_left_comm, Nat.add_assoc] using h2
  simp only [demo] at h
  split at h
  · cases h
    exact hs es vs
  · cases h

example : registerCallbacks [[("a", (1, 2))], [("b", (3, 4)), ("c", (5, 6))]] ({ names := ["z"], valueOps := [0], updateOps := [9] } : Registry ℕ) =
    ({ names := ["z", "a", "b", "c"], valueOps := [0, 1, 3, 5], updateOps := [9, 2, 4, 6], grouped := [9, 2, 4, 6] }, none) := by rfl

end MetricsGraph
end TFMA
