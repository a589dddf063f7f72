import Verif.Lemmas.Together
import Verif.Props.Slicer
import Verif.Props.Combiners

/-!
# C64, C70: metrics computed together, and end to end per slice
-/

namespace TFMA
namespace Together

open Beam Slicer

variable {E K V : Type}

/-! ### specification -/

/-- A metric computed alone: one execution of its own combiner, then its output. -/
def alone (c : Computation E K V) (s : Sched E) : Except Err (Dict K V) := do c.extract (← c.combiner.run s)

/-- All metrics of a group by the tuple combiner. -/
def together [DecidableEq K] (cs : List (Computation E K V)) (s : Sched (Prepared E)) : Except Err (Dict K V) := do
  extractOutput cs (← (tuple 0 cs).run s)

/-- The inputs a computation is entitled to for one example: the shared ones, or what its preprocessors make of the
example one after the other. -/
def entitled (std : E → Except Err (List E)) (c : Computation E K V) (e : E) : Except Err (List E) :=
  match c.prep with
  | .shared => std e
  | .own ps => ps.foldlM (fun es p => (es.mapM p).map List.flatten) [e]

/-- `d` consists of the outputs `outs` of the computations, later ones replacing earlier ones under the same key. -/
def Union [DecidableEq K] (outs : List (Dict K V)) (d : Dict K V) : Prop := d = outs.foldl Dict.update []

/-! ### preprocessing -/

theorem stepAll_eq (p : E → Except Err (List E)) (es : List E) : stepAll p es = (es.mapM p).map List.flatten := by
  induction es with
  | nil => rfl
  | cons e es ih =>
    simp only [stepAll, List.mapM_cons, ih]
    cases p e with
    | error x => rfl
    | ok l => cases es.mapM p <;> rfl

theorem chain_eq (ps : List (E → Except Err (List E))) (es : List E) :
    chain ps es = ps.foldlM (fun es p => (es.mapM p).map List.flatten) es := by
  induction ps generalizing es with
  | nil => rfl
  | cons p ps ih =>
    simp only [chain, List.foldlM_cons, stepAll_eq]
    cases (es.mapM p).map List.flatten with
    | error x => rfl
    | ok l => exact ih l

theorem combinerInputs_get (e : E) (cs : List (Computation E K V)) (l : List (Option (List E)))
    (h : combinerInputs e cs = .ok l) (i : ℕ) (c : Computation E K V) (hi : cs[i]? = some c) :
    match c.prep with
    | .shared => l[i]? = some none
    | .own ps => ∃ r, chain ps [e] = .ok r ∧ l[i]? = some (some r) := by
  induction cs generalizing l i with
  | nil => simp at hi
  | cons c' cs ih =>
    simp only [combinerInputs] at h
    cases hp : c'.prep with
    | shared =>
      rw [hp] at h
      simp only at h
      cases hr : combinerInputs e cs with
      | error x => rw [hr] at h; cases h
      | ok r =>
        rw [hr] at h; cases h
        cases i with
        | zero => simp only [List.getElem?_cons_zero, Option.some.injEq] at hi; subst hi; rw [hp]; rfl
        | succ i => simpa using ih r hr i (by simpa using hi)
    | own ps =>
      rw [hp] at h
      simp only at h
      cases hc : chain ps [e] with
      | error x => rw [hc] at h; cases h
      | ok q =>
        rw [hc] at h
        simp only at h
        cases hr : combinerInputs e cs with
        | error x => rw [hr] at h; cases h
        | ok r =>
          rw [hr] at h; cases h
          cases i with
          | zero =>
            simp only [List.getElem?_cons_zero, Option.some.injEq] at hi; subst hi; rw [hp]
            exact ⟨q, hc, rfl⟩
          | succ i => simpa using ih r hr i (by simpa using hi)

/-- **C64** (preprocessing).  Every computation finds in the prepared example exactly the inputs it is entitled to. -/
theorem C64_prepared (std : E → Except Err (List E)) (cs : List (Computation E K V)) (e : E) (p : Prepared E)
    (h : prepare std cs e = .ok p) (i : ℕ) (c : Computation E K V) (hi : cs[i]? = some c) :
    ∃ l, entitled std c e = .ok l ∧ getInput p i = some l := by
  unfold prepare at h
  cases hc : combinerInputs e cs with
  | error x => rw [hc] at h; cases h
  | ok inputs =>
    rw [hc] at h
    simp only at h
    have hg := combinerInputs_get e cs inputs hc i c hi
    unfold entitled getInput
    cases hp : c.prep with
    | shared =>
      rw [hp] at hg
      simp only at hg
      rw [if_pos] at h
      · cases hs : std e with
        | error x => rw [hs] at h; cases h
        | ok l =>
          rw [hs] at h; cases h
          exact ⟨l, rfl, by simp only [hg]⟩
      · rw [List.any_eq_true]
        exact ⟨c, List.mem_of_getElem? hi, by simp [Computation.isShared, hp]⟩
    | own ps =>
      rw [hp] at hg
      obtain ⟨r, hr, hg⟩ := hg
      rw [chain_eq] at hr
      refine ⟨r, hr, ?_⟩
      have hpi : p.inputs = inputs := by
        by_cases ha : cs.any Computation.isShared = true
        · rw [if_pos ha] at h
          cases hs : std e with
          | error x => rw [hs] at h; cases h
          | ok l => rw [hs] at h; cases h; rfl
        · rw [if_neg ha] at h; cases h; rfl
      rw [hpi, hg]

/-- **C64** (preprocessing failures).  Preparing an example fails exactly when one of the computations cannot have its inputs;
in particular the shared preprocessing cannot fail an evaluation in which no computation asks for it. -/
theorem C64_prepare_iff (std : E → Except Err (List E)) (cs : List (Computation E K V)) (e : E) :
    (∃ p, prepare std cs e = .ok p) ↔ ∀ c ∈ cs, ∃ l, entitled std c e = .ok l := by
  constructor
  · rintro ⟨p, hp⟩ c hc
    obtain ⟨i, hi⟩ := List.getElem?_of_mem hc
    obtain ⟨l, hl, _⟩ := C64_prepared std cs e p hp i c hi
    exact ⟨l, hl⟩
  · intro h
    have hin : ∃ l, combinerInputs e cs = .ok l := by
      clear * - h
      induction cs with
      | nil => exact ⟨[], rfl⟩
      | cons c cs ih =>
        obtain ⟨r, hr⟩ := ih fun d hd => h d (List.mem_cons_of_mem _ hd)
        obtain ⟨l, hl⟩ := h c (by simp)
        simp only [combinerInputs, hr]
        unfold entitled at hl
        cases hp : c.prep with
        | shared => exact ⟨_, rfl⟩
        | own ps =>
          rw [hp] at hl
          simp only at hl
          simp only [chain_eq, hl]
          exact ⟨_, rfl⟩
    obtain ⟨inputs, hin⟩ := hin
    unfold prepare
    rw [hin]
    simp only
    by_cases hs : cs.any Computation.isShared = true
    · rw [if_pos hs]
      obtain ⟨c, hc, hcs⟩ := List.any_eq_true.1 hs
      have hp : c.prep = .shared := by
        unfold Computation.isShared at hcs
        cases hp : c.prep with
        | shared => rfl
        | own ps => rw [hp] at hcs; cases hcs
      obtain ⟨l, hl⟩ := h c hc
      unfold entitled at hl
      rw [hp] at hl
      simp only at hl
      rw [hl]
      exact ⟨_, rfl⟩
    · rw [if_neg hs]
      exact ⟨_, rfl⟩

/-! ### the tuple combiner -/

theorem extractLoop_ok [DecidableEq K] (cs : List (Computation E K V)) (result d : Dict K V) (f : ℕ → Prepared E → List E)
    (s : Sched (Prepared E)) (i : ℕ) (hs : ∀ p ∈ s.inputs, ∀ j < cs.length, getInput p (i + j) = some (f (i + j) p)) :
    (∃ as, (tuple i cs).run s = .ok as ∧ extractLoop cs result as = .ok d) ↔
      ∃ outs : List (Dict K V), outs.length = cs.length ∧
        (∀ (j : ℕ) (c : Computation E K V) (o : Dict K V), cs[j]? = some c → outs[j]? = some o →
          alone c (s.expand (f (i + j))) = .ok o) ∧ d = outs.foldl Dict.update result := by
  induction cs generalizing i result with
  | nil =>
    constructor
    · rintro ⟨as, _, h⟩
      simp only [extractLoop, Except.ok.injEq] at h
      exact ⟨[], rfl, by simp, by simp [h]⟩
    · rintro ⟨outs, h1, _, h3⟩
      have : outs = [] := by simpa using h1
      subst this
      have hrun : ∃ as, (tuple i ([] : List (Computation E K V))).run s = .ok as := run_unit i s
      obtain ⟨as, has⟩ := hrun
      exact ⟨as, has, by simp [extractLoop, h3]⟩
  | cons c cs ih =>
    have hside := tuple_side (f i) i c cs
    have hS : ∀ p ∈ s.inputs, getInput p i = some (f i p) := fun p hp => by simpa using hs p hp 0 (by simp)
    have hs' : ∀ p ∈ s.inputs, ∀ j < cs.length, getInput p (i + 1 + j) = some (f (i + 1 + j) p) := by
      intro p hp j hj
      have := hs p hp (j + 1) (by simp only [List.length_cons]; omega)
      rwa [show i + 1 + j = i + (j + 1) by omega]
    constructor
    · rintro ⟨⟨a, as⟩, h1, h2⟩
      obtain ⟨h3, h4⟩ := (hside.run s (a, as) hS).1 h1
      simp only [extractLoop] at h2
      cases he : c.extract a with
      | error x => rw [he] at h2; cases h2
      | ok o =>
        rw [he] at h2
        obtain ⟨outs, g1, g2, g3⟩ := (ih (Dict.update result o) (i + 1) hs').1 ⟨as, h4, h2⟩
        refine ⟨o :: outs, by simp [g1], ?_, by simpa using g3⟩
        intro j c' o' hj ho
        cases j with
        | zero =>
          simp only [List.getElem?_cons_zero, Option.some.injEq] at hj ho
          subst hj; subst ho
          simp only [id] at h3
          unfold alone
          rw [Nat.add_zero, h3]; exact he
        | succ j =>
          have := g2 j c' o' (by simpa using hj) (by simpa using ho)
          rwa [show i + (j + 1) = i + 1 + j by omega]
    · rintro ⟨outs, g1, g2, g3⟩
      cases outs with
      | nil => simp at g1
      | cons o outs =>
        have h0 := g2 0 c o rfl rfl
        unfold alone at h0
        rw [Nat.add_zero] at h0
        cases hr : c.combiner.run (s.expand (f i)) with
        | error x => rw [hr] at h0; cases h0
        | ok a =>
          rw [hr] at h0
          obtain ⟨as, h4, h2⟩ := (ih (Dict.update result o) (i + 1) hs').2 ⟨outs, by simpa using g1, by
            intro j c' o' hj ho
            have := g2 (j + 1) c' o' (by simpa using hj) (by simpa using ho)
            rwa [show i + (j + 1) = i + 1 + j by omega] at this, by simpa using g3⟩
          refine ⟨(a, as), (hside.run s (a, as) hS).2 ⟨hr, h4⟩, ?_⟩
          have he : c.extract a = .ok o := h0
          simp only [extractLoop, he]
          exact h2

/-- **C64.**  For every execution `s` over prepared examples (`inputs j p` are the inputs of computation `j` in
example `p`, see `C64_prepared`): the tuple combiner yields `d` exactly if every computation, run alone over its own
inputs in the same execution, yields an output, and `d` is the union of these outputs. -/
theorem C64_together [DecidableEq K] (cs : List (Computation E K V)) (inputs : ℕ → Prepared E → List E)
    (s : Sched (Prepared E)) (hs : ∀ p ∈ s.inputs, ∀ j < cs.length, getInput p j = some (inputs j p)) (d : Dict K V) :
    together cs s = .ok d ↔
      ∃ outs : List (Dict K V), outs.length = cs.length ∧
        (∀ (j : ℕ) (c : Computation E K V) (o : Dict K V), cs[j]? = some c → outs[j]? = some o →
          alone c (s.expand (inputs j)) = .ok o) ∧ Union outs d := by
  have := extractLoop_ok cs [] d inputs s 0 (by simpa using hs)
  simp only [Nat.zero_add] at this
  unfold Union together extractOutput
  rw [← this]
  cases (tuple 0 cs).run s with
  | error e => simp [bind, Except.bind]
  | ok as => simp [bind, Except.bind]

/-- **C64** (failures).  Whatever goes wrong while an example is added is raised as RuntimeError. -/
theorem C64_add_error (i : ℕ) (cs : List (Computation E K V)) (as : Accs cs) (p : Prepared E) (e : Err)
    (h : (tuple i cs).addInput as p = .error e) : e = .runtimeError := by
  change addAccs p i cs as = .error e at h
  induction cs generalizing i with
  | nil => simp [addAccs] at h
  | cons c cs ih =>
    obtain ⟨a, as⟩ := as
    simp only [addAccs] at h
    cases hg : getInput p i with
    | none => rw [hg] at h; cases h; rfl
    | some l =>
      rw [hg] at h
      simp only at h
      cases ha : c.combiner.addAll a l with
      | error x => rw [ha] at h; cases h; rfl
      | ok a' =>
        rw [ha] at h
        simp only at h
        cases hb : addAccs p (i + 1) cs as with
        | error x => rw [hb] at h; cases h; exact ih (i + 1) as hb
        | ok as' => rw [hb] at h; cases h

/-! ### end to end -/

/-- The output of the metric does not depend on the execution nor on the order of the inputs (C15 proves this of the
combiners it covers). -/
def Stable (c : Computation E K V) : Prop :=
  ∀ s s' o, s.inputs.Perm s'.inputs → alone c s = .ok o → alone c s' = .ok o

/-- Slice keys that python considers equal are identical: no feature holds the int 1 in one example and the float 1.0 in
another.  (Beam groups by the encoded key, which distinguishes the two.) -/
def UniformKeys {ε : Type} (out : List (SliceKey × ε)) : Prop := ∀ p ∈ out, ∀ q ∈ out, SameKey p.1 q.1 → p.1 = q.1

/-- The examples that belong to slice `k`. -/
noncomputable def members {ε : Type} (c : NumCodec) (specs : List Spec) (k : SliceKey)
    (exs : List (List SliceKey × Accessor × ε)) : List ε :=
  open Classical in (exs.filter fun x => decide (Belongs c specs x.1 x.2.1 k)).map fun x => x.2.2

theorem map_snd_of_count {ε : Type} (q : SliceKey × ε → Bool) (ps : List (SliceKey × ε)) (ex : ε)
    (hp : ∀ p ∈ ps, p.2 = ex) (b : Bool) (hc : ps.countP q = if b then 1 else 0) :
    (ps.filter q).map Prod.snd = if b then [ex] else [] := by
  have h1 : (ps.filter q).map Prod.snd = List.replicate (ps.countP q) ex := by
    rw [List.countP_eq_length_filter]
    refine List.eq_replicate_iff.2 ⟨by simp, ?_⟩
    intro x hx
    rw [List.mem_map] at hx
    obtain ⟨p, hpm, rfl⟩ := hx
    exact hp p (List.mem_filter.1 hpm).1
  rw [h1, hc]
  cases b <;> rfl

theorem fanoutOne_snd {ε : Type} {c : NumCodec} {specs : List Spec} {existing : List SliceKey} {a : Accessor} {ex : ε}
    {out : List (SliceKey × ε)} (h : fanoutOne c specs existing a ex = .ok out) : ∀ p ∈ out, p.2 = ex := by
  unfold fanoutOne at h
  split at h
  · cases h
  · cases h
    intro p hp
    rw [List.mem_map] at hp
    obtain ⟨k, _, rfl⟩ := hp
    rfl

theorem fanout_members {ε : Type} (c : NumCodec) (specs : List Spec) (hs : Constructed c specs)
    (exs : List (List SliceKey × Accessor × ε)) (out : List (SliceKey × ε)) (h : fanout c specs exs = .ok out)
    (k : SliceKey) : (out.filter fun p => decide (SameKey k p.1)).map Prod.snd = members c specs k exs := by
  classical
  induction exs generalizing out with
  | nil => simp [fanout] at h; subst h; rfl
  | cons x exs ih =>
    obtain ⟨existing, a, ex⟩ := x
    unfold fanout at h
    split at h
    · cases h
    · rename_i ps hps
      split at h
      · cases h
      · rename_i qs hqs
        cases h
        rw [List.filter_append, List.map_append, ih qs hqs]
        have hc := C04_once_per_slice c specs hs existing a ex ps hps k
        have := map_snd_of_count (fun p => decide (SameKey k p.1)) ps ex (fanoutOne_snd hps)
          (decide (Belongs c specs existing a k)) (by simpa using hc)
        rw [this]
        unfold members
        by_cases hb : Belongs c specs existing a k
        · simp [hb]
        · simp [hb]

theorem prepareAll_spec (std : E → Except Err (List E)) (cs : List (Computation E K V))
    (exs : List (List SliceKey × Accessor × E)) (ps : List (List SliceKey × Accessor × Prepared E))
    (h : prepareAll std cs exs = .ok ps) :
    List.Forall₂ (fun x p => x.1 = p.1 ∧ x.2.1 = p.2.1 ∧ prepare std cs x.2.2 = .ok p.2.2) exs ps := by
  induction exs generalizing ps with
  | nil => simp [prepareAll] at h; subst h; exact .nil
  | cons x exs ih =>
    obtain ⟨ks, a, e⟩ := x
    simp only [prepareAll] at h
    cases hp : prepare std cs e with
    | error x => rw [hp] at h; cases h
    | ok p =>
      rw [hp] at h
      simp only at h
      cases hr : prepareAll std cs exs with
      | error x => rw [hr] at h; cases h
      | ok r =>
        rw [hr] at h; cases h
        exact .cons ⟨rfl, rfl, hp⟩ (ih r hr)

theorem members_prepared (std : E → Except Err (List E)) (cs : List (Computation E K V)) (c : NumCodec)
    (specs : List Spec) (k : SliceKey) {exs : List (List SliceKey × Accessor × E)}
    {ps : List (List SliceKey × Accessor × Prepared E)}
    (h : List.Forall₂ (fun x p => x.1 = p.1 ∧ x.2.1 = p.2.1 ∧ prepare std cs x.2.2 = .ok p.2.2) exs ps) :
    List.Forall₂ (fun e p => prepare std cs e = .ok p) (members c specs k exs) (members c specs k ps) := by
  classical
  induction h with
  | nil => exact .nil
  | @cons x p exs ps hxp _ ih =>
    unfold members at ih ⊢
    obtain ⟨h1, h2, h3⟩ := hxp
    by_cases hb : Belongs c specs x.1 x.2.1 k
    · have hb' : Belongs c specs p.1 p.2.1 k := by rw [← h1, ← h2]; exact hb
      rw [List.filter_cons_of_pos (by simpa using hb), List.filter_cons_of_pos (by simpa using hb')]
      exact .cons h3 ih
    · have hb' : ¬ Belongs c specs p.1 p.2.1 k := by rw [← h1, ← h2]; exact hb
      rw [List.filter_cons_of_neg (by simpa using hb), List.filter_cons_of_neg (by simpa using hb')]
      exact ih

/-- the inputs of a computation over a list of examples. -/
theorem entitled_all (std : E → Except Err (List E)) (cs : List (Computation E K V)) (j : ℕ) (c : Computation E K V)
    (hj : cs[j]? = some c) {es : List E} {ps : List (Prepared E)}
    (h : List.Forall₂ (fun e p => prepare std cs e = .ok p) es ps) :
    ∃ ls, es.mapM (entitled std c) = .ok ls ∧ ls.flatten = ps.flatMap fun p => (getInput p j).getD [] := by
  induction h with
  | nil => exact ⟨[], rfl, rfl⟩
  | @cons e p es ps hp _ ih =>
    obtain ⟨ls, h1, h2⟩ := ih
    obtain ⟨l, h3, h4⟩ := C64_prepared std cs e p hp j c hj
    refine ⟨l :: ls, ?_, by simp [h2, h4]⟩
    rw [List.mapM_cons, h3, h1]; rfl

/-- **C70.**  Preprocess all examples, fan them out to their slices and combine per slice, with any behaviour of the
runner.
* A slice is reported exactly if an example belongs to it, and only once.
* The metrics of a reported slice are the union of the outputs of the computations, each over exactly the inputs of the
  examples that belong to the slice, in one pass. -/
theorem C70_slice_metrics [DecidableEq K] (codec : NumCodec) (specs : List Spec) (hspecs : Constructed codec specs)
    (std : E → Except Err (List E)) (cs : List (Computation E K V)) (hstable : ∀ c ∈ cs, Stable c)
    (exs : List (List SliceKey × Accessor × E)) (ps : List (List SliceKey × Accessor × Prepared E))
    (hps : prepareAll std cs exs = .ok ps) (out : List (SliceKey × Prepared E)) (hout : fanout codec specs ps = .ok out)
    (huni : UniformKeys out) (res : List (SliceKey × Accs cs)) (hres : CombinesPerKey (tuple 0 cs) out res) :
    (∀ k, (∃ p ∈ res, SameKey k p.1) ↔ ∃ x ∈ exs, Belongs codec specs x.1 x.2.1 k) ∧
    (∀ p ∈ res, ∀ q ∈ res, SameKey p.1 q.1 → p.1 = q.1) ∧ (res.map Prod.fst).Nodup ∧
    ∀ k as, (k, as) ∈ res → ∀ d, extractOutput cs as = .ok d →
      ∃ outs : List (Dict K V), outs.length = cs.length ∧ Union outs d ∧
        ∀ (j : ℕ) (c : Computation E K V) (o : Dict K V), cs[j]? = some c → outs[j]? = some o →
          ∃ ls, (members codec specs k exs).mapM (entitled std c) = .ok ls ∧ alone c (.bundle ls.flatten) = .ok o := by
  classical
  obtain ⟨hnd, hkeys, hacc⟩ := hres
  have hf := prepareAll_spec std cs exs ps hps
  refine ⟨?_, ?_, hnd, ?_⟩
  · intro k
    have h1 : (∃ p ∈ res, SameKey k p.1) ↔ ∃ p ∈ out, SameKey k p.1 := by
      constructor
      · rintro ⟨p, hp, hk⟩
        have := (hkeys p.1).1 (List.mem_map_of_mem hp)
        rw [List.mem_map] at this
        obtain ⟨q, hq, e⟩ := this
        exact ⟨q, hq, by rw [e]; exact hk⟩
      · rintro ⟨p, hp, hk⟩
        have := (hkeys p.1).2 (List.mem_map_of_mem hp)
        rw [List.mem_map] at this
        obtain ⟨q, hq, e⟩ := this
        exact ⟨q, hq, by rw [e]; exact hk⟩
    have h2 : (∃ p ∈ out, SameKey k p.1) ↔ members codec specs k ps ≠ [] := by
      rw [← fanout_members codec specs hspecs ps out hout k]
      rw [Ne, List.map_eq_nil_iff, List.filter_eq_nil_iff]
      simp
    have h3 : members codec specs k ps ≠ [] ↔ members codec specs k exs ≠ [] := by
      have := (members_prepared std cs codec specs k hf).length_eq
      rw [← List.length_pos_iff, ← List.length_pos_iff, this]
    rw [h1, h2, h3]
    unfold members
    rw [Ne, List.map_eq_nil_iff, List.filter_eq_nil_iff]
    simp
  · intro p hp q hq hsame
    have h1 := (hkeys p.1).1 (List.mem_map_of_mem hp)
    have h2 := (hkeys q.1).1 (List.mem_map_of_mem hq)
    rw [List.mem_map] at h1 h2
    obtain ⟨p', hp', e1⟩ := h1
    obtain ⟨q', hq', e2⟩ := h2
    rw [← e1, ← e2]
    exact huni p' hp' q' hq' (by rw [e1, e2]; exact hsame)
  · intro k as hk d hd
    obtain ⟨s, hperm, hrun⟩ := hacc k as hk
    have hkout := (hkeys k).1 (List.mem_map_of_mem hk)
    rw [List.mem_map] at hkout
    obtain ⟨p0, hp0, e0⟩ := hkout
    have hvals : valuesOf k out = members codec specs k ps := by
      rw [← fanout_members codec specs hspecs ps out hout k]
      unfold valuesOf
      congr 1
      apply List.filter_congr
      intro p hp
      rw [decide_eq_decide]
      constructor
      · rintro rfl; rfl
      · intro hsame
        rw [← e0] at hsame ⊢
        exact (huni p0 hp0 p hp hsame).symm
    rw [hvals] at hperm
    have hm := members_prepared std cs codec specs k hf
    have hget : ∀ p ∈ s.inputs, ∀ j < cs.length, getInput p j = some ((getInput p j).getD []) := by
      intro p hp j hj
      have hp' := hperm.mem_iff.1 hp
      obtain ⟨i, hi⟩ := List.getElem?_of_mem hp'
      have hi1 : i < (members codec specs k ps).length := by
        by_contra hc
        rw [List.getElem?_eq_none (by omega)] at hi; cases hi
      have hpre := hm.get (i := i) (by rw [hm.length_eq]; exact hi1) hi1
      rw [List.get_eq_getElem, List.get_eq_getElem] at hpre
      rw [List.getElem?_eq_getElem hi1, Option.some.injEq] at hi
      rw [hi] at hpre
      obtain ⟨l, _, h4⟩ := C64_prepared std cs _ p hpre j (cs[j]) (List.getElem?_eq_getElem hj)
      rw [h4]; rfl
    have htog : together cs s = .ok d := by
      unfold together
      rw [hrun]; exact hd
    obtain ⟨outs, g1, g2, g3⟩ := (C64_together cs (fun j p => (getInput p j).getD []) s hget d).1 htog
    refine ⟨outs, g1, g3, ?_⟩
    intro j c o hj ho
    obtain ⟨ls, h1, h2⟩ := entitled_all std cs j c hj hm
    refine ⟨ls, h1, hstable c (List.mem_of_getElem? hj) _ _ o ?_ (g2 j c o hj ho)⟩
    rw [Sched.inputs_expand]
    simp only [Sched.inputs]
    rw [h2]
    exact List.Perm.flatMap_right _ hperm

/-! ### the combiners of C15 qualify -/

/-- A computation made of a combiner that reads its element from the input by `g`. -/
def ofCombiner {δ α : Type} (prep : Prep E) (g : E → δ) (c : CombineFn δ α) (extract : α → Except Err (Dict K V)) :
    Computation E K V where
  prep := prep
  Acc := α
  combiner := ⟨c.create, fun a x => c.addInput a (g x), c.merge⟩
  extract := extract

theorem addAll_map {δ α : Type} (g : E → δ) (c : CombineFn δ α) (a : α) (xs : List E) :
    (⟨c.create, fun a x => c.addInput a (g x), c.merge⟩ : CombineFn E α).addAll a xs =
      c.addAll a (xs.flatMap fun x => [g x]) := by
  induction xs generalizing a with
  | nil => rfl
  | cons x xs ih =>
    simp only [CombineFn.addAll, List.flatMap_cons, List.cons_append, List.nil_append]
    cases c.addInput a (g x) with
    | error e => rfl
    | ok b => exact ih b

mutual
theorem run_map {δ α : Type} (g : E → δ) (c : CombineFn δ α) : ∀ s : Sched E,
    (⟨c.create, fun a x => c.addInput a (g x), c.merge⟩ : CombineFn E α).run s = c.run (s.expand fun x => [g x])
  | .bundle xs => by simp only [CombineFn.run, Sched.expand]; exact addAll_map g c c.create xs
  | .extend s xs => by
    simp only [CombineFn.run, Sched.expand, run_map g c s]
    cases c.run (s.expand fun x => [g x]) with
    | error e => rfl
    | ok a => exact addAll_map g c a xs
  | .merge ss => by simp only [CombineFn.run, Sched.expand, runs_map g c ss]
theorem runs_map {δ α : Type} (g : E → δ) (c : CombineFn δ α) : ∀ ss : Scheds E,
    (⟨c.create, fun a x => c.addInput a (g x), c.merge⟩ : CombineFn E α).runs ss = c.runs (ss.expand fun x => [g x])
  | .one s => by simp only [CombineFn.runs, Scheds.expand, run_map g c s]
  | .cons s ss => by simp only [CombineFn.runs, Scheds.expand, run_map g c s, runs_map g c ss]
end

/-- Every combiner with the property proved in C15 makes a stable computation, whatever its preprocessors and its
output. -/
theorem C70_stable_of_C15 {δ α : Type} (prep : Prep E) (g : E → δ) (c : CombineFn δ α)
    (extract : α → Except Err (Dict K V))
    (hc : ∀ (data : List δ) (s : Sched δ), s.inputs.Perm data → (c.run s).toOption = (c.run (.bundle data)).toOption) :
    Stable (ofCombiner prep g c extract) := by
  intro s s' o hp h
  have e : (c.run (s.expand fun x => [g x])).toOption = (c.run (s'.expand fun x => [g x])).toOption := by
    rw [hc _ _ (List.Perm.refl _), hc _ (s'.expand fun x => [g x]) (List.Perm.refl _)]
    rw [Sched.inputs_expand, Sched.inputs_expand]
    rw [← hc (s.inputs.flatMap fun x => [g x]) (.bundle (s'.inputs.flatMap fun x => [g x]))
      (List.Perm.flatMap_right _ hp.symm)]
  unfold alone at h ⊢
  change ((⟨c.create, fun a x => c.addInput a (g x), c.merge⟩ : CombineFn E α).run s >>= extract) = .ok o at h
  change ((⟨c.create, fun a x => c.addInput a (g x), c.merge⟩ : CombineFn E α).run s' >>= extract) = .ok o
  rw [run_map] at h ⊢
  cases h1 : c.run (s.expand fun x => [g x]) with
  | error x => rw [h1] at h; cases h
  | ok a =>
    rw [h1] at h e
    cases h2 : c.run (s'.expand fun x => [g x]) with
    | error x => rw [h2] at e; cases e
    | ok b =>
      rw [h2] at e
      cases e
      exact h

/-- for example the squared Pearson correlation. -/
example (prep : Prep E) (g : E → Combiners.Flat) (extract : Combiners.PearsonAcc → Except Err (Dict K V)) :
    Stable (ofCombiner prep g Combiners.pearsonCombiner extract) :=
  C70_stable_of_C15 prep g _ extract Combiners.C15_pearson

/-! ### a concrete case -/

/-- adds up its inputs and reports the sum under a name. -/
def sumOf (name : String) (prep : Prep ℕ) : Computation ℕ String ℕ where
  prep := prep
  Acc := ℕ
  combiner := ⟨0, fun a x => .ok (a + x), fun l => .ok l.sum⟩
  extract a := .ok [(name, a)]

theorem sumOf_run (name : String) (prep : Prep ℕ) (s : Sched ℕ) : (sumOf name prep).combiner.run s = .ok s.inputs.sum := by
  obtain ⟨b, hb⟩ := run_always (sumOf name prep).combiner (fun _ _ => ⟨_, rfl⟩) (fun _ => ⟨_, rfl⟩) s
  have := run_rel (c := (sumOf name prep).combiner) (P := fun xs (a : ℕ) => a = xs.sum) rfl (by
    intro xs a x b ha hb
    cases hb
    simp [ha]) (by
    intro l _ hl b hb
    cases hb
    clear * - hl
    induction l with
    | nil => rfl
    | cons p l ih =>
      have h1 : p.2 = p.1.sum := hl p (by simp)
      have h2 := ih fun q hq => hl q (by simp [hq])
      simp only [List.map_cons, List.sum_cons, List.flatten_cons, List.sum_append, h1]
      exact congrArg _ h2) s b hb
  rw [hb, this]

theorem sumOf_stable (name : String) (prep : Prep ℕ) : Stable (sumOf name prep) := by
  intro s s' o hp h
  unfold alone at h ⊢
  rw [sumOf_run] at h ⊢
  rw [← hp.sum_eq]
  exact h

/-- the plain sum of the shared inputs, and the sum of the doubled examples. -/
def demoComputations : List (Computation ℕ String ℕ) :=
  [sumOf "sum" .shared, sumOf "twice" (.own [fun e => .ok [e, e]])]

/-- three examples; the first and the last carry the slice key g:a. -/
def demoExamples : List (List SliceKey × Accessor × ℕ) :=
  [([[("g", .str "a")]], ⟨[], []⟩, 5), ([], ⟨[], []⟩, 7), ([[("g", .str "a")]], ⟨[], []⟩, 9)]

/-- the slices reported for it: everything, and g:a. -/
example : ∃ ps out, prepareAll (fun e => .ok [e]) demoComputations demoExamples = .ok ps ∧
    fanout demoCodec [⟨[], []⟩] ps = .ok out ∧ UniformKeys out ∧
    CombinesPerKey (tuple 0 demoComputations) out
      [(([] : SliceKey), ((21, 42, ()) : ℕ × ℕ × Unit)), ([("g", .str "a")], ((14, 28, ()) : ℕ × ℕ × Unit))] ∧
    extractOutput demoComputations ((14, 28, ()) : ℕ × ℕ × Unit) = .ok [("sum", 14), ("twice", 28)] := by
  let P (n : ℕ) : Prepared ℕ := ⟨[none, some [n, n]], some [n]⟩
  refine ⟨[([[("g", .str "a")]], ⟨[], []⟩, P 5), ([], ⟨[], []⟩, P 7), ([[("g", .str "a")]], ⟨[], []⟩, P 9)],
    [([], P 5), ([("g", .str "a")], P 5), ([], P 7), ([], P 9), ([("g", .str "a")], P 9)], rfl, ?_, ?_, ?_, rfl⟩
  · simp [fanout, fanoutOne, getSlices, Spec.generateSlices, checkFeatures, columnMatches, product, sortEntries,
      keySet, keyEq, canonE]
  · intro p hp q hq h
    simp only [List.mem_cons, List.not_mem_nil, or_false] at hp hq
    rcases hp with rfl | rfl | rfl | rfl | rfl <;> rcases hq with rfl | rfl | rfl | rfl | rfl <;>
      first | rfl | (exfalso; revert h; simp [SameKey])
  · refine ⟨by simp, by intro k; simp; tauto, ?_⟩
    intro k a h
    simp only [List.mem_cons, List.not_mem_nil, or_false] at h
    rcases h with ⟨rfl, rfl⟩ | ⟨rfl, rfl⟩
    · exact ⟨.merge (.cons (.bundle [P 9]) (.one (.extend (.bundle [P 5]) [P 7]))), by
        simp only [Sched.inputs, Scheds.inputs, valuesOf]
        simp
        exact List.perm_append_comm (l₁ := [_]) (l₂ := [_, _]), rfl⟩
    · exact ⟨.bundle [P 5, P 9], by simp [Sched.inputs, valuesOf], rfl⟩

example : ∀ c ∈ demoComputations, Stable c := by
  intro c hc
  simp only [demoComputations, List.mem_cons, List.not_mem_nil, or_false] at hc
  rcases hc with rfl | rfl <;> exact sumOf_stable _ _

end Together
end TFMA
