import Verif.Model.MetricCtors
import Verif.Py.DictLemmas
import Mathlib.Tactic.Common

/-!
# What becomes of the arguments of a constructor

`track` follows, for every name, where the value under it comes from; `step_den` says that it is right. `Rel` relates the arguments of
the first construction and those of the construction from the config; `call_rel` says that constructors keep it.
-/

namespace TFMA
namespace MetricCtors

variable {V : Type}

/-! ### dictionaries -/

theorem get?_append (d e : Dict String (Val V)) (k : String) : Dict.get? (d ++ e) k = (Dict.get? d k).or (Dict.get? e k) := by
  induction d with
  | nil => rfl
  | cons x d ih =>
    obtain ⟨k', v⟩ := x
    rw [List.cons_append, Dict.get?_cons, Dict.get?_cons, ih]
    split <;> rfl

theorem get?_map (l : List (String × Src V)) (f : Src V → Val V) (k : String) :
    Dict.get? (l.map fun s => (s.1, f s.2)) k = (Dict.get? l k).map f := by
  induction l with
  | nil => rfl
  | cons x l ih =>
    obtain ⟨k', v⟩ := x
    rw [List.map_cons, Dict.get?_cons, Dict.get?_cons, ih]
    split <;> rfl

theorem get?_filter (d : Dict String (Val V)) (q : String → Bool) (k : String) :
    Dict.get? (d.filter fun x => q x.1) k = if q k then Dict.get? d k else none := by
  induction d with
  | nil => simp [Dict.get?]
  | cons x d ih =>
    obtain ⟨k', v⟩ := x
    rw [List.filter_cons]
    by_cases hq : q k' = true
    · simp only [hq, if_true]
      rw [Dict.get?_cons, Dict.get?_cons, ih]
      by_cases hk : k' = k
      · subst hk; simp [hq]
      · simp [hk]
    · simp only [hq, Bool.false_eq_true, if_false]
      rw [Dict.get?_cons, ih]
      by_cases hk : k' = k
      · subst hk; simp [hq]
      · simp [hk]

/-! ### where values come from -/

/-- Where a value comes from: a parameter of the first constructor; such a parameter or something else; a value given by a
constructor; one of the other arguments, perhaps with a default; there is none; or it is not known. -/
inductive Sym (V : Type) where
  | own (p : String)
  | ownOr (p q : String) (f : Val V → Val V)
  | const (v : Val V)
  | extra (p : String)
  | extraOr (p : String) (v : Val V)
  | absent
  | unknown

/-- `o` is what the symbol says. -/
def Den (env : Env V) (x : Dict String (Val V)) : Sym V → Option (Val V) → Prop
  | .own p, o => o = some (env p)
  | .ownOr p q f, o => o = some (if truthy (env p) then env p else f (env q))
  | .const v, o => o = some v
  | .extra p, o => o = Dict.get? x p
  | .extraOr p v, o => o = some ((Dict.get? x p).getD v)
  | .absent, o => o = none
  | .unknown, _ => True

/-- What a parameter with the default `d` is, if its argument is `s`. -/
def lift (d : Option (Val V)) : Sym V → Sym V
  | .extra q => match d with
    | none => .extra q
    | some v => .extraOr q v
  | .absent => match d with
    | none => .unknown
    | some v => .const v
  | s => s

/-- What is passed on under the name `k`. -/
def stepB (c : Ctor V) (s sx : String → Sym V) (k : String) : Sym V :=
  match Dict.get? c.passes k with
  | some (.param p) => if c.has p then s p else .unknown
  | some (.const v) => .const v
  | some (.orElse p q f) => if c.has p && c.has q then (match s p, s q with
    | .own p', .own q' => .ownOr p' q' f
    | _, _ => .unknown) else .unknown
  | some (.fn _) => .unknown
  | none => if c.has k then .absent else sx k

/-- A further constructor. -/
def step (c : Ctor V) (sym : String → Sym V) : String → Sym V :=
  stepB c (fun p => lift ((Dict.get? c.params p).bind id) (sym p)) sym

/-- Further constructors. -/
def trackFrom : List (Ctor V) → (String → Sym V) → String → Sym V
  | [], sym => sym
  | c :: cs, sym => trackFrom cs (step c sym)

/-- All constructors of a class. -/
def track : List (Ctor V) → String → Sym V
  | [] => .extra
  | c :: cs => trackFrom cs (stepB c .own .extra)

theorem bind_ok (c : Ctor V) (kw x : Dict String (Val V)) (env : Env V) (h : bind c kw = .ok (env, x)) :
    (∀ k, Dict.get? x k = if c.has k then none else Dict.get? kw k) ∧
    (∀ k v, Dict.get? kw k = some v → c.has k = true ∨ c.extras = true) ∧
    (∀ p, c.has p = true → Dict.get? kw p = none → ∃ v, Dict.get? c.params p = some (some v) ∧ env p = v) ∧
    (∀ p v, Dict.get? kw p = some v → env p = v) := by
  unfold bind at h
  split at h
  · cases h
  · rename_i h1
    split at h
    · cases h
    · rename_i h2
      cases h
      refine ⟨fun k => ?_, fun k v hk => ?_, fun p hp hk => ?_, fun p v hk => by simp [hk]⟩
      · rw [get?_filter kw (fun n => !c.has n) k]
        cases c.has k <;> rfl
      · have hm := Dict.mem_of_get? hk
        simp only [List.any_eq_true, not_exists, not_and] at h1
        have := h1 (k, v) hm
        by_contra hn
        push Not at hn
        exact this (by simp [hn.1, hn.2])
      · simp only [List.any_eq_true, not_exists, not_and] at h2
        unfold Ctor.has Dict.has at hp
        cases hg : Dict.get? c.params p with
        | none => rw [hg] at hp; cases hp
        | some d =>
          have hm := Dict.mem_of_get? hg
          have := h2 (p, d) hm
          cases d with
          | none => exact absurd (by simp [Dict.has, hk]) this
          | some v => exact ⟨v, rfl, by simp [hk, hg]⟩

theorem body_ok (c : Ctor V) (env : Env V) (x r : Dict String (Val V)) (h : body c env x = .ok r) :
    runChecks env c.checks = .ok () ∧
    (∀ k v, Dict.get? x k = some v → Dict.get? c.passes k = none) ∧
    ∀ k, Dict.get? r k = ((Dict.get? c.passes k).map (Src.eval env)).or (Dict.get? x k) := by
  unfold body at h
  cases hc : runChecks env c.checks with
  | error e => rw [hc] at h; cases h
  | ok u =>
    simp only [hc] at h
    split at h
    · cases h
    · rename_i h1
      cases h
      refine ⟨rfl, fun k v hk => ?_, fun k => by rw [get?_append, get?_map]⟩
      simp only [List.any_eq_true, not_exists, not_and] at h1
      have := h1 (k, v) (Dict.mem_of_get? hk)
      unfold Dict.has at this
      rw [get?_map] at this
      cases hp : Dict.get? c.passes k with
      | none => rfl
      | some s => rw [hp] at this; exact absurd rfl this

theorem body_den (env0 : Env V) (x0 : Dict String (Val V)) (c : Ctor V) (env : Env V) (x r : Dict String (Val V)) (s sx : String → Sym V)
    (hs : ∀ p, c.has p = true → Den env0 x0 (s p) (some (env p))) (hx : ∀ k, c.has k = false → Den env0 x0 (sx k) (Dict.get? x k))
    (hx' : ∀ k, c.has k = true → Dict.get? x k = none) (h : body c env x = .ok r) :
    ∀ k, Den env0 x0 (stepB c s sx k) (Dict.get? r k) := by
  obtain ⟨-, -, hr⟩ := body_ok c env x r h
  intro k
  rw [hr k]
  unfold stepB
  cases hp : Dict.get? c.passes k with
  | none =>
    simp only [Option.map_none, Option.none_or]
    cases hh : c.has k with
    | true => simp only [if_true]; exact hx' k hh
    | false => simp only [Bool.false_eq_true, if_false]; exact hx k hh
  | some src =>
    simp only [Option.map_some, Option.some_or]
    cases src with
    | param p =>
      simp only [Src.eval]
      split
      · rename_i hh; exact hs p hh
      · trivial
    | const v => rfl
    | orElse p q f =>
      simp only [Src.eval]
      split
      · rename_i hh
        simp only [Bool.and_eq_true] at hh
        have h1 := hs p hh.1
        have h2 := hs q hh.2
        split
        · rename_i p' q' e1 e2
          rw [e1] at h1; rw [e2] at h2
          have h1 : env p = env0 p' := Option.some.inj h1
          have h2 : env q = env0 q' := Option.some.inj h2
          show some _ = some _
          rw [h1, h2]
        · trivial
      · trivial
    | fn g => trivial

theorem lift_den (env0 : Env V) (x0 : Dict String (Val V)) (d : Option (Val V)) (sy : Sym V) (o : Option (Val V)) (w : Val V)
    (h : Den env0 x0 sy o) (h1 : ∀ v, o = some v → w = v) (h2 : o = none → ∃ v, d = some v ∧ w = v) : Den env0 x0 (lift d sy) (some w) := by
  cases sy with
  | own p => cases h; exact congrArg some (h1 _ rfl)
  | ownOr p q f => cases h; exact congrArg some (h1 _ rfl)
  | const v => cases h; exact congrArg some (h1 _ rfl)
  | extraOr p v => cases h; exact congrArg some (h1 _ rfl)
  | unknown => trivial
  | absent =>
    cases h
    obtain ⟨v, rfl, rfl⟩ := h2 rfl
    rfl
  | extra q =>
    have h : o = Dict.get? x0 q := h
    cases o with
    | some v =>
      cases h1 v rfl
      cases d with
      | none => exact h
      | some v' => show some _ = some _; rw [← h]; rfl
    | none =>
      obtain ⟨v, rfl, rfl⟩ := h2 rfl
      show some _ = some _
      rw [← h]; rfl

theorem call_den (env0 : Env V) (x0 : Dict String (Val V)) (c : Ctor V) (kw r : Dict String (Val V)) (sym : String → Sym V)
    (hs : ∀ k, Den env0 x0 (sym k) (Dict.get? kw k)) (h : call c kw = .ok r) : ∀ k, Den env0 x0 (step c sym k) (Dict.get? r k) := by
  unfold call at h
  cases hb : bind c kw with
  | error e => rw [hb] at h; cases h
  | ok b =>
    obtain ⟨env, x⟩ := b
    simp only [hb] at h
    obtain ⟨h1, -, h3, h4⟩ := bind_ok c kw x env hb
    refine body_den env0 x0 c env x r _ _ (fun p hp => ?_) (fun k hk => ?_) (fun k hk => ?_) h
    · refine lift_den env0 x0 _ (sym p) (Dict.get? kw p) (env p) (hs p) (fun v hv => h4 p v hv) fun hn => ?_
      obtain ⟨v, e1, e2⟩ := h3 p hp hn
      exact ⟨v, by rw [e1]; rfl, e2⟩
    · rw [h1 k, hk]; exact hs k
    · rw [h1 k, hk]; rfl

theorem construct_den (env0 : Env V) (x0 : Dict String (Val V)) (cs : List (Ctor V)) (kw r : Dict String (Val V)) (sym : String → Sym V)
    (hs : ∀ k, Den env0 x0 (sym k) (Dict.get? kw k)) (h : construct cs kw = .ok r) :
    ∀ k, Den env0 x0 (trackFrom cs sym k) (Dict.get? r k) := by
  induction cs generalizing kw sym with
  | nil => cases h; exact hs
  | cons c cs ih =>
    unfold construct at h
    cases hc : call c kw with
    | error e => rw [hc] at h; cases h
    | ok kw' =>
      simp only [hc] at h
      exact ih kw' (step c sym) (call_den env0 x0 c kw kw' sym hs hc) h

/-! ### the two constructions -/

/-- The name after `Metric.__init__`. -/
def fixName (dflt : Option String) (v : Val V) : Val V :=
  if !truthy v && dflt.getD "" != "" then .str (dflt.getD "") else v

theorem fixName_fixName (dflt : Option String) (v : Val V) : fixName dflt (fixName dflt v) = fixName dflt v := by
  unfold fixName
  by_cases h : (!truthy v && dflt.getD "" != "") = true
  · simp only [h, if_true]
    have : dflt.getD "" ≠ "" := by
      simp only [Bool.and_eq_true, bne_iff_ne, ne_eq] at h; exact h.2
    simp [truthy]
  · simp only [h, Bool.false_eq_true, if_false]

/-- The arguments of the second construction are those of the first; some which may be left out are None instead; the name may be that
after `Metric.__init__` already. -/
def Rel (D : List String) (dflt : Option String) (kw kw' : Dict String (Val V)) : Prop :=
  ∀ k, Dict.get? kw' k = Dict.get? kw k ∨ (k ∈ D ∧ Dict.get? kw k = some .none ∧ Dict.get? kw' k = none) ∨
    (k = "name" ∧ ∃ v, Dict.get? kw k = some v ∧ Dict.get? kw' k = some (fixName dflt v))

/-- Names: the name goes to the name and nothing else, and it is not checked; what may be left out has None for a default. -/
def levelOk (D : List String) (c : Ctor V) : Bool :=
  c.passes.all (fun s => match s.2 with
    | .param p => c.has p && (s.1 == "name" || p != "name")
    | .const _ => true
    | .orElse _ _ _ => s.1 == "name"
    | .fn _ => false) &&
  c.checks.all (fun p => c.has p.1 && p.1 != "name") &&
  c.params.all fun p => !D.contains p.1 || (match p.2 with
    | some v => isNone v
    | none => false)

/-- The name is the parameter called name. -/
def nameOk (c : Ctor V) : Bool :=
  match Dict.get? c.passes "name" with
  | none => true
  | some (.param p) => p == "name"
  | _ => false

theorem runChecks_congr (env env' : Env V) (l : List (String × (Val V → Except Err Unit))) (h : ∀ p ∈ l, env' p.1 = env p.1) :
    runChecks env' l = runChecks env l := by
  induction l with
  | nil => rfl
  | cons x l ih =>
    obtain ⟨p, f⟩ := x
    unfold runChecks
    rw [h (p, f) (by simp), ih fun p' hp' => h p' (by simp [hp'])]

theorem body_rel (D : List String) (dflt : Option String) (c : Ctor V) (hl : levelOk D c = true) (env env' : Env V) (x x' r : Dict String (Val V))
    (he : ∀ p, c.has p = true → p ≠ "name" → env' p = env p)
    (hn : ∀ s, Dict.get? c.passes "name" = some s → s.eval env' = s.eval env ∨ s.eval env' = fixName dflt (s.eval env))
    (hx : Rel D dflt x x') (h : body c env x = .ok r) : ∃ r', body c env' x' = .ok r' ∧ Rel D dflt r r' := by
  obtain ⟨h1, h2, h3⟩ := body_ok c env x r h
  simp only [levelOk, Bool.and_eq_true, List.all_eq_true] at hl
  obtain ⟨⟨hl1, hl2⟩, -⟩ := hl
  have hc : runChecks env' c.checks = .ok () := by
    rw [runChecks_congr env env' c.checks, h1]
    intro p hp
    have := hl2 p hp
    exact he p.1 this.1 (by simpa using this.2)
  have hd : ¬ (x'.any fun y => Dict.has (c.passes.map fun s => (s.1, s.2.eval env') : Dict String (Val V)) y.1) = true := by
    simp only [List.any_eq_true, not_exists, not_and]
    intro y hy
    have hk : y.1 ∈ Dict.keys x' := List.mem_map_of_mem (f := Prod.fst) hy
    obtain ⟨v, hv⟩ := (Dict.mem_keys_iff x' y.1).1 hk
    have hsome : ∃ w, Dict.get? x y.1 = some w := by
      rcases hx y.1 with hx | ⟨-, -, hx⟩ | ⟨-, w, hx, -⟩
      · exact ⟨v, by rw [← hx]; exact hv⟩
      · rw [hx] at hv; cases hv
      · exact ⟨w, hx⟩
    obtain ⟨w, hw⟩ := hsome
    unfold Dict.has
    rw [get?_map, h2 y.1 w hw]
    simp
  refine ⟨(c.passes.map fun s => (s.1, s.2.eval env')) ++ x', by unfold body; rw [hc]; simp only [hd, if_false, Bool.false_eq_true], fun k => ?_⟩
  rw [h3 k, get?_append, get?_map]
  cases hp : Dict.get? c.passes k with
  | none => simpa using hx k
  | some s =>
    simp only [Option.map_some, Option.some_or, Option.some.injEq, reduceCtorEq, and_false, false_or, existsAndEq]
    by_cases hk : k = "name"
    · subst hk
      rcases hn s hp with h | h
      · left; exact h
      · right; exact ⟨rfl, trivial, h⟩
    · left
      have := hl1 (k, s) (Dict.mem_of_get? hp)
      cases s with
      | param p =>
        simp only [Bool.and_eq_true, Bool.or_eq_true, beq_iff_eq, hk, false_or, bne_iff_ne, ne_eq] at this
        exact he p this.1 this.2
      | const v => rfl
      | orElse p q f => simp [hk] at this
      | fn g => simp at this

theorem call_rel (D : List String) (dflt : Option String) (c : Ctor V) (hl : levelOk D c = true) (hname : nameOk c = true)
    (kw kw' r : Dict String (Val V)) (hx : Rel D dflt kw kw') (h : call c kw = .ok r) : ∃ r', call c kw' = .ok r' ∧ Rel D dflt r r' := by
  unfold call at h
  cases hb : bind c kw with
  | error e => rw [hb] at h; cases h
  | ok b =>
    obtain ⟨env, x⟩ := b
    simp only [hb] at h
    obtain ⟨h1, h2, h3, h4⟩ := bind_ok c kw x env hb
    have hl' := hl
    simp only [levelOk, Bool.and_eq_true, List.all_eq_true] at hl'
    have hb' : ∃ env' x', bind c kw' = .ok (env', x') := by
      unfold bind
      have e1 : ¬ (kw'.any fun x => !c.has x.1 && !c.extras) = true := by
        simp only [List.any_eq_true, not_exists, not_and]
        intro y hy
        obtain ⟨v, hv⟩ := (Dict.mem_keys_iff kw' y.1).1 (List.mem_map_of_mem (f := Prod.fst) hy)
        have hsome : ∃ w, Dict.get? kw y.1 = some w := by
          rcases hx y.1 with hx | ⟨-, -, hx⟩ | ⟨-, w, hx, -⟩
          · exact ⟨v, by rw [← hx]; exact hv⟩
          · rw [hx] at hv; cases hv
          · exact ⟨w, hx⟩
        obtain ⟨w, hw⟩ := hsome
        rcases h2 y.1 w hw with h | h <;> simp [h]
      have e2 : ¬ (c.params.any fun p => p.2.isNone && !Dict.has kw' p.1) = true := by
        intro he
        unfold bind at hb
        split at hb
        · cases hb
        · split at hb
          · cases hb
          · rename_i hno
            apply hno
            simp only [List.any_eq_true, Bool.and_eq_true] at he ⊢
            obtain ⟨p, hp, hp1, hp2⟩ := he
            refine ⟨p, hp, hp1, ?_⟩
            by_contra hn
            have hh : Dict.has kw p.1 = true := by simpa using hn
            have hh' : Dict.has kw' p.1 = false := by simpa using hp2
            unfold Dict.has at hh hh'
            rcases hx p.1 with h | ⟨hD, -, -⟩ | ⟨-, w, -, h⟩
            · rw [h] at hh'; rw [hh] at hh'; cases hh'
            · have := hl'.2 p hp
              have hc : D.contains p.1 = true := List.contains_iff_mem.2 hD
              cases hp3 : p.2 with
              | none => rw [hc, hp3] at this; cases this
              | some v => rw [hp3] at hp1; cases hp1
            · rw [h] at hh'; cases hh'
      simp only [e1, e2, Bool.false_eq_true, if_false]
      exact ⟨_, _, rfl⟩
    obtain ⟨env', x', hb'⟩ := hb'
    obtain ⟨g1, -, g3, g4⟩ := bind_ok c kw' x' env' hb'
    have heq : ∀ p, c.has p = true → Dict.get? kw' p = Dict.get? kw p → env' p = env p := by
      intro p hp hg
      cases hk : Dict.get? kw p with
      | some v => rw [h4 p v hk, g4 p v (hg.trans hk)]
      | none =>
        obtain ⟨v, e1, e2⟩ := h3 p hp hk
        obtain ⟨v', e3, e4⟩ := g3 p hp (hg.trans hk)
        rw [e1] at e3; cases e3
        rw [e2, e4]
    have heD : ∀ p, c.has p = true → p ∈ D → Dict.get? kw p = some .none → Dict.get? kw' p = none → env' p = env p := by
      intro p hp hD hg hg'
      obtain ⟨v, e1, e2⟩ := g3 p hp hg'
      have := hl'.2 (p, some v) (Dict.mem_of_get? e1)
      have hc : D.contains p = true := List.contains_iff_mem.2 hD
      rw [hc] at this
      rw [e2, h4 p _ hg]
      cases v with
      | none => rfl
      | _ => cases this
    have hrel : Rel D dflt x x' := by
      intro k
      rw [h1 k, g1 k]
      cases hh : c.has k with
      | true => left; rfl
      | false => simpa using hx k
    simp only [call, hb']
    refine body_rel D dflt c hl env env' x x' r (fun p hp hne => ?_) (fun s hs => ?_) hrel h
    · rcases hx p with hx | ⟨hD, hg, hg'⟩ | ⟨hn, -⟩
      · exact heq p hp hx
      · exact heD p hp hD hg hg'
      · exact absurd hn hne
    · unfold nameOk at hname
      rw [hs] at hname
      cases s with
      | param p =>
        have hp : p = "name" := by simpa using hname
        subst hp
        have hm := hl'.1.1 ("name", .param "name") (Dict.mem_of_get? hs)
        simp only [Bool.and_eq_true] at hm
        simp only [Src.eval]
        rcases hx "name" with hx | ⟨hD, hg, hg'⟩ | ⟨-, v, hg, hg'⟩
        · left; exact heq "name" hm.1 hx
        · left; exact heD "name" hm.1 hD hg hg'
        · right; rw [h4 "name" v hg, g4 "name" _ hg']
      | const v => simp at hname
      | orElse p q f => simp at hname
      | fn g => simp at hname

theorem construct_rel (D : List String) (dflt : Option String) (cs : List (Ctor V)) (hl : ∀ c ∈ cs, levelOk D c = true ∧ nameOk c = true)
    (kw kw' r : Dict String (Val V)) (hx : Rel D dflt kw kw') (h : construct cs kw = .ok r) :
    ∃ r', construct cs kw' = .ok r' ∧ Rel D dflt r r' := by
  induction cs generalizing kw kw' with
  | nil => cases h; exact ⟨kw', rfl, hx⟩
  | cons c cs ih =>
    unfold construct at h
    cases hc : call c kw with
    | error e => rw [hc] at h; cases h
    | ok k1 =>
      simp only [hc] at h
      obtain ⟨k1', h1, h2⟩ := call_rel D dflt c (hl c (by simp)).1 (hl c (by simp)).2 kw kw' k1 hx hc
      obtain ⟨r', h3, h4⟩ := ih (fun c' hc' => hl c' (by simp [hc'])) k1 k1' h2 h
      exact ⟨r', by simp only [construct, h1, h3], h4⟩

/-! ### configs -/

theorem init_get (dflt : Option String) (kw : Dict String (Val V)) (k : String) :
    Dict.get? (init dflt kw).kwargs k = if k = "name" then (Dict.get? kw k).map (fixName dflt) else Dict.get? kw k := by
  unfold init
  cases hn : Dict.get? kw "name" with
  | none =>
    by_cases hk : k = "name"
    · subst hk; simp [hn]
    · simp [hk]
  | some v =>
    by_cases hc : (!truthy v && dflt.getD "" != "") = true
    · simp only [hc, if_true]
      by_cases hk : k = "name"
      · subst hk; simp [hn, fixName, hc]
      · rw [Dict.get?_set_ne _ _ (Ne.symm hk), if_neg hk]
    · simp only [hc, Bool.false_eq_true, if_false]
      by_cases hk : k = "name"
      · subst hk; simp [hn, fixName, hc]
      · rw [if_neg hk]

theorem init_name (dflt : Option String) (kw : Dict String (Val V)) :
    (init dflt kw).name = ((Dict.get? kw "name").map (fixName dflt)).getD .none := by
  unfold init
  cases hn : Dict.get? kw "name" with
  | none => rfl
  | some v =>
    by_cases hc : (!truthy v && dflt.getD "" != "") = true
    · simp [fixName, hc]
    · simp [fixName, hc]

open Classical in
theorem dropNone_ok (D : List String) (hD : D.Nodup) (kw : Dict String (Val V)) (hp : ∀ a ∈ D, ∃ v, Dict.get? kw a = some v) :
    ∃ r, dropNone D kw = .ok r ∧ ∀ k, Dict.get? r k = if k ∈ D ∧ Dict.get? kw k = some .none then none else Dict.get? kw k := by
  induction D generalizing kw with
  | nil => exact ⟨kw, rfl, fun k => by simp⟩
  | cons a D ih =>
    obtain ⟨ha, hD⟩ := List.nodup_cons.1 hD
    obtain ⟨v, hv⟩ := hp a (by simp)
    have hne : ∀ b ∈ D, b ≠ a := fun b hb hba => ha (hba ▸ hb)
    unfold dropNone
    rw [hv]
    cases hn : isNone v with
    | true =>
      have hvn : v = .none := by cases v <;> first | rfl | cases hn
      subst hvn
      obtain ⟨r, h1, h2⟩ := ih hD (Dict.del kw a) fun b hb => by
        rw [Dict.get?_del, if_neg (hne b hb).symm]; exact hp b (by simp [hb])
      refine ⟨r, by simp only [hn]; exact h1, fun k => ?_⟩
      rw [h2 k, Dict.get?_del]
      by_cases hk : a = k
      · subst hk; simp [hv]
      · have hk' : ¬ k = a := fun h => hk h.symm
        simp [hk, hk']
    | false =>
      obtain ⟨r, h1, h2⟩ := ih hD kw fun b hb => hp b (by simp [hb])
      refine ⟨r, by simp only [hn]; exact h1, fun k => ?_⟩
      rw [h2 k]
      by_cases hk : k = a
      · subst hk
        have : v ≠ .none := by rintro rfl; cases hn
        simp [hv, this]
      · simp [hk]

theorem removeAll_ok (R : List String) (hR : R.Nodup) (kw : Dict String (Val V)) (hp : ∀ a ∈ R, ∃ v, Dict.get? kw a = some v) :
    ∃ r, removeAll R kw = .ok r ∧ ∀ k, Dict.get? r k = if k ∈ R then none else Dict.get? kw k := by
  induction R generalizing kw with
  | nil => exact ⟨kw, rfl, fun k => by simp⟩
  | cons a R ih =>
    obtain ⟨ha, hR⟩ := List.nodup_cons.1 hR
    obtain ⟨v, hv⟩ := hp a (by simp)
    have hne : ∀ b ∈ R, b ≠ a := fun b hb hba => ha (hba ▸ hb)
    obtain ⟨r, h1, h2⟩ := ih hR (Dict.del kw a) fun b hb => by
      rw [Dict.get?_del, if_neg (hne b hb).symm]; exact hp b (by simp [hb])
    refine ⟨r, by simp only [removeAll, Dict.has, hv, Option.isSome_some, if_true, h1], fun k => ?_⟩
    rw [h2 k, Dict.get?_del]
    by_cases hk : a = k
    · subst hk; simp
    · have hk' : ¬ k = a := fun h => hk h.symm
      simp [hk, hk']

theorem trackFrom_other (cs : List (Ctor V)) (sym : String → Sym V) (k : String)
    (h : ∀ c ∈ cs, c.has k = false ∧ Dict.get? c.passes k = none) : trackFrom cs sym k = sym k := by
  induction cs generalizing sym with
  | nil => rfl
  | cons c cs ih =>
    unfold trackFrom
    rw [ih (step c sym) fun c' hc' => h c' (by simp [hc'])]
    obtain ⟨h1, h2⟩ := h c (by simp)
    unfold step stepB
    rw [h2]
    simp [h1]

end MetricCtors
end TFMA
