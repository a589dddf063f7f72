import Verif.Lemmas.MetricCtors

/-!
# Making a metric again from its config
-/

namespace TFMA
namespace MetricCtors

variable {V : Type}

/-! ### classes whose constructors pass their parameters on -/

/-- There is certainly a value. -/
def present : Sym V → Bool
  | .own _ => true
  | .ownOr _ _ _ => true
  | .const _ => true
  | .extraOr _ _ => true
  | _ => false

/-- The names the constructors mention. -/
def keysOf (cs : List (Ctor V)) : List String := cs.flatMap fun c => c.params.map Prod.fst ++ c.passes.map Prod.fst

/-- A parameter ends up under its own name; what is no parameter comes from the other arguments under the same name, or is left out of
the config. -/
def keyOk (c : Class V) (c0 : Ctor V) (k : String) : Bool :=
  match c0.has k, track c.ctors k with
  | true, .own p => p == k && !c.removes.contains k && k != "fn"
  | true, .ownOr _ _ _ => k == "name"
  | false, .absent => !c0.extras || k == "preprocessors"
  | false, .const v => !c0.extras && ((c.drops.contains k && isNone v) || c.removes.contains k)
  | false, .extra p => p == k && !c.drops.contains k && !c.removes.contains k
  | false, .extraOr p v => p == k && c.drops.contains k && isNone v && !c.removes.contains k
  | _, _ => false

/-- How the first constructor passes on the name. -/
def name0Ok (c : Class V) (c0 : Ctor V) (cs : List (Ctor V)) : Bool :=
  match Dict.get? c0.passes "name" with
  | none => true
  | some (.param p) => p == "name" && (match track c.ctors "name" with
    | .own p => p == "name"
    | _ => false)
  | some (.orElse p q _) => cs.isEmpty && p == "name" && q != "name" && c0.has p && c0.has q && c.dflt.getD "" == ""
  | _ => false

/-- The condition under which the config of a metric makes it again. -/
def good (c : Class V) : Bool :=
  match c.ctors with
  | [] => false
  | c0 :: cs => levelOk c.drops c0 && cs.all (fun d => levelOk c.drops d && nameOk d) && name0Ok c c0 cs &&
    (keysOf c.ctors).all (keyOk c c0) && c.drops.all (fun k => present (track c.ctors k) && k != "name" && k != "fn") &&
    c.removes.all (fun k => present (track c.ctors k) && k != "name") && decide c.drops.Nodup && decide c.removes.Nodup &&
    c.removes.all fun k => !c.drops.contains k

theorem present_some (env : Env V) (x : Dict String (Val V)) (s : Sym V) (o : Option (Val V)) (hp : present s = true) (h : Den env x s o) :
    ∃ v, o = some v := by
  cases s with
  | own _ => exact ⟨_, h⟩
  | ownOr _ _ _ => exact ⟨_, h⟩
  | const _ => exact ⟨_, h⟩
  | extraOr _ _ => exact ⟨_, h⟩
  | extra _ => cases hp
  | absent => cases hp
  | unknown => cases hp

theorem not_key (cs : List (Ctor V)) (k : String) (h : k ∉ keysOf cs) : ∀ c ∈ cs, c.has k = false ∧ Dict.get? c.passes k = none := by
  intro c hc
  simp only [keysOf, List.mem_flatMap, List.mem_append, not_exists, not_and, not_or] at h
  obtain ⟨h1, h2⟩ := h c hc
  refine ⟨?_, (Dict.get?_eq_none_iff _ _).2 h2⟩
  unfold Ctor.has
  rw [Dict.has_eq_false_iff]
  exact h1

theorem round_trip (c : Class V) (hg : good c = true) (kw : Dict String (Val V)) (hfn : Dict.get? kw "fn" = none)
    (hpre : Dict.get? kw "preprocessors" = none) (m : Metric V) (h : c.make kw = .ok m) :
    ∃ cfg m', c.getConfig m = .ok cfg ∧ c.fromConfig cfg = .ok m' ∧ m'.name = m.name ∧
      ∀ k, Dict.get? m'.kwargs k = Dict.get? m.kwargs k := by
  classical
  unfold good at hg
  cases hcs : c.ctors with
  | nil => rw [hcs] at hg; cases hg
  | cons c0 cs =>
    rw [hcs] at hg
    simp only [Bool.and_eq_true, List.all_eq_true, decide_eq_true_eq] at hg
    obtain ⟨⟨⟨⟨⟨⟨⟨⟨hl0, hl⟩, hn0⟩, hkeys⟩, hdrops⟩, hrem⟩, hnd⟩, hnr⟩, hdis⟩ := hg
    -- the first construction
    unfold Class.make at h
    cases hK : construct c.ctors kw with
    | error e => rw [hK] at h; cases h
    | ok K =>
      rw [hK] at h
      cases h
      rw [hcs] at hK
      unfold construct at hK
      cases hcall : call c0 kw with
      | error e => rw [hcall] at hK; cases hK
      | ok r =>
        simp only [hcall] at hK
        unfold call at hcall
        cases hb : bind c0 kw with
        | error e => rw [hb] at hcall; cases hcall
        | ok b =>
          obtain ⟨env, x⟩ := b
          simp only [hb] at hcall
          obtain ⟨b1, b2, b3, b4⟩ := bind_ok c0 kw x env hb
          have hden0 : ∀ (env : Env V) (x r : Dict String (Val V)), (∀ k, c0.has k = true → Dict.get? x k = none) → body c0 env x = .ok r →
              ∀ k, Den env x (stepB c0 .own .extra k) (Dict.get? r k) := fun env x r hx hbody =>
            body_den env x c0 env x r _ _ (fun _ _ => rfl) (fun _ _ => rfl) hx hbody
          have hden : ∀ k, Den env x (track c.ctors k) (Dict.get? K k) := by
            rw [hcs]
            exact construct_den env x cs r K _ (hden0 env x r (fun k hk => by rw [b1 k, hk]; rfl) hcall) hK
          have hother : ∀ k, k ∉ keysOf c.ctors → track c.ctors k = .extra k := by
            intro k hk
            have hno := not_key c.ctors k hk
            rw [hcs] at hno ⊢
            simp only [track]
            rw [trackFrom_other cs _ k fun d hd => hno d (by simp [hd])]
            unfold stepB
            obtain ⟨e1, e2⟩ := hno c0 (by simp)
            rw [e2]; simp [e1]
          have hxnone : c0.extras = false → ∀ k, Dict.get? x k = none := by
            intro he k
            rw [b1 k]
            cases hh : c0.has k with
            | true => rfl
            | false =>
              simp only [Bool.false_eq_true, if_false]
              cases hk : Dict.get? kw k with
              | none => rfl
              | some v => rcases b2 k v hk with h | h <;> simp_all
          -- the config
          have hMd : ∀ a ∈ c.drops, ∃ v, Dict.get? (init c.dflt K).kwargs a = some v := by
            intro a ha
            have := hdrops a ha
            rw [← hcs] at this
            obtain ⟨v, hv⟩ := present_some env x _ _ this.1.1 (hden a)
            rw [init_get, if_neg (by simpa using this.1.2)]
            exact ⟨v, hv⟩
          obtain ⟨c1, hc1, hc1'⟩ := dropNone_ok c.drops hnd (init c.dflt K).kwargs hMd
          have hMr : ∀ a ∈ c.removes, ∃ v, Dict.get? c1 a = some v := by
            intro a ha
            have := hrem a ha
            rw [← hcs] at this
            obtain ⟨v, hv⟩ := present_some env x _ _ this.1 (hden a)
            have hnot : a ∉ c.drops := by simpa using hdis a ha
            rw [hc1' a, if_neg (fun h => hnot h.1), init_get, if_neg (by simpa using this.2)]
            exact ⟨v, hv⟩
          obtain ⟨cfg, hcfg, hcfg'⟩ := removeAll_ok c.removes hnr c1 hMr
          refine ⟨cfg, ?_⟩
          have hget : c.getConfig (init c.dflt K) = .ok cfg := by unfold Class.getConfig; rw [hc1]; exact hcfg
          have hG : ∀ k, Dict.get? (Dict.del cfg "fn") k = if k = "fn" ∨ k ∈ c.removes then none
              else if k ∈ c.drops ∧ Dict.get? (init c.dflt K).kwargs k = some .none then none
              else if k = "name" then (Dict.get? K k).map (fixName c.dflt) else Dict.get? K k := by
            intro k
            rw [Dict.get?_del, hcfg' k, hc1' k, init_get]
            by_cases h1 : k = "fn"
            · subst h1; simp
            · by_cases h2 : k ∈ c.removes
              · simp [h2]
              · have : ¬ "fn" = k := fun h => h1 h.symm
                simp [h1, h2, this]
          generalize hcf : Dict.del cfg "fn" = cf at hG
          have hname : "name" ∉ c.drops ∧ "name" ∉ c.removes := by
            constructor
            · intro h; have := hdrops _ h; simp at this
            · intro h; have := hrem _ h; simp at this
          -- what the first constructor gets
          have hown : ∀ p, c0.has p = true → p ≠ "name" → track c.ctors p = .own p ∧ p ∉ c.removes ∧ p ≠ "fn" := by
            intro p hp hne
            have hk : p ∈ keysOf c.ctors := by
              by_contra hk
              have := (not_key c.ctors p hk c0 (by rw [hcs]; simp)).1
              rw [hp] at this; cases this
            have := hkeys p (by rw [← hcs]; exact hk)
            unfold keyOk at this
            rw [hp] at this
            cases ht : track c.ctors p with
            | own q =>
              rw [ht] at this
              simp only [Bool.and_eq_true, beq_iff_eq, Bool.not_eq_true', bne_iff_ne, ne_eq] at this
              obtain ⟨⟨rfl, h1⟩, h2⟩ := this
              exact ⟨rfl, by simpa using h1, h2⟩
            | ownOr _ _ _ => rw [ht] at this; simp [hne] at this
            | const _ => rw [ht] at this; cases this
            | extra _ => rw [ht] at this; cases this
            | extraOr _ _ => rw [ht] at this; cases this
            | absent => rw [ht] at this; cases this
            | unknown => rw [ht] at this; cases this
          have hnameHas : c0.has "name" = true → ∃ v, Dict.get? K "name" = some v := by
            intro hp
            have hk : "name" ∈ keysOf c.ctors := by
              by_contra hk
              have := (not_key c.ctors "name" hk c0 (by rw [hcs]; simp)).1
              rw [hp] at this; cases this
            have := hkeys "name" (by rw [← hcs]; exact hk)
            have hd := hden "name"
            unfold keyOk at this
            rw [hp] at this
            cases ht : track c.ctors "name" with
            | own q => rw [ht] at hd; exact ⟨_, hd⟩
            | ownOr _ _ _ => rw [ht] at hd; exact ⟨_, hd⟩
            | const _ => rw [ht] at this; cases this
            | extra _ => rw [ht] at this; cases this
            | extraOr _ _ => rw [ht] at this; cases this
            | absent => rw [ht] at this; cases this
            | unknown => rw [ht] at this; cases this
          have hcfName : Dict.get? cf "name" = (Dict.get? K "name").map (fixName c.dflt) := by
            rw [hG "name", if_neg (by simp [hname.2]), if_neg (fun h => hname.1 h.1), if_pos rfl]
          have hextra : ∀ k, c0.has k = false → Dict.get? cf k = Dict.get? x k ∨
              (k ∈ c.drops ∧ Dict.get? x k = some .none ∧ Dict.get? cf k = none) ∨
              (k = "name" ∧ ∃ v, Dict.get? x k = some v ∧ Dict.get? cf k = some (fixName c.dflt v)) := by
            intro k hk
            have hplain : track c.ctors k = .extra k → k ∉ c.drops → k ∉ c.removes → Dict.get? cf k = Dict.get? x k ∨
                (k = "name" ∧ ∃ v, Dict.get? x k = some v ∧ Dict.get? cf k = some (fixName c.dflt v)) := by
              intro ht hd hr
              have hd' := hden k
              rw [ht] at hd'
              have hd' : Dict.get? K k = Dict.get? x k := hd'
              by_cases hf : k = "fn"
              · left
                subst hf
                rw [hG "fn", if_pos (.inl rfl), b1, hk]
                exact hfn.symm
              · rw [hG k, if_neg (by simp [hf, hr]), if_neg (fun h => hd h.1)]
                by_cases hn : k = "name"
                · subst hn
                  rw [if_pos rfl, hd']
                  cases hv : Dict.get? x "name" with
                  | none => left; rfl
                  | some v => right; exact ⟨rfl, v, rfl, rfl⟩
                · rw [if_neg hn, hd']; left; rfl
            by_cases hkk : k ∈ keysOf c.ctors
            · have := hkeys k (by rw [← hcs]; exact hkk)
              have hd := hden k
              unfold keyOk at this
              rw [hk] at this
              cases ht : track c.ctors k with
              | own _ => rw [ht] at this; cases this
              | ownOr _ _ _ => rw [ht] at this; cases this
              | unknown => rw [ht] at this; cases this
              | absent =>
                rw [ht] at this hd
                have hd : Dict.get? K k = none := hd
                left
                have e1 : Dict.get? cf k = none := by
                  rw [hG k]
                  split
                  · rfl
                  · split
                    · rfl
                    · split <;> simp [hd]
                rw [e1]
                simp only [Bool.or_eq_true, Bool.not_eq_true', beq_iff_eq] at this
                rcases this with he | he
                · exact (hxnone he k).symm
                · subst he
                  rw [b1, hk]
                  exact hpre.symm
              | const v =>
                rw [ht] at this hd
                have hd : Dict.get? K k = some v := hd
                simp only [Bool.and_eq_true, Bool.or_eq_true, Bool.not_eq_true'] at this
                left
                rw [hxnone this.1 k, hG k]
                rcases this.2 with ⟨hD, hv⟩ | hR
                · have hv : v = .none := by cases v <;> first | rfl | cases hv
                  subst hv
                  have hD : k ∈ c.drops := by simpa using hD
                  have hne : k ≠ "name" := fun h => hname.1 (h ▸ hD)
                  split
                  · rfl
                  · rw [if_pos ⟨hD, by rw [init_get, if_neg hne]; exact hd⟩]
                · have hR : k ∈ c.removes := by simpa using hR
                  rw [if_pos (.inr hR)]
              | extra p =>
                rw [ht] at this
                simp only [Bool.and_eq_true, beq_iff_eq, Bool.not_eq_true'] at this
                obtain ⟨⟨rfl, h1⟩, h2⟩ := this
                rcases hplain ht (by simpa using h1) (by simpa using h2) with h | h
                · exact .inl h
                · exact .inr (.inr h)
              | extraOr p v =>
                rw [ht] at this hd
                simp only [Bool.and_eq_true, beq_iff_eq, Bool.not_eq_true'] at this
                obtain ⟨⟨⟨rfl, h1⟩, h2⟩, h3⟩ := this
                have hD : p ∈ c.drops := by simpa using h1
                have hR : p ∉ c.removes := by simpa using h3
                have hv : v = .none := by cases v <;> first | rfl | cases h2
                subst hv
                have hd : Dict.get? K p = some ((Dict.get? x p).getD .none) := hd
                have hne : p ≠ "name" := fun h => hname.1 (h ▸ hD)
                have hf : p ≠ "fn" := by have := hdrops p hD; simpa using this.2
                rw [hG p, if_neg (by simp [hf, hR]), init_get, if_neg hne]
                cases hx : Dict.get? x p with
                | none => left; rw [hd, hx]; simp [hD]
                | some w =>
                  rw [hd, hx]
                  by_cases hw : w = .none
                  · subst hw; right; left; simp [hD]
                  · left; simp [hw]
            · have ht := hother k hkk
              have hd : k ∉ c.drops := by
                intro hd
                have := hdrops k hd
                rw [← hcs, ht] at this
                simp [present] at this
              have hr : k ∉ c.removes := by
                intro hd
                have := hrem k hd
                rw [← hcs, ht] at this
                simp [present] at this
              rcases hplain ht hd hr with h | h
              · exact .inl h
              · exact .inr (.inr h)
          have hl0' := hl0
          simp only [levelOk, Bool.and_eq_true, List.all_eq_true] at hl0'
          have hdef : ∀ p d, (p, d) ∈ c0.params → p ∈ c.drops → d = some .none := by
            intro p d hp hD
            have := hl0'.2 (p, d) hp
            have hc : c.drops.contains p = true := List.contains_iff_mem.2 hD
            rw [hc] at this
            cases d with
            | none => cases this
            | some v =>
              cases v with
              | none => rfl
              | _ => cases this
          have hcfOwn : ∀ p, c0.has p = true → p ≠ "name" →
              (Dict.get? cf p = some (env p) ∨ (p ∈ c.drops ∧ env p = .none ∧ Dict.get? cf p = none)) := by
            intro p hp hne
            obtain ⟨h1, h2, h3⟩ := hown p hp hne
            have hd := hden p
            rw [h1] at hd
            have hd : Dict.get? K p = some (env p) := hd
            rw [hG p, if_neg (by simp [h2, h3]), init_get, if_neg hne, hd]
            by_cases hD : p ∈ c.drops ∧ env p = .none
            · right; refine ⟨hD.1, hD.2, ?_⟩; rw [if_pos ⟨hD.1, by rw [hD.2]⟩]
            · left; rw [if_neg (fun h => hD ⟨h.1, Option.some.inj h.2⟩)]
          have hb' : ∃ env' x', bind c0 cf = .ok (env', x') := by
            unfold bind
            have e1 : ¬ (cf.any fun x => !c0.has x.1 && !c0.extras) = true := by
              simp only [List.any_eq_true, not_exists, not_and]
              intro y hy
              obtain ⟨v, hv⟩ := (Dict.mem_keys_iff cf y.1).1 (List.mem_map_of_mem (f := Prod.fst) hy)
              cases hh : c0.has y.1 with
              | true => simp
              | false =>
                cases he : c0.extras with
                | true => simp
                | false =>
                  exfalso
                  have hx := hxnone he y.1
                  rcases hextra y.1 hh with h | ⟨-, h, -⟩ | ⟨-, w, h, -⟩
                  · rw [h, hx] at hv; cases hv
                  · rw [hx] at h; cases h
                  · rw [hx] at h; cases h
            have e2 : ¬ (c0.params.any fun p => p.2.isNone && !Dict.has cf p.1) = true := by
              simp only [List.any_eq_true, not_exists, not_and]
              rintro ⟨p, d⟩ hp
              have hh : c0.has p = true := by
                unfold Ctor.has; rw [Dict.has_iff]; exact List.mem_map_of_mem (f := Prod.fst) hp
              by_cases hne : p = "name"
              · subst hne
                obtain ⟨v, hv⟩ := hnameHas hh
                simp [Dict.has, hcfName, hv]
              · rcases hcfOwn p hh hne with h | ⟨hD, -, -⟩
                · simp [Dict.has, h]
                · rw [hdef p d hp hD]; simp
            simp only [e1, e2, Bool.false_eq_true, if_false]
            exact ⟨_, _, rfl⟩
          obtain ⟨env', x', hb'⟩ := hb'
          obtain ⟨g1, -, g3, g4⟩ := bind_ok c0 cf x' env' hb'
          have henv : ∀ p, c0.has p = true → p ≠ "name" → env' p = env p := by
            intro p hp hne
            rcases hcfOwn p hp hne with h | ⟨hD, h1, h2⟩
            · exact g4 p _ h
            · obtain ⟨v, e1, e2⟩ := g3 p hp h2
              have := hdef p (some v) (Dict.mem_of_get? e1) hD
              cases this
              rw [e2, h1]
          have hrel0 : Rel c.drops c.dflt x x' := by
            intro k
            rw [g1 k]
            cases hh : c0.has k with
            | true => left; rw [b1 k, hh]; rfl
            | false => simpa using hextra k hh
          obtain ⟨r', hbody', hrel1⟩ : ∃ r', body c0 env' x' = .ok r' ∧ Rel c.drops c.dflt r r' := by
            refine body_rel c.drops c.dflt c0 hl0 env env' x x' r henv (fun s hs => ?_) hrel0 hcall
            have hn := hn0
            unfold name0Ok at hn
            rw [hs] at hn
            cases s with
            | const v => cases hn
            | fn g => cases hn
            | param p =>
              simp only [Bool.and_eq_true, beq_iff_eq] at hn
              obtain ⟨rfl, hn⟩ := hn
              have hp : c0.has "name" = true := by
                have hm := hl0'.1.1 ("name", .param "name") (Dict.mem_of_get? hs)
                simp only [Bool.and_eq_true] at hm
                exact hm.1
              have hd := hden "name"
              cases ht : track c.ctors "name" with
              | own q =>
                rw [ht] at hn hd
                have hq : q = "name" := by simpa using hn
                subst hq
                have hd : Dict.get? K "name" = some (env "name") := hd
                right
                simp only [Src.eval]
                exact g4 "name" _ (by rw [hcfName, hd]; rfl)
              | ownOr _ _ _ => rw [ht] at hn; cases hn
              | const _ => rw [ht] at hn; cases hn
              | extra _ => rw [ht] at hn; cases hn
              | extraOr _ _ => rw [ht] at hn; cases hn
              | absent => rw [ht] at hn; cases hn
              | unknown => rw [ht] at hn; cases hn
            | orElse p q f =>
              simp only [Bool.and_eq_true, beq_iff_eq, bne_iff_ne, ne_eq, List.isEmpty_iff] at hn
              obtain ⟨⟨⟨⟨⟨rfl, rfl⟩, hq⟩, hp1⟩, hp2⟩, hdf⟩ := hn
              have hKr : r = K := by cases hK; rfl
              obtain ⟨-, -, hr⟩ := body_ok c0 env x r hcall
              rw [hKr] at hr
              have hrn : Dict.get? K "name" = some (if truthy (env "name") then env "name" else f (env q)) := by
                rw [hr "name", hs]; rfl
              have hfix : ∀ v : Val V, fixName c.dflt v = v := by
                intro v; unfold fixName; rw [hdf]; simp
              have he : env' "name" = if truthy (env "name") then env "name" else f (env q) :=
                g4 "name" _ (by rw [hcfName, hrn, Option.map_some, hfix])
              left
              simp only [Src.eval]
              rw [he, henv q hp2 hq]
              by_cases ht : truthy (env "name") = true
              · simp [ht]
              · simp [ht]
          obtain ⟨K', hK', hrel⟩ := construct_rel c.drops c.dflt cs (fun d hd => by
            have := hl d hd
            simpa [Bool.and_eq_true] using this) r r' K hrel1 hK
          have hden' : ∀ k, Den env' x' (track c.ctors k) (Dict.get? K' k) := by
            rw [hcs]
            exact construct_den env' x' cs r' K' _ (hden0 env' x' r' (fun k hk => by rw [g1 k, hk]; rfl) hbody') hK'
          have hfinal : ∀ k, Dict.get? (init c.dflt K').kwargs k = Dict.get? (init c.dflt K).kwargs k := by
            intro k
            rw [init_get, init_get]
            rcases hrel k with h | ⟨hD, -, h⟩ | ⟨rfl, v, h1, h2⟩
            · rw [h]
            · have := hdrops k hD
              rw [← hcs] at this
              obtain ⟨v, hv⟩ := present_some env' x' _ _ this.1.1 (hden' k)
              rw [h] at hv; cases hv
            · rw [if_pos rfl, if_pos rfl, h1, h2]
              simp only [Option.map_some, fixName_fixName]
          refine ⟨init c.dflt K', hget, ?_, ?_, hfinal⟩
          · unfold Class.fromConfig Class.make
            rw [hcf, hcs]
            simp only [construct, call, hb', hbody', hK']
          · have := hfinal "name"
            rw [init_get, init_get, if_pos rfl, if_pos rfl] at this
            rw [init_name, init_name, this]


/-- What a metric is made of. -/
theorem make_den (c : Class V) (c0 : Ctor V) (cs : List (Ctor V)) (hcs : c.ctors = c0 :: cs) (kw : Dict String (Val V)) (m : Metric V)
    (h : c.make kw = .ok m) :
    ∃ env x K, bind c0 kw = .ok (env, x) ∧ m = init c.dflt K ∧ (∀ k, Den env x (track c.ctors k) (Dict.get? K k)) ∧
      (cs = [] → body c0 env x = .ok K) := by
  unfold Class.make at h
  cases hK : construct c.ctors kw with
  | error e => rw [hK] at h; cases h
  | ok K =>
    rw [hK] at h
    cases h
    rw [hcs] at hK
    unfold construct at hK
    cases hcall : call c0 kw with
    | error e => rw [hcall] at hK; cases hK
    | ok r =>
      simp only [hcall] at hK
      unfold call at hcall
      cases hb : bind c0 kw with
      | error e => rw [hb] at hcall; cases hcall
      | ok b =>
        obtain ⟨env, x⟩ := b
        simp only [hb] at hcall
        obtain ⟨b1, b2, b3, b4⟩ := bind_ok c0 kw x env hb
        refine ⟨env, x, K, rfl, rfl, ?_, ?_⟩
        · rw [hcs]
          exact construct_den env x cs r K _ (body_den env x c0 env x r _ _ (fun _ _ => rfl) (fun _ _ => rfl)
            (fun k hk => by rw [b1 k, hk]; rfl) hcall) hK
        · rintro rfl
          cases hK
          exact hcall

/-- A config with an entry that the constructor does not take, or passes on itself as well, makes no metric. -/
theorem refused (c : Class V) (c0 : Ctor V) (cs : List (Ctor V)) (hcs : c.ctors = c0 :: cs)
    (hd : (c.drops.all fun a => present (track c.ctors a) && a != "name") = true) (hnd : c.drops.Nodup) (hr : c.removes = [])
    (hch : c0.checks = []) (kw : Dict String (Val V)) (m : Metric V) (h : c.make kw = .ok m) (k : String) (v : Val V)
    (hk : c0.has k = false) (hx : c0.extras = false ∨ Dict.has c0.passes k = true) (hkf : k ≠ "fn")
    (hv : Dict.get? m.kwargs k = some v) (hvn : k ∈ c.drops → v ≠ .none) :
    ∃ cfg, c.getConfig m = .ok cfg ∧ c.fromConfig cfg = .error .typeError := by
  classical
  obtain ⟨env, x, K, -, rfl, hden, -⟩ := make_den c c0 cs hcs kw m h
  simp only [List.all_eq_true, Bool.and_eq_true, bne_iff_ne, ne_eq] at hd
  obtain ⟨cfg, h1, h2⟩ := dropNone_ok c.drops hnd (init c.dflt K).kwargs fun a ha => by
    obtain ⟨w, hw⟩ := present_some env x _ _ (hd a ha).1 (hden a)
    rw [init_get, if_neg (hd a ha).2]
    exact ⟨w, hw⟩
  refine ⟨cfg, by unfold Class.getConfig; rw [h1, hr]; rfl, ?_⟩
  have hcf : Dict.get? (Dict.del cfg "fn") k = some v := by
    rw [Dict.get?_del, if_neg (fun h => hkf h.symm), h2 k, if_neg, hv]
    rintro ⟨h3, h4⟩
    rw [hv] at h4
    exact hvn h3 (Option.some.inj h4)
  have hcall : call c0 (Dict.del cfg "fn") = .error .typeError := by
    unfold call
    cases hb : bind c0 (Dict.del cfg "fn") with
    | error e =>
      unfold bind at hb
      split at hb
      · cases hb; rfl
      · split at hb
        · cases hb; rfl
        · cases hb
    | ok b =>
      obtain ⟨env', x'⟩ := b
      obtain ⟨g1, g2, -, -⟩ := bind_ok c0 _ x' env' hb
      rcases g2 k v hcf with h | h
      · rw [hk] at h; cases h
      · have hp : Dict.has c0.passes k = true := by
          rcases hx with hx | hx
          · rw [h] at hx; cases hx
          · exact hx
        have hx' : Dict.get? x' k = some v := by rw [g1 k, hk]; exact hcf
        simp only [body, hch, runChecks]
        rw [if_pos]
        refine List.any_eq_true.2 ⟨(k, v), Dict.mem_of_get? hx', ?_⟩
        rw [Dict.has_iff] at hp ⊢
        simp only [Dict.keys, List.map_map] at hp ⊢
        exact hp
  unfold Class.fromConfig Class.make
  rw [hcs]
  simp only [construct, hcall]

end MetricCtors
end TFMA
