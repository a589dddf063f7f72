import Verif.Props.CrossSlice
import Mathlib.Tactic.Ring

/-!
# C91: differences between models and between slices together
-/

namespace TFMA
namespace Evaluate

open Slicer MetricKeys

variable {V : Type}

private theorem mapValues_mem {X A : Type} (f : A → Except Err A) (l out : List (X × A)) (h : mapValues f l = .ok out) (k : X) (b : A) :
    (k, b) ∈ out ↔ ∃ a, (k, a) ∈ l ∧ f a = .ok b := by
  induction l generalizing out with
  | nil => cases h; simp
  | cons p l ih =>
    obtain ⟨k0, a0⟩ := p
    unfold mapValues at h
    split at h
    · cases h
    · rename_i b0 h0
      split at h
      · cases h
      · rename_i out' h'
        cases h
        simp only [List.mem_cons, Prod.mk.injEq, ih _ h']
        constructor
        · rintro (⟨rfl, rfl⟩ | ⟨a, h1, h2⟩)
          · exact ⟨a0, .inl ⟨rfl, rfl⟩, h0⟩
          · exact ⟨a, .inr h1, h2⟩
        · rintro ⟨a, ⟨rfl, rfl⟩ | h1, h2⟩
          · rw [h0] at h2; cases h2; exact .inl ⟨rfl, rfl⟩
          · exact .inr ⟨a, h1, h2⟩

private theorem mapValues_keys {X A : Type} (f : A → Except Err A) (l out : List (X × A)) (h : mapValues f l = .ok out) :
    out.map Prod.fst = l.map Prod.fst := by
  induction l generalizing out with
  | nil => cases h; rfl
  | cons p l ih =>
    unfold mapValues at h
    split at h
    · cases h
    · split at h
      · cases h
      · rename_i out' h'
        cases h
        simp [ih _ h']

private theorem addDerived_nodup (cs : List (Computation (Results V → Except Err (Results V)))) (d r : Results V) (hd : Dict.WF d)
    (h : addDerived cs d = .ok r) : Dict.WF r := by
  induction cs generalizing d with
  | nil => cases h; exact hd
  | cons c cs ih =>
    unfold addDerived at h
    split at h
    · cases h
    · exact ih _ (WF_updateWith hd _) h

private theorem crossLoop_nodup (ops : Ops V) (base items acc r : Results V) (ha : Dict.WF acc)
    (h : crossLoop ops base items acc = .ok r) : Dict.WF r := by
  induction items generalizing acc with
  | nil => cases h; exact ha
  | cons p items ih =>
    obtain ⟨k, kd, v⟩ := p
    unfold crossLoop at h
    split at h
    · exact ih _ ha h
    · split_ifs at h
      · exact ih _ ha h
      · exact ih _ ha h
      · exact ih _ ha h
      · split at h
        · cases h
        · exact ih _ (WF_put ha _ _ _) h

/-- **C91**: in the results of an evaluation with a baseline model and cross slice comparisons, a metric of a pair of slices is the
value of the first minus that of the second; and its difference to the baseline model is the difference of the two slices'
differences to the baseline model.  `num` embeds numbers into the values of metrics. -/
theorem C91_difference_of_differences (c : NumCodec) (ops : Ops V) (derived : List (Computation (Results V → Except Err (Results V))))
    (specs : List CrossSpec) (b : String) (hb : b ≠ "") (slices : List (SliceKey × Results V)) (out : List (AnyKey × Results V))
    (num : ℚ → V) (hsub : ∀ p q, ops.sub (num p) (num q) = .ok (num (p - q))) (hdiff : ∀ p, ops.diffable (num p) = true)
    (hwf : ∀ s ∈ slices, Dict.WF s.2) (hnd : (slices.map Prod.fst).Nodup)
    (h : addAllDerived c ops derived [] specs (some b) slices = .ok out)
    (x y : SliceKey) (m mx my : Results V) (hm : (AnyKey.cross x y, m) ∈ out) (hx : (AnyKey.single x, mx) ∈ out)
    (hy : (AnyKey.single y, my) ∈ out) (k : MetricKey) (hk : ¬ PrivateName k.name) (hmod : k.modelName ≠ b)
    (hd : k.isDiff = false) (v1 v2 w1 w2 : ℚ)
    (g1 : Dict.get? mx k = some (.metric, num v1)) (g2 : Dict.get? my k = some (.metric, num v2))
    (g3 : Dict.get? mx { k with modelName := b } = some (.metric, num w1))
    (g4 : Dict.get? my { k with modelName := b } = some (.metric, num w2)) :
    Dict.get? m k = some (.metric, num (v1 - v2)) ∧
    (∃ kd, Dict.get? mx { k with isDiff := true } = some (kd, num (v1 - w1))) ∧
    (∃ kd, Dict.get? my { k with isDiff := true } = some (kd, num (v2 - w2))) ∧
    ∃ kd, Dict.get? m { k with isDiff := true } = some (kd, num ((v1 - w1) - (v2 - w2))) := by
  unfold addAllDerived at h
  split at h
  · cases h
  rename_i s hs
  split at h
  · cases h
  rename_i s' hs'
  have hkeys := mapValues_keys _ _ _ hs
  have hsnd : (s.map Prod.fst).Nodup := by rw [hkeys]; exact hnd
  have hswf : ∀ p ∈ s, Dict.WF p.2 := by
    rintro ⟨k, d⟩ hp
    obtain ⟨a, ha, he⟩ := (mapValues_mem _ _ _ hs k d).1 hp
    exact addDerived_nodup _ _ _ (hwf _ ha) he
  obtain ⟨hsingle, pairs, hpairs, hcross⟩ := C33_slices_kept c ops [] specs s s' hs'
  obtain ⟨m0, hm0, em⟩ := (mapValues_mem _ _ _ h _ _).1 hm
  obtain ⟨mx0, hx0, ex⟩ := (mapValues_mem _ _ _ h _ _).1 hx
  obtain ⟨my0, hy0, ey⟩ := (mapValues_mem _ _ _ h _ _).1 hy
  rw [hsingle] at hx0 hy0
  rw [hcross] at hm0
  obtain ⟨-, -, mb, mc, hmb, hmc, -, hcm⟩ := (C33_pairs c ops [] s specs pairs hpairs x y m0).1 hm0
  have uniq : ∀ {k : SliceKey} {d e : Results V}, (k, d) ∈ s → (k, e) ∈ s → d = e := by
    intro k d e h1 h2
    have := List.inj_on_of_nodup_map hsnd h1 h2 rfl
    exact (Prod.mk.inj this).2
  obtain rfl := uniq hmb hx0
  obtain rfl := uniq hmc hy0
  have wx := hswf _ hmb
  have wy := hswf _ hmc
  have wm : Dict.WF m0 := by
    unfold crossMetrics at hcm
    split at hcm
    · cases hcm
    · rename_i r hr
      cases hcm
      exact crossLoop_nodup _ _ _ _ _ Dict.WF_nil hr
  rw [C32_values_unchanged ops b hb _ _ wx ex k hd] at g1
  rw [C32_values_unchanged ops b hb _ _ wy ey k hd] at g2
  rw [C32_values_unchanged ops b hb _ _ wx ex _ (by exact hd)] at g3
  rw [C32_values_unchanged ops b hb _ _ wy ey _ (by exact hd)] at g4
  have hkb : ({ k with modelName := b, isDiff := false } : MetricKey) = { k with modelName := b } := by
    cases k; simp_all
  have m1 : Dict.get? m0 k = some (.metric, num (v1 - v2)) :=
    (C33_values ops mb mc m0 wy hcm k .metric _).2 ⟨_, _, _, g2, g1, hk, rfl, hsub _ _⟩
  have m2 : Dict.get? m0 { k with modelName := b } = some (.metric, num (w1 - w2)) :=
    (C33_values ops mb mc m0 wy hcm _ .metric _).2 ⟨_, _, _, g4, g3, hk, rfl, hsub _ _⟩
  refine ⟨?_, ?_, ?_, ?_⟩
  · rw [C32_values_unchanged ops b hb _ _ wm em k hd, m1]
  · obtain ⟨z, kd, hz, hg, -⟩ := C32_difference ops b hb _ _ wx ex k .metric (num v1) (num w1)
      ⟨g1, hk, hd, hmod, ⟨_, by rw [hkb]; exact g3⟩, hdiff _⟩
    rw [hsub] at hz; cases hz
    exact ⟨kd, hg⟩
  · obtain ⟨z, kd, hz, hg, -⟩ := C32_difference ops b hb _ _ wy ey k .metric (num v2) (num w2)
      ⟨g2, hk, hd, hmod, ⟨_, by rw [hkb]; exact g4⟩, hdiff _⟩
    rw [hsub] at hz; cases hz
    exact ⟨kd, hg⟩
  · obtain ⟨z, kd, hz, hg, -⟩ := C32_difference ops b hb _ _ wm em k .metric (num (v1 - v2)) (num (w1 - w2))
      ⟨m1, hk, hd, hmod, ⟨_, by rw [hkb]; exact m2⟩, hdiff _⟩
    rw [hsub] at hz; cases hz
    refine ⟨kd, ?_⟩
    rw [hg, show (v1 - v2) - (w1 - w2) = (v1 - w1) - (v2 - w2) by ring]

/-- Non-vacuous: two slices, a candidate and a baseline model. -/
example (c : NumCodec) :
    addAllDerived c ⟨fun _ => true, fun a b => .ok (a - b)⟩ [] [] [⟨⟨[], []⟩, []⟩] (some "b")
      [([], [({ name := "m" }, .metric, 7), ({ name := "m", modelName := "b" }, .metric, 4)]),
        ([("f", .str "x")], [({ name := "m" }, .metric, 5), ({ name := "m", modelName := "b" }, .metric, (1 : ℤ))])] =
      .ok [(.single [], [({ name := "m" }, .metric, 7), ({ name := "m", modelName := "b" }, .metric, 4),
          ({ name := "m", isDiff := true }, .metric, 3)]),
        (.single [("f", .str "x")], [({ name := "m" }, .metric, 5), ({ name := "m", modelName := "b" }, .metric, 1),
          ({ name := "m", isDiff := true }, .metric, 4)]),
        (.cross [] [("f", .str "x")], [({ name := "m" }, .metric, 2), ({ name := "m", modelName := "b" }, .metric, 3),
          ({ name := "m", isDiff := true }, .metric, -1)])] := by
  rfl

end Evaluate
end TFMA
