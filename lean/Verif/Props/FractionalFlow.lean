import Verif.Props.InputsFlow

/-!
# C27: fractional labels from the inputs to the binary examples
-/

namespace TFMA
namespace Inputs

/-- What becomes of one label, prediction and weight: a negative and a positive example sharing the weight, without examples of
weight zero. -/
def splitSpec (w : ℚ) (y : ℚ) (q : Fl) : List Item :=
  (if w * (1 - y) = 0 then [] else [⟨one 0, one q, one (w * (1 - y))⟩]) ++
    (if w * y = 0 then [] else [⟨one 1, one q, one (w * y)⟩])

private theorem fractional_split (w y : ℚ) (q : Fl) (hy : 0 ≤ y ∧ y ≤ 1) :
    fractionalLabels ⟨one y, one q, one w⟩ = .ok (splitSpec w y q) := by
  have hin : withinInterval y 0 1 = true := by
    unfold withinInterval epsilon
    simp only [Bool.and_eq_true, decide_eq_true_eq]
    constructor <;> linarith [hy.1, hy.2]
  simp only [fractionalLabels, one, hin, splitSpec]
  by_cases h1 : w * (1 - y) = 0 <;> by_cases h2 : w * y = 0 <;>
    simp [List.filter_cons, mathIsClose_zero, ← Bool.not_eq_true, h1, h2, one]

private theorem mapE_split (w : ℚ) (ls : List ℚ) (ps : List Fl) (hl : ∀ y ∈ ls, 0 ≤ y ∧ y ≤ 1) :
    mapE fractionalLabels (pairs ls ps w) = .ok (List.zipWith (splitSpec w) ls ps) := by
  induction ls generalizing ps with
  | nil => rfl
  | cons y ls ih =>
    cases ps with
    | nil => rfl
    | cons q ps =>
      have := ih ps fun z hz => hl z (by simp [hz])
      unfold pairs at this ⊢
      simp only [List.zipWith_cons_cons, mapE, fractional_split w y q (hl y (by simp)), this, bind, Except.bind, pure,
        Except.pure]

private theorem emit_split (l : Arr ℚ) (p : Arr Fl) (w : Arr ℚ) (x : ℚ) (hl : l.WF) (hp : p.WF)
    (hw : w.data = [x]) (hlen : l.size = p.size) (hpos : 0 < p.size) :
    emit { weighted with fractional := true } (some l, some p) w =
      (mapE fractionalLabels (pairs l.data p.data x)).map List.flatten := by
  have hn : ¬ p.size = 0 := by omega
  have h := yield_dense (atLeast1 l) (atLeast1 p) x (prod_atLeast1 l hl) (prod_atLeast1 p hp) (atLeast1_ne l)
    (atLeast1_ne p) (by rw [atLeast1_size, atLeast1_size, hlen]) (by rw [atLeast1_size]; exact hpos)
  rw [atLeast1_size, atLeast1_data, atLeast1_data] at h
  have hn' : (decide ¬l.size = 0) = true := by simp; omega
  simp only [emit, weighted, if_true, orEmpty, atLeast1_size, hn, if_false, flattenWeights_one _ w x hw,
    applyClassWeights, yieldAll, bind, Except.bind, Bool.true_and, pure, Except.pure, h, ne_eq, hn']
  cases mapE fractionalLabels (pairs l.data p.data x) <;> rfl

/-- C27: with fractional labels every label between 0 and 1 becomes a negative and a positive example sharing the weight in
proportion, in order. -/
theorem C27_flow (part) (l : Arr ℚ) (p : Arr Fl) (ws : List ℕ) (w : ℚ) (hl : l.WF) (hp : p.WF)
    (hlen : l.size = p.size) (hpos : 0 < p.size) (hfr : ∀ y ∈ l.data, 0 ≤ y ∧ y ≤ 1) :
    toLabelPredictionWeight part { weighted with fractional := true } (raw l p ⟨ws, [w]⟩) =
      .ok (List.zipWith (splitSpec w) l.data p.data).flatten := by
  rw [toLPW_raw part { weighted with fractional := true } rfl rfl rfl rfl]
  have h2 := emit_split l p ⟨ws, [w]⟩ w hl hp rfl hlen hpos
  rw [mapE_split w l.data p.data hfr] at h2
  exact h2

/-- C27: one label outside [0, 1] (beyond the tolerance) fails the whole example. -/
theorem C27_flow_rejects (part) (l : Arr ℚ) (p : Arr Fl) (ws : List ℕ) (w : ℚ) (hl : l.WF) (hp : p.WF)
    (hlen : l.size = p.size) (hpos : 0 < p.size) (y : ℚ) (hy : y ∈ l.data) (hout : y < -1 / 10000000 ∨ 1 + 1 / 10000000 < y) :
    toLabelPredictionWeight part { weighted with fractional := true } (raw l p ⟨ws, [w]⟩) = .error .valueError := by
  rw [toLPW_raw part { weighted with fractional := true } rfl rfl rfl rfl]
  have h2 := emit_split l p ⟨ws, [w]⟩ w hl hp rfl hlen hpos
  have herr : ∀ (ls : List ℚ) (ps : List Fl), y ∈ ls → ls.length = ps.length →
      mapE fractionalLabels (pairs ls ps w) = .error .valueError := by
    intro ls
    induction ls with
    | nil => intro ps h; cases h
    | cons z ls ih =>
      intro ps hm hlen
      cases ps with
      | nil => cases hlen
      | cons q ps =>
        unfold pairs at ih ⊢
        simp only [List.zipWith_cons_cons, mapE, bind, Except.bind]
        rcases List.mem_cons.1 hm with rfl | hm
        · rw [(C27_rejects_iff y w (one q)).2 hout]
        · cases hz : fractionalLabels ⟨one z, one q, one w⟩ with
          | error e =>
            have : e = .valueError := by
              by_cases hin : withinInterval z 0 1 = true <;> simp [fractionalLabels, one, hin] at hz
              exact hz.symm
            subst this; rfl
          | ok v =>
            rw [ih ps hm (by simpa using hlen)]
  rw [herr l.data p.data hy hlen] at h2
  exact h2

/-- C27: without a label there is nothing to split: the prediction is passed on. -/
theorem C27_flow_no_label (part) (q : Fl) (w : ℚ) :
    toLabelPredictionWeight part { weighted with fractional := true, allowNone := true }
      ⟨.leaf none, .leaf (some (one q)), .leaf (some (one w))⟩ =
      toLabelPredictionWeight part { weighted with allowNone := true }
      ⟨.leaf none, .leaf (some (one q)), .leaf (some (one w))⟩ := by
  rfl

/-- Non-vacuous: two labels, one of them fractional. -/
example (part) : toLabelPredictionWeight part { weighted with fractional := true }
    (raw ⟨[2], [1 / 4, 1]⟩ ⟨[2], [.fin (1 / 2), .fin (3 / 4)]⟩ ⟨[1], [4]⟩) =
    .ok [⟨one 0, one (.fin (1 / 2)), one 3⟩, ⟨one 1, one (.fin (1 / 2)), one 1⟩, ⟨one 1, one (.fin (3 / 4)), one 4⟩] := by
  rw [C27_flow part _ _ _ _ (by simp [Arr.WF]) (by simp [Arr.WF]) rfl (by decide) (by decide +kernel)]
  norm_num [splitSpec]

end Inputs
end TFMA
