import Verif.Model.QueryMetrics
import Verif.Lemmas.Combine
import Verif.Lemmas.EvalResults
import Verif.Props.Ndcg

/-!
# C141: metrics of queries
-/

namespace TFMA
namespace QueryMetrics

open Beam Ndcg

variable {K : Type} [Field K] [LinearOrder K] [IsStrictOrderedRing K]

/-! ### Specification -/

/-- The document has the feature with a single value, in an array of at least two dimensions. -/
def Has (key : String) (d : Doc K) (v : K) : Prop := ∃ f, d.features.get? key = some f ∧ f.values = [v] ∧ 2 ≤ f.rank

/-- The weight of a query: 1 without a weight key or without documents, otherwise the weight on which all documents agree. -/
def Weighs (weightKey : String) (docs : List (Doc K)) (w : K) : Prop :=
  if weightKey = "" ∨ docs = [] then w = 1 else ∀ d ∈ docs, Has weightKey d w

/-- The normalized gain of a ranking: its gain relative to the largest gain of any ranking of the same documents. -/
def Gains (log2 : ℕ → K) (k : ℕ) (gains : List K) (v : K) : Prop :=
  ∃ d, IsIdeal log2 k gains d ∧ v = if 0 < d then dcg log2 k gains / d else 0

/-- The first document with a positive label is at the position `p`, counted from 1; the documents before it have no label or a label
that is not positive. -/
def FirstAt (labelKey : String) (docs : List (Doc K)) (p : ℕ) : Prop :=
  ∃ before d after v, docs = before ++ d :: after ∧ p = before.length + 1 ∧ d.labels.get? labelKey = some [v] ∧ 0 < v ∧
    ∀ e ∈ before, ∀ l, e.labels.get? labelKey = some l → ∃ u, l = [u] ∧ u ≤ 0

/-- No document has a positive label. -/
def NoneAt (labelKey : String) (docs : List (Doc K)) : Prop :=
  ∀ e ∈ docs, ∀ l, e.labels.get? labelKey = some l → ∃ u, l = [u] ∧ u ≤ 0

/-! ### Features and weights -/

omit [IsStrictOrderedRing K] in
private theorem featureValue_ok (d : Doc K) (key : String) (v : K) : featureValue d key = .ok v ↔ Has key d v := by
  unfold featureValue Has
  cases h : d.features.get? key with
  | none => simp
  | some f =>
    obtain ⟨r, vs⟩ := f
    match vs with
    | [] => simp
    | [u] =>
      by_cases hr : r < 2
      · simp [hr]
      · simp [hr]; omega
    | a :: b :: c => simp

omit [IsStrictOrderedRing K] in
private theorem featureValues_ok (key : String) (ds : List (Doc K)) (vs : List K) :
    featureValues key ds = .ok vs ↔ List.Forall₂ (Has key) ds vs := by
  induction ds generalizing vs with
  | nil => cases vs <;> simp [featureValues]
  | cons d ds ih =>
    simp only [featureValues]
    cases h : featureValue d key with
    | error e =>
      refine ⟨fun h => (by cases h), fun hf => ?_⟩
      cases hf with
      | cons h1 _ => rw [(featureValue_ok d key _).2 h1] at h; cases h
    | ok v =>
      have hv := (featureValue_ok d key v).1 h
      cases h2 : featureValues key ds with
      | error e =>
        refine ⟨fun h => (by cases h), fun hf => ?_⟩
        cases hf with
        | cons _ h3 => rw [(ih _).2 h3] at h2; cases h2
      | ok us =>
        have hu := (ih us).1 h2
        constructor
        · rintro ⟨⟩; exact .cons hv hu
        · intro hf
          cases hf with
          | cons h1 h3 =>
            rw [(featureValue_ok d key _).2 h1] at h
            rw [(ih _).2 h3] at h2
            cases h; cases h2; rfl

omit [Field K] [IsStrictOrderedRing K] in
private theorem fold_min_le (ws : List K) (w : K) : ws.foldl min w ≤ w ∧ (∀ x ∈ ws, ws.foldl min w ≤ x) ∧
    w ≤ ws.foldl max w ∧ ∀ x ∈ ws, x ≤ ws.foldl max w := by
  induction ws generalizing w with
  | nil => simp
  | cons y ws ih =>
    obtain ⟨h1, h2, -, -⟩ := ih (min w y)
    obtain ⟨-, -, h3, h4⟩ := ih (max w y)
    simp only [List.foldl_cons]
    refine ⟨h1.trans (min_le_left _ _), ?_, (le_max_left _ _).trans h3, ?_⟩
    · intro x hx
      rcases List.mem_cons.1 hx with rfl | hx
      · exact h1.trans (min_le_right _ _)
      · exact h2 x hx
    · intro x hx
      rcases List.mem_cons.1 hx with rfl | hx
      · exact (le_max_right _ _).trans h3
      · exact h4 x hx

omit [Field K] [IsStrictOrderedRing K] in
private theorem fold_same (ws : List K) (w : K) : ws.foldl min w = ws.foldl max w ↔ ∀ x ∈ ws, x = w := by
  obtain ⟨h1, h2, h3, h4⟩ := fold_min_le ws w
  constructor
  · intro h x hx
    have e1 : ws.foldl min w = w := le_antisymm h1 (h ▸ h3)
    have e2 : ws.foldl max w = w := by rw [← h, e1]
    exact le_antisymm (e2 ▸ h4 x hx) (e1 ▸ h2 x hx)
  · clear h1 h2 h3 h4
    intro h
    induction ws with
    | nil => rfl
    | cons y ws ih =>
      have hy := h y (by simp)
      subst hy
      simp only [List.foldl_cons, min_self, max_self]
      exact ih fun x hx => h x (by simp [hx])

omit [IsStrictOrderedRing K] in
private theorem queryWeight_ok (key : String) (ds : List (Doc K)) (w : K) : queryWeight key ds = .ok w ↔ Weighs key ds w := by
  unfold queryWeight Weighs
  by_cases hk : key = ""
  · simp [hk, eq_comm]
  rw [if_neg hk]
  cases ds with
  | nil => simp [featureValues, eq_comm]
  | cons d ds =>
    rw [if_neg (by simp [hk])]
    cases h : featureValues key (d :: ds) with
    | error e =>
      refine ⟨fun h => (by cases h), fun hf => ?_⟩
      have : List.Forall₂ (Has key) (d :: ds) ((d :: ds).map fun _ => w) := by
        rw [List.forall₂_map_right_iff, List.forall₂_same]; exact hf
      rw [(featureValues_ok _ _ _).2 this] at h; cases h
    | ok vs =>
      have hv := (featureValues_ok _ _ _).1 h
      cases hv with
      | @cons _ v _ vs h1 h2 =>
        have huniq : ∀ {d : Doc K} {a b : K}, Has key d a → Has key d b → a = b := by
          rintro d a b ⟨f, e1, e2, -⟩ ⟨g, e3, e4, -⟩
          rw [e1] at e3; cases e3; rw [e2] at e4; cases e4; rfl
        simp only
        by_cases hs : vs.foldl min v = vs.foldl max v
        · rw [if_neg (by simpa using hs)]
          have hall := (fold_same vs v).1 hs
          constructor
          · rintro ⟨⟩
            have key2 : ∀ {ds : List (Doc K)} {vs : List K}, List.Forall₂ (Has key) ds vs → (∀ x ∈ vs, x = w) →
                ∀ d ∈ ds, Has key d w := by
              intro ds vs hf
              induction hf with
              | nil => simp
              | @cons a b _ _ hab _ ih =>
                intro hx d hd
                rcases List.mem_cons.1 hd with rfl | hd
                · rw [← hx b (by simp)]; exact hab
                · exact ih (fun x hx' => hx x (by simp [hx'])) d hd
            intro e he
            rcases List.mem_cons.1 he with rfl | he
            · exact h1
            · exact key2 h2 hall e he
          · intro hf
            rw [huniq h1 (hf d (by simp))]
        · rw [if_pos (by simpa using hs)]
          refine ⟨fun h => (by cases h), fun hf => ?_⟩
          exfalso
          apply hs
          rw [fold_same]
          have hvw := huniq h1 (hf d (by simp))
          have key2 : ∀ {ds : List (Doc K)} {vs : List K}, List.Forall₂ (Has key) ds vs → (∀ d ∈ ds, Has key d w) →
              ∀ x ∈ vs, x = w := by
            intro ds vs hf
            induction hf with
            | nil => simp
            | @cons a b _ _ hab _ ih =>
              intro hx x hx'
              rcases List.mem_cons.1 hx' with rfl | hx'
              · exact huniq hab (hx a (by simp))
              · exact ih (fun d hd => hx d (by simp [hd])) x hx'
          intro x hx
          rw [hvw]
          exact key2 h2 (fun d hd => hf d (by simp [hd])) x hx

/-! ### nDCG -/

omit [IsStrictOrderedRing K] in
private theorem loop_length {log2 : ℕ → K} {gk : String} {docs : List (Doc K)} {w : K} {ats : List ℤ} {vs : List K}
    (h : ndcgLoop log2 gk docs w ats = .ok vs) : vs.length = ats.length := by
  induction ats generalizing vs with
  | nil => cases h; rfl
  | cons a ats ih =>
    simp only [ndcgLoop] at h
    split at h
    · cases h
    · split at h
      · cases h
      · split at h
        · cases h
        · rename_i hr
          cases h
          simp [ih hr]

omit [IsStrictOrderedRing K] in
private theorem loop_get {log2 : ℕ → K} {gk : String} {docs : List (Doc K)} {w : K} {ats : List ℤ} {vs : List K}
    (h : ndcgLoop log2 gk docs w ats = .ok vs) {gains : List K} (hg : List.Forall₂ (Has gk) docs gains) (i : ℕ) (a : ℤ)
    (ha : ats[i]? = some a) : ∃ v, ndcgAt log2 gains a = .ok v ∧ vs[i]? = some (v * w) := by
  induction ats generalizing vs i with
  | nil => simp at ha
  | cons b ats ih =>
    simp only [ndcgLoop, (featureValues_ok _ _ _).2 hg] at h
    cases hb : ndcgAt log2 gains b with
    | error e => rw [hb] at h; cases h
    | ok v =>
      rw [hb] at h
      simp only at h
      cases hr : ndcgLoop log2 gk docs w ats with
      | error e => rw [hr] at h; cases h
      | ok us =>
        rw [hr] at h
        cases h
        cases i with
        | zero => simp only [List.getElem?_cons_zero, Option.some.injEq] at ha; subst ha; exact ⟨v, hb, rfl⟩
        | succ i => exact ih hr i (by simpa using ha)

omit [IsStrictOrderedRing K] in
private theorem loop_ok {log2 : ℕ → K} {gk : String} {docs : List (Doc K)} {w : K} {ats : List ℤ} :
    (∃ vs, ndcgLoop log2 gk docs w ats = .ok vs) ↔
      (ats = [] ∨ ∃ gains, List.Forall₂ (Has gk) docs gains) ∧ ∀ a ∈ ats, a < 0 → (docs.length : ℤ) + a < 2 := by
  induction ats with
  | nil => simp [ndcgLoop]
  | cons a ats ih =>
    simp only [ndcgLoop]
    cases hg : featureValues gk docs with
    | error e =>
      refine ⟨fun ⟨_, h⟩ => (by cases h), ?_⟩
      rintro ⟨h | ⟨g, h⟩, -⟩
      · cases h
      · rw [(featureValues_ok _ _ _).2 h] at hg; cases hg
    | ok gains =>
      have hf := (featureValues_ok _ _ _).1 hg
      have hl : gains.length = docs.length := hf.length_eq.symm
      simp only
      have hat : (∃ v, ndcgAt log2 gains a = .ok v) ↔ (a < 0 → (docs.length : ℤ) + a < 2) := by
        unfold ndcgAt
        by_cases h0 : a < 0
        · by_cases h2 : 2 ≤ (gains.length : ℤ) + a
          · rw [if_pos h0, if_pos h2]
            refine ⟨fun ⟨_, h⟩ => (by cases h), fun h => ?_⟩
            have := h h0; rw [hl] at h2; omega
          · rw [if_pos h0, if_neg h2]
            refine ⟨fun _ _ => by rw [hl] at h2; omega, fun _ => ⟨_, rfl⟩⟩
        · rw [if_neg h0]
          exact ⟨fun _ h => absurd h h0, fun _ => ⟨_, rfl⟩⟩
      cases hv : ndcgAt log2 gains a with
      | error e =>
        refine ⟨fun ⟨_, h⟩ => (by cases h), fun ⟨_, h⟩ => ?_⟩
        obtain ⟨v, h'⟩ := hat.2 (h a (by simp))
        rw [hv] at h'; cases h'
      | ok v =>
        have h1 := hat.1 ⟨v, hv⟩
        simp only
        cases hr : ndcgLoop log2 gk docs w ats with
        | error e =>
          refine ⟨fun ⟨_, h⟩ => (by cases h), fun ⟨_, h⟩ => ?_⟩
          obtain ⟨us, h'⟩ := ih.2 ⟨.inr ⟨gains, hf⟩, fun b hb => h b (by simp [hb])⟩
          rw [hr] at h'; cases h'
        | ok us =>
          refine ⟨fun _ => ⟨.inr ⟨gains, hf⟩, fun b hb => ?_⟩, fun _ => ⟨_, rfl⟩⟩
          rcases List.mem_cons.1 hb with rfl | hb
          · exact h1
          · exact (ih.1 ⟨us, hr⟩).2 b hb

private def V (a : Ndcgs K) : (ℕ → K) × K := (fun i => a.ndcg.getD i 0, a.weight)

private def contrib (log2 : ℕ → K) (ats : List ℤ) (gk wk : String) (docs : List (Doc K)) : Option ((ℕ → K) × K) :=
  match queryWeight wk docs with
  | .error _ => none
  | .ok w => match ndcgLoop log2 gk docs w ats with
    | .error _ => none
    | .ok vs => some (fun i => vs.getD i 0, w)

omit [LinearOrder K] [IsStrictOrderedRing K] in
private theorem V_add (n : ℕ) (a b : Ndcgs K) (ha : a.ndcg.length = n) (hb : b.ndcg.length = n) :
    V (addNdcgs a b) = V a + V b := by
  simp only [V, addNdcgs]
  ext i
  · simp only [List.getD_eq_getElem?_getD, List.getElem?_zipWith, Prod.mk_add_mk, Pi.add_apply]
    by_cases hl : i < n
    · rw [List.getElem?_eq_getElem (by omega), List.getElem?_eq_getElem (by omega)]
      simp
    · rw [List.getElem?_eq_none (by omega), List.getElem?_eq_none (by omega)]
      simp
  · rfl

omit [IsStrictOrderedRing K] in
private theorem ohom (log2 : ℕ → K) (ats : List ℤ) (gk wk : String) :
    OHom (ndcgCombiner log2 ats gk wk) (· + ·) 0 (contrib log2 ats gk wk) V (fun a => a.ndcg.length = ats.length) where
  assoc := add_assoc
  comm := add_comm
  left := zero_add
  inv_create := by simp [ndcgCombiner]
  inv_add := by
    intro a x b hi h
    simp only [ndcgCombiner, ndcgAdd] at h
    split at h
    · cases h
    · split at h
      · cases h
      · rename_i hl
        cases h
        simp [addNdcgs, hi, loop_length hl]
  create := by
    simp only [V, ndcgCombiner]
    ext i
    · simp only [List.getD_eq_getElem?_getD, List.getElem?_replicate]
      split <;> rfl
    · rfl
  add := by
    intro a x hi
    simp only [ndcgCombiner, ndcgAdd, contrib]
    cases queryWeight wk x with
    | error e => rfl
    | ok w =>
      simp only
      cases hl : ndcgLoop log2 gk x w ats with
      | error e => rfl
      | ok vs =>
        simp only [Except.toOption, Option.map_some]
        rw [V_add ats.length _ _ hi (loop_length hl)]
        rfl
  merge := by
    intro a as hi
    have key : ∀ (as : List (Ndcgs K)) (a : Ndcgs K), a.ndcg.length = ats.length → (∀ y ∈ as, y.ndcg.length = ats.length) →
        (as.foldl addNdcgs a).ndcg.length = ats.length ∧ V (as.foldl addNdcgs a) = (as.map V).foldl (· + ·) (V a) := by
      intro as
      induction as with
      | nil => intro a h _; exact ⟨h, rfl⟩
      | cons x as ih =>
        intro a h hy
        have hx := hy x (by simp)
        obtain ⟨h1, h2⟩ := ih (addNdcgs a x) (by simp [addNdcgs, h, hx]) (fun y hy' => hy y (by simp [hy']))
        refine ⟨h1, ?_⟩
        simp only [List.foldl_cons, List.map_cons]
        rw [h2, V_add ats.length a x h hx]
    obtain ⟨h1, h2⟩ := key as a (hi a (by simp)) (fun y hy => hi y (by simp [hy]))
    exact ⟨_, rfl, h1, h2⟩

private theorem total_some {M ε : Type} [AddCommMonoid M] {f : ε → Option M} {g : ε → M} {xs : List ε}
    (h : ∀ x ∈ xs, f x = some (g x)) : total (· + ·) 0 f xs = some (xs.map g).sum := by
  induction xs with
  | nil => rfl
  | cons x xs ih =>
    rw [total_cons, ih fun y hy => h y (by simp [hy]), h x (by simp)]
    simp [liftOp]

private theorem total_isSome {M ε : Type} [AddCommMonoid M] {f : ε → Option M} {xs : List ε} :
    (total (· + ·) 0 f xs).isSome ↔ ∀ x ∈ xs, (f x).isSome := by
  induction xs with
  | nil => simp [total, prod]
  | cons x xs ih =>
    rw [total_cons]
    cases hx : f x with
    | none => simp [liftOp, hx]
    | some m =>
      cases ht : total (· + ·) 0 f xs with
      | none =>
        rw [ht] at ih
        simp only [liftOp, Option.isSome_none, Bool.false_eq_true, false_iff] at ih ⊢
        intro h; exact ih fun y hy => h y (by simp [hy])
      | some n =>
        rw [ht] at ih
        simp only [liftOp, Option.isSome_some, true_iff, List.mem_cons, forall_eq_or_imp] at ih ⊢
        exact ⟨by simp [hx], ih⟩

omit [IsStrictOrderedRing K] in
private theorem output_get (ats : List ℤ) (a : Ndcgs K) (hl : a.ndcg.length = ats.length) (x : ℤ) (v : K) (hx : x ∈ ats)
    (h : ∀ i : ℕ, ats[i]? = some x → a.ndcg[i]? = some v) :
    (ndcgOutput ats a).get? ("post_export_metrics/ndcg@" ++ toString x) = some (if 0 < a.weight then v / a.weight else 0) := by
  unfold ndcgOutput
  generalize a.ndcg = vs at hl h
  generalize a.weight = w
  have key : ∀ (d : Dict String K) (ats : List ℤ) (vs : List K), vs.length = ats.length → (∀ i : ℕ, ats[i]? = some x → vs[i]? = some v) →
      (x ∈ ats ∨ d.get? ("post_export_metrics/ndcg@" ++ toString x) = some (if 0 < w then v / w else 0)) →
      ((ats.zip vs).foldl (fun d x => d.set ("post_export_metrics/ndcg@" ++ toString x.1) (if 0 < w then x.2 / w else 0)) d).get?
        ("post_export_metrics/ndcg@" ++ toString x) = some (if 0 < w then v / w else 0) := by
    intro d ats
    induction ats generalizing d with
    | nil => intro vs _ _ h; rcases h with h | h; · cases h
             · exact h
    | cons b ats ih =>
      intro vs hl hi hd
      cases vs with
      | nil => cases hl
      | cons u vs =>
        simp only [List.zip_cons_cons, List.foldl_cons]
        apply ih _ _ (by simpa using hl) fun i hi' => hi (i + 1) (by simpa using hi')
        by_cases hb : b = x
        · subst hb
          right
          have := hi 0 rfl
          simp only [List.getElem?_cons_zero, Option.some.injEq] at this
          subst this
          simp
        · rcases hd with hd | hd
          · left
            rcases List.mem_cons.1 hd with rfl | hd
            · exact absurd rfl hb
            · exact hd
          · right
            rw [Dict.get?_set_ne _ _ (by
              intro e
              exact hb (EvalResults.int_inj ((String.append_right_inj _).mp e)))]
            exact hd
  exact key [] ats vs hl h (.inl hx)

/-- **C141** (nDCG): for every bundling and merge order of the queries the value reported for a position is the weighted mean of
the normalized gains of the queries at that position, 0 if the queries have no weight. -/
theorem C141_ndcg (log2 : ℕ → K) (hd : Discount log2) (ats : List ℤ) (gk wk : String) (qs : List (List (Doc K)))
    (s : Sched (List (Doc K))) (hp : s.inputs.Perm qs) (a : Ndcgs K) (hr : (ndcgCombiner log2 ats gk wk).run s = .ok a)
    (x : ℤ) (hx : x ∈ ats) (h0 : 0 ≤ x) (W N : List (Doc K) → K) (hW : ∀ q ∈ qs, Weighs wk q (W q))
    (hN : ∀ q ∈ qs, ∀ gains, List.Forall₂ (Has gk) q gains → Gains log2 x.toNat gains (N q)) :
    (ndcgOutput ats a).get? ("post_export_metrics/ndcg@" ++ toString x) = some
      (if 0 < (qs.map W).sum then (qs.map fun q => W q * N q).sum / (qs.map W).sum else 0) := by
  have h := orun_eq (ohom log2 ats gk wk) hp
  have hinv : a.ndcg.length = ats.length := run_inv (ohom log2 ats gk wk).hom hr
  rw [hr] at h
  simp only [Except.toOption, Option.map_some] at h
  have hsome : ∀ q ∈ qs, ∃ vs, contrib log2 ats gk wk q = some (fun i => vs.getD i 0, W q) ∧ ndcgLoop log2 gk q (W q) ats = .ok vs := by
    have : (total (· + ·) 0 (contrib log2 ats gk wk) qs).isSome := by rw [← h]; rfl
    intro q hq
    have hc := total_isSome.1 this q hq
    unfold contrib at hc ⊢
    rw [(queryWeight_ok _ _ _).2 (hW q hq)] at hc ⊢
    simp only at hc ⊢
    cases hl : ndcgLoop log2 gk q (W q) ats with
    | error e => rw [hl] at hc; cases hc
    | ok vs => exact ⟨vs, by simp, rfl⟩
  choose! vs hvs hlo using hsome
  rw [total_some (g := fun q => (fun i => (vs q).getD i 0, W q)) hvs, Option.some.injEq] at h
  have hw : a.weight = (qs.map W).sum := by
    have := congrArg Prod.snd h
    simp only [V] at this
    rw [this]
    clear this h hN hW hp hr hvs hlo
    induction qs with
    | nil => rfl
    | cons q qs ih => simp only [List.map_cons, List.sum_cons, Prod.snd_add, ih]
  rw [← hw]
  refine output_get ats a hinv x _ hx fun i hi => ?_
  have hlt : i < ats.length := (List.getElem?_eq_some_iff.1 hi).1
  have hget : a.ndcg[i]? = some (a.ndcg.getD i 0) := by
    rw [List.getD_eq_getElem?_getD, List.getElem?_eq_getElem (by omega)]; rfl
  rw [hget, Option.some.injEq]
  have := congrFun (congrArg Prod.fst h) i
  simp only [V] at this
  rw [this]
  have hq : ∀ q ∈ qs, (vs q).getD i 0 = W q * N q := by
    intro q hq
    have hex : ∃ gains, List.Forall₂ (Has gk) q gains := by
      rcases (loop_ok.1 ⟨_, hlo q hq⟩).1 with e | h
      · rw [e] at hx; cases hx
      · exact h
    obtain ⟨gains, hg⟩ := hex
    obtain ⟨v, hv, hv2⟩ := loop_get (hlo q hq) hg i x hi
    obtain ⟨d, hi', hn⟩ := hN q hq gains hg
    unfold ndcgAt at hv
    rw [if_neg (by omega), C24_value log2 hd _ _ _ hi'] at hv
    cases hv
    rw [List.getD_eq_getElem?_getD, hv2, Option.getD_some, hn, mul_comm]
  clear h this hN hW hp hr hvs hlo hw hget
  induction qs with
  | nil => rfl
  | cons q qs ih =>
    simp only [List.map_cons, List.sum_cons, Prod.fst_add, Pi.add_apply]
    rw [hq q (by simp), ih fun q hq' => hq q (by simp [hq'])]

omit [IsStrictOrderedRing K] in
/-- **C141** (nDCG): the queries are accepted, whatever the bundling, exactly if each has a weight on which its documents agree and
each of its documents has a single gain (for a negative position, moreover, at most one document is left). -/
theorem C141_ndcg_accepted (log2 : ℕ → K) (ats : List ℤ) (gk wk : String) (qs : List (List (Doc K)))
    (s : Sched (List (Doc K))) (hp : s.inputs.Perm qs) :
    (∃ a, (ndcgCombiner log2 ats gk wk).run s = .ok a) ↔ ∀ q ∈ qs, (∃ w, Weighs wk q w) ∧
      (ats = [] ∨ ∃ gains, List.Forall₂ (Has gk) q gains) ∧ ∀ a ∈ ats, a < 0 → (q.length : ℤ) + a < 2 := by
  have h := orun_eq (ohom log2 ats gk wk) hp
  have h1 : (∃ a, (ndcgCombiner log2 ats gk wk).run s = .ok a) ↔ (total (· + ·) 0 (contrib log2 ats gk wk) qs).isSome := by
    rw [← h]
    cases (ndcgCombiner log2 ats gk wk).run s <;> simp [Except.toOption]
  rw [h1, total_isSome]
  refine forall_congr' fun q => forall_congr' fun _ => ?_
  rw [← loop_ok (log2 := log2) (w := ((queryWeight wk q).toOption).getD 0)]
  unfold contrib
  cases hw : queryWeight wk q with
  | error e =>
    simp only [Option.isSome_none, Bool.false_eq_true, false_iff, not_and]
    rintro ⟨w, hw'⟩
    rw [(queryWeight_ok _ _ _).2 hw'] at hw; cases hw
  | ok w =>
    have hex : ∃ w, Weighs wk q w := ⟨w, (queryWeight_ok _ _ _).1 hw⟩
    simp only [Except.toOption, Option.getD_some]
    cases ndcgLoop log2 gk q w ats with
    | error e => simp
    | ok vs => simp [hex]

/-! ### Minimum label position -/

omit [IsStrictOrderedRing K] in
private theorem minPosition_spec (lk : String) (ds : List (Doc K)) (pos : ℕ) :
    (∀ p, minPosition lk pos ds = .ok (some p) ↔ ∃ p', FirstAt lk ds p' ∧ p = pos + p') ∧
      (minPosition lk pos ds = .ok none ↔ NoneAt lk ds) := by
  induction ds generalizing pos with
  | nil =>
    refine ⟨fun p => ⟨fun h => (by cases h), ?_⟩, by simp [minPosition, NoneAt]⟩
    rintro ⟨p', ⟨b, d, a, v, h, -⟩, -⟩
    simp at h
  | cons d ds ih =>
    obtain ⟨ih1, ih2⟩ := ih (pos + 1)
    simp only [minPosition]
    have skip : (∀ l, d.labels.get? lk = some l → ∃ u, l = [u] ∧ u ≤ 0) →
        (∀ p, (∃ p', FirstAt lk ds p' ∧ p = pos + 1 + p') ↔ ∃ p', FirstAt lk (d :: ds) p' ∧ p = pos + p') ∧
          (NoneAt lk ds ↔ NoneAt lk (d :: ds)) := by
      intro hd
      refine ⟨fun p => ⟨?_, ?_⟩, ?_⟩
      · rintro ⟨p', ⟨b, e, a, v, rfl, rfl, h1, h2, h3⟩, rfl⟩
        refine ⟨_, ⟨d :: b, e, a, v, rfl, rfl, h1, h2, ?_⟩, ?_⟩
        · intro x hx
          rcases List.mem_cons.1 hx with rfl | hx
          · exact hd
          · exact h3 x hx
        · simp; omega
      · rintro ⟨p', ⟨b, e, a, v, h0, rfl, h1, h2, h3⟩, rfl⟩
        cases b with
        | nil =>
          simp only [List.nil_append, List.cons.injEq] at h0
          obtain ⟨rfl, -⟩ := h0
          obtain ⟨u, hu, hu'⟩ := hd _ h1
          cases hu
          exact absurd h2 (not_lt.2 hu')
        | cons x b =>
          simp only [List.cons_append, List.cons.injEq] at h0
          obtain ⟨rfl, rfl⟩ := h0
          refine ⟨_, ⟨b, e, a, v, rfl, rfl, h1, h2, fun y hy => h3 y (by simp [hy])⟩, ?_⟩
          simp; omega
      · unfold NoneAt
        constructor
        · intro h e he
          rcases List.mem_cons.1 he with rfl | he
          · exact hd
          · exact h e he
        · intro h e he
          exact h e (by simp [he])
    unfold positive
    cases hl : d.labels.get? lk with
    | none =>
      simp only
      obtain ⟨s1, s2⟩ := skip (by simp [hl])
      exact ⟨fun p => (ih1 p).trans (s1 p), ih2.trans s2⟩
    | some l =>
      match l, hl with
      | [v], hl =>
        simp only
        by_cases hv : 0 < v
        · simp only [hv, decide_true]
          refine ⟨fun p => ⟨?_, ?_⟩, fun h => (by cases h), fun h => ?_⟩
          · rintro ⟨⟩
            exact ⟨1, ⟨[], d, ds, v, rfl, rfl, hl, hv, by simp⟩, rfl⟩
          · rintro ⟨p', ⟨b, e, a, u, h0, rfl, h1, h2, h3⟩, rfl⟩
            cases b with
            | nil => rfl
            | cons x b =>
              simp only [List.cons_append, List.cons.injEq] at h0
              obtain ⟨rfl, rfl⟩ := h0
              obtain ⟨u, hu, hu'⟩ := h3 d (by simp) _ hl
              cases hu
              exact absurd hv (not_lt.2 hu')
          · obtain ⟨u, hu, hu'⟩ := h d (by simp) _ hl
            cases hu
            exact absurd hv (not_lt.2 hu')
        · simp only [hv, decide_false]
          obtain ⟨s1, s2⟩ := skip (by
            intro l hl'; rw [hl] at hl'; cases hl'; exact ⟨v, rfl, not_lt.1 hv⟩)
          exact ⟨fun p => (ih1 p).trans (s1 p), ih2.trans s2⟩
      | [], hl | _ :: _ :: _, hl =>
        simp only
        refine ⟨fun p => ⟨fun h => (by cases h), ?_⟩, fun h => (by cases h), fun h => ?_⟩
        · rintro ⟨p', ⟨b, e, a, u, h0, rfl, h1, h2, h3⟩, rfl⟩
          cases b with
          | nil =>
            simp only [List.nil_append, List.cons.injEq] at h0
            obtain ⟨rfl, -⟩ := h0
            rw [hl] at h1; cases h1
          | cons x b =>
            simp only [List.cons_append, List.cons.injEq] at h0
            obtain ⟨rfl, rfl⟩ := h0
            obtain ⟨u, hu, -⟩ := h3 d (by simp) _ hl
            cases hu
        · obtain ⟨u, hu, -⟩ := h d (by simp) _ hl
          cases hu

private def pairOf (a : Positions K) : K × K := (a.minPosSum, a.weightSum)

private def posContrib (lk wk : String) (docs : List (Doc K)) : Option (K × K) :=
  match queryWeight wk docs with
  | .error _ => none
  | .ok w => match minPosition lk 0 docs with
    | .error _ => none
    | .ok none => some (0, 0)
    | .ok (some p) => some ((p : K), w)

omit [IsStrictOrderedRing K] in
private theorem pos_ohom (lk wk : String) :
    OHom (positionCombiner (K := K) lk wk) (· + ·) 0 (posContrib (labelKeyOf lk) wk) pairOf (fun _ => True) where
  assoc := add_assoc
  comm := add_comm
  left := zero_add
  inv_create := trivial
  inv_add := fun _ _ _ _ _ => trivial
  create := rfl
  add := by
    intro a x _
    simp only [positionCombiner, positionAdd, posContrib]
    cases queryWeight wk x with
    | error e => rfl
    | ok w =>
      simp only
      cases minPosition (labelKeyOf lk) 0 x with
      | error e => rfl
      | ok o => cases o <;> rfl
  merge := by
    intro a as _
    exact ⟨_, rfl, trivial, foldl_hom (fun _ _ => rfl) _ _⟩

omit [IsStrictOrderedRing K] in
/-- What the combiner computes: the sum of the positions, which is not weighted, over the sum of the weights of the queries with a
positive label; nothing if these weights are not positive. -/
theorem C141_min_label_value (lk wk : String) (qs : List (List (Doc K))) (s : Sched (List (Doc K))) (hp : s.inputs.Perm qs)
    (W : List (Doc K) → K) (P : List (Doc K) → Option ℕ) (hW : ∀ q ∈ qs, Weighs wk q (W q))
    (hP : ∀ q ∈ qs, (P q = none ∧ NoneAt (labelKeyOf lk) q) ∨ ∃ p, P q = some p ∧ FirstAt (labelKeyOf lk) q p) :
    ∃ a, (positionCombiner lk wk).run s = .ok a ∧ positionOutput lk a =
      if 0 < (qs.map fun q => if (P q).isSome then W q else 0).sum then
        [("post_export_metrics/average_min_label_position/" ++ labelKeyOf lk,
          (qs.map fun q => ((P q).getD 0 : K)).sum / (qs.map fun q => if (P q).isSome then W q else 0).sum)]
      else [] := by
  have h := orun_eq (pos_ohom (K := K) lk wk) hp
  rw [total_some (g := fun q => (((P q).getD 0 : K), if (P q).isSome then W q else 0))] at h
  · cases hr : (positionCombiner lk wk).run s with
    | error e => rw [hr] at h; cases h
    | ok a =>
      refine ⟨a, rfl, ?_⟩
      rw [hr] at h
      simp only [Except.toOption, Option.map_some, Option.some.injEq, pairOf] at h
      have e : (qs.map fun q => (((P q).getD 0 : K), if (P q).isSome then W q else 0)).sum =
          ((qs.map fun q => ((P q).getD 0 : K)).sum, (qs.map fun q => if (P q).isSome then W q else 0).sum) := by
        clear h hP hW hp hr
        induction qs with
        | nil => rfl
        | cons q qs ih => simp only [List.map_cons, List.sum_cons, ih, Prod.mk_add_mk]
      rw [e] at h
      simp only [Prod.mk.injEq] at h
      unfold positionOutput
      rw [h.1, h.2]
  · intro q hq
    unfold posContrib
    rw [(queryWeight_ok _ _ _).2 (hW q hq)]
    simp only
    rcases hP q hq with ⟨e, h⟩ | ⟨p, e, h⟩
    · rw [(minPosition_spec _ _ 0).2.2 h, e]; simp
    · rw [((minPosition_spec _ _ 0).1 p).2 ⟨p, h, by simp⟩, e]; simp

omit [IsStrictOrderedRing K] in
/-- The label read and the name of the metric: the key that was given, and `__labels` without one. -/
theorem C141_label_key (lk wk key : String) (hkey : (lk = "" ∧ key = "__labels") ∨ (lk ≠ "" ∧ key = lk)) (qs : List (List (Doc K)))
    (s : Sched (List (Doc K))) (hp : s.inputs.Perm qs) (W : List (Doc K) → K) (hW : ∀ q ∈ qs, Weighs wk q (W q))
    (hP : ∀ q ∈ qs, FirstAt key q 1) (hpos : 0 < (qs.map W).sum) :
    ∃ a, (positionCombiner lk wk).run s = .ok a ∧
      positionOutput lk a = [("post_export_metrics/average_min_label_position/" ++ key, (qs.length : K) / (qs.map W).sum)] := by
  have hk : labelKeyOf lk = key := by
    rcases hkey with ⟨rfl, rfl⟩ | ⟨h, rfl⟩
    · rfl
    · unfold labelKeyOf; rw [if_neg h]
  obtain ⟨a, h1, h2⟩ := C141_min_label_value lk wk qs s hp W (fun _ => some 1) hW fun q hq => .inr ⟨1, rfl, hk ▸ hP q hq⟩
  refine ⟨a, h1, ?_⟩
  rw [h2, hk]
  simp only [Option.isSome_some, if_true, Option.getD_some, Nat.cast_one]
  rw [if_pos hpos]
  simp

omit [IsStrictOrderedRing K] in
/-- **C141** (minimum label position): the queries are accepted, whatever the bundling, exactly if each has a weight on which its
documents agree and the labels up to the first positive one are single numbers. -/
theorem C141_min_label_accepted (lk wk : String) (qs : List (List (Doc K))) (s : Sched (List (Doc K))) (hp : s.inputs.Perm qs) :
    (∃ a, (positionCombiner lk wk).run s = .ok a) ↔ ∀ q ∈ qs, (∃ w, Weighs wk q w) ∧
      (NoneAt (labelKeyOf lk) q ∨ ∃ p, FirstAt (labelKeyOf lk) q p) := by
  have h := orun_eq (pos_ohom (K := K) lk wk) hp
  have h1 : (∃ a, (positionCombiner lk wk).run s = .ok a) ↔ (total (· + ·) 0 (posContrib (K := K) (labelKeyOf lk) wk) qs).isSome := by
    rw [← h]
    cases (positionCombiner lk wk).run s <;> simp [Except.toOption]
  rw [h1, total_isSome]
  refine forall_congr' fun q => forall_congr' fun _ => ?_
  unfold posContrib
  obtain ⟨m1, m2⟩ := minPosition_spec (labelKeyOf lk) q 0
  cases hw : queryWeight wk q with
  | error e =>
    simp only [Option.isSome_none, Bool.false_eq_true, false_iff, not_and]
    rintro ⟨w, hw'⟩
    rw [(queryWeight_ok _ _ _).2 hw'] at hw; cases hw
  | ok w =>
    have hex : ∃ w, Weighs wk q w := ⟨w, (queryWeight_ok _ _ _).1 hw⟩
    simp only
    cases hm : minPosition (labelKeyOf lk) 0 q with
    | error e =>
      simp only [Option.isSome_none, Bool.false_eq_true, false_iff, not_and, hm] at m1 m2 ⊢
      rintro - (h | ⟨p, h⟩)
      · have := m2.2 h; cases this
      · have := (m1 p).2 ⟨p, h, by simp⟩; cases this
    | ok o =>
      cases o with
      | none => simp only [Option.isSome_some, true_iff]; exact ⟨hex, .inl (m2.1 hm)⟩
      | some p =>
        simp only [Option.isSome_some, true_iff]
        obtain ⟨p', h, -⟩ := (m1 p).1 hm
        exact ⟨hex, .inr ⟨p', h⟩⟩

private theorem sum_isSome (P : List (Doc K) → Option ℕ) (c : K) (qs : List (List (Doc K))) :
    (qs.map fun q => if (P q).isSome then c else 0).sum = ((qs.filterMap P).length : K) * c := by
  induction qs with
  | nil => simp
  | cons q qs ih =>
    cases h : P q with
    | none => simp [h, ih]
    | some p => simp [h, ih]; ring

omit [LinearOrder K] [IsStrictOrderedRing K] in
private theorem sum_getD (P : List (Doc K) → Option ℕ) (qs : List (List (Doc K))) :
    (qs.map fun q => ((P q).getD 0 : K)).sum = ((qs.filterMap P).sum : ℕ) := by
  induction qs with
  | nil => simp
  | cons q qs ih =>
    cases h : P q with
    | none => simp [h, ih]
    | some p => simp [h, ih]

/-- **C141** (minimum label position), the part that holds: without weights the value is the mean position of the first positive label
over the queries that have one, and there is no value if there are none.  Missing: weights, with which the value is not the weighted
mean (`C141_min_label_not_weighted`). -/
theorem C141_min_label_partial (lk : String) (qs : List (List (Doc K))) (s : Sched (List (Doc K))) (hp : s.inputs.Perm qs)
    (P : List (Doc K) → Option ℕ)
    (hP : ∀ q ∈ qs, (P q = none ∧ NoneAt (labelKeyOf lk) q) ∨ ∃ p, P q = some p ∧ FirstAt (labelKeyOf lk) q p) :
    ∃ a, (positionCombiner lk "").run s = .ok a ∧ positionOutput lk a =
      if qs.filterMap P = [] then []
      else [("post_export_metrics/average_min_label_position/" ++ labelKeyOf lk,
        (((qs.filterMap P).sum : ℕ) : K) / ((qs.filterMap P).length : K))] := by
  obtain ⟨a, h1, h2⟩ := C141_min_label_value lk "" qs s hp (fun _ => 1) P (by intro q _; simp [Weighs]) hP
  refine ⟨a, h1, ?_⟩
  rw [h2, sum_isSome, sum_getD, mul_one]
  by_cases h : qs.filterMap P = []
  · rw [if_pos h, h]; simp
  · rw [if_neg h, if_pos]
    exact_mod_cast List.length_pos_iff.2 h

/-- **C141** (false of the code): if every query has the weight `w`, which changes no weighted mean, the value is the mean position
divided by `w`, since the positions are not multiplied by the weights. -/
theorem C141_min_label_not_weighted (lk wk : String) (w : K) (hw : 0 < w) (qs : List (List (Doc K))) (s : Sched (List (Doc K)))
    (hp : s.inputs.Perm qs) (hW : ∀ q ∈ qs, Weighs wk q w) (P : List (Doc K) → Option ℕ)
    (hP : ∀ q ∈ qs, (P q = none ∧ NoneAt (labelKeyOf lk) q) ∨ ∃ p, P q = some p ∧ FirstAt (labelKeyOf lk) q p)
    (hne : qs.filterMap P ≠ []) :
    ∃ a, (positionCombiner lk wk).run s = .ok a ∧ positionOutput lk a =
      [("post_export_metrics/average_min_label_position/" ++ labelKeyOf lk,
        (((qs.filterMap P).sum : ℕ) : K) / ((qs.filterMap P).length : K) / w)] := by
  obtain ⟨a, h1, h2⟩ := C141_min_label_value lk wk qs s hp (fun _ => w) P hW hP
  refine ⟨a, h1, ?_⟩
  rw [h2, sum_isSome, sum_getD, if_pos, div_div]
  exact mul_pos (by exact_mod_cast List.length_pos_iff.2 hne) hw

/-! ### Statistics -/

private abbrev Capped := {n : ℕ // n ≤ 1000000000}

private def cap (n : ℕ) : Capped := ⟨min n 1000000000, min_le_right _ _⟩

private def statsOp (a b : ℕ × ℕ × Capped × ℕ) : ℕ × ℕ × Capped × ℕ :=
  (a.1 + b.1, a.2.1 + b.2.1, ⟨min a.2.2.1.1 b.2.2.1.1, (min_le_left _ _).trans a.2.2.1.2⟩, max a.2.2.2 b.2.2.2)

private def statsV (a : Stats) : ℕ × ℕ × Capped × ℕ := (a.totalQueries, a.totalDocuments, cap a.minDocuments, a.maxDocuments)

private theorem stats_hom : OHom statsCombiner statsOp (0, 0, cap 1000000000, 0) (fun n => some (1, n, cap n, n)) statsV
    (fun a => a.minDocuments ≤ 1000000000) where
  assoc a b c := by simp [statsOp, Nat.add_assoc, min_assoc, max_assoc]
  comm a b := by simp [statsOp, Nat.add_comm, min_comm, max_comm]
  left a := by
    obtain ⟨a1, a2, ⟨a3, h⟩, a4⟩ := a
    simp only [statsOp, cap, Nat.zero_add, Nat.zero_max, Prod.mk.injEq, Subtype.mk.injEq, true_and, and_true]
    omega
  inv_create := le_refl _
  inv_add := by
    intro a x b h e
    cases e
    exact (min_le_left _ _).trans h
  create := rfl
  add := by
    intro a x h
    simp only [statsCombiner, Except.toOption, Option.map_some, statsV, Stats.add, statsOp, cap]
    congr 5
    omega
  merge := by
    intro a as h
    have key : ∀ (as : List Stats) (a : Stats), a.minDocuments ≤ 1000000000 → (as.foldl Stats.merge a).minDocuments ≤ 1000000000 ∧
        statsV (as.foldl Stats.merge a) = (as.map statsV).foldl statsOp (statsV a) := by
      intro as
      induction as with
      | nil => intro a h; exact ⟨h, rfl⟩
      | cons x as ih =>
        intro a h
        obtain ⟨h1, h2⟩ := ih (a.merge x) ((min_le_left _ _).trans h)
        refine ⟨h1, ?_⟩
        simp only [List.foldl_cons, List.map_cons]
        rw [h2]
        congr 1
        simp only [statsV, Stats.merge, statsOp, cap]
        congr 4
        omega
    obtain ⟨h1, h2⟩ := key as a (h a (by simp))
    exact ⟨_, rfl, h1, h2⟩

private theorem stats_total (ns : List ℕ) : ∃ m M, total statsOp (0, 0, cap 1000000000, 0) (fun n => some (1, n, cap n, n)) ns =
      some (ns.length, ns.sum, m, M) ∧ (∀ n ∈ ns, m.1 ≤ n) ∧ (m.1 ∈ ns ∨ m.1 = 1000000000) ∧ (∀ n ∈ ns, n ≤ M) ∧ (M ∈ ns ∨ (M = 0 ∧ ns = [])) := by
  induction ns with
  | nil => exact ⟨cap 1000000000, 0, rfl, by simp, .inr rfl, by simp, .inr ⟨rfl, rfl⟩⟩
  | cons n ns ih =>
    obtain ⟨m, M, h, h1, h2, h3, h4⟩ := ih
    rw [total_cons, h]
    refine ⟨_, _, by simp only [liftOp, statsOp, List.length_cons, List.sum_cons, Nat.add_comm 1]; rfl, ?_, ?_, ?_, ?_⟩
    · intro x hx
      simp only [cap]
      rcases List.mem_cons.1 hx with rfl | hx
      · omega
      · have := h1 x hx; omega
    · simp only [cap, List.mem_cons]
      have := m.2
      rcases h2 with h2 | h2
      · by_cases hle : n ≤ m.1
        · left; left; omega
        · left; right; convert h2 using 1; omega
      · by_cases hle : n ≤ m.1
        · left; left; omega
        · right; omega
    · intro x hx
      rcases List.mem_cons.1 hx with rfl | hx
      · exact le_max_left _ _
      · exact (h3 x hx).trans (le_max_right _ _)
    · left
      rcases h4 with h4 | ⟨rfl, rfl⟩
      · rcases le_total n M with hle | hle
        · rw [max_eq_right hle]; simp [h4]
        · rw [max_eq_left hle]; simp
      · simp

/-- **C141** (statistics): for every bundling and merge order the numbers of queries and documents are those of the data, the largest
number of documents is attained and not exceeded (0 without queries), and so is the smallest one unless all queries have more than 10⁹ documents
or there are none, in which case 10⁹ is reported. -/
theorem C141_statistics (ns : List ℕ) (s : Sched ℕ) (hp : s.inputs.Perm ns) :
    ∃ a m M, statsCombiner.run s = .ok a ∧ statsOutput a =
      [("post_export_metrics/total_queries", ns.length), ("post_export_metrics/total_documents", ns.sum),
        ("post_export_metrics/min_documents", m), ("post_export_metrics/max_documents", M)] ∧
      (∀ n ∈ ns, m ≤ n) ∧ (m ∈ ns ∨ m = 1000000000) ∧ m ≤ 1000000000 ∧ (∀ n ∈ ns, n ≤ M) ∧ (M ∈ ns ∨ (M = 0 ∧ ns = [])) := by
  have h := orun_eq stats_hom hp
  obtain ⟨m, M, ht, h1, h2, h3, h4⟩ := stats_total ns
  rw [ht] at h
  cases hr : statsCombiner.run s with
  | error e => rw [hr] at h; cases h
  | ok a =>
    have hinv : a.minDocuments ≤ 1000000000 := run_inv stats_hom.hom hr
    rw [hr] at h
    simp only [Except.toOption, Option.map_some, Option.some.injEq, statsV, Prod.mk.injEq] at h
    obtain ⟨e1, e2, e3, e4⟩ := h
    have e5 : a.minDocuments = m.1 := by rw [← e3]; simp only [cap]; omega
    refine ⟨a, m.1, M, rfl, ?_, h1, h2, m.2, h3, h4⟩
    simp only [statsOutput, e1, e2, e4, e5]

/-! ### Examples -/

private def exDoc (gain weight : ℚ) (label : Option ℚ) : Doc ℚ :=
  ⟨[("gain", ⟨2, [gain]⟩), ("weight", ⟨2, [weight]⟩)], match label with | none => [] | some v => [("__labels", [v])]⟩

/-- Two queries of weight 2 and 1 with the positive labels at positions 2 and 1: the weighted mean would be 5/3, the value is 1. -/
example :
    let q1 := [exDoc 0 2 (some 0), exDoc 1 2 (some 1)]
    let q2 := [exDoc 1 1 (some 1), exDoc 0 1 none]
    ((positionCombiner "" "weight").run (.bundle [q1, q2])).map (positionOutput "") =
      .ok [("post_export_metrics/average_min_label_position/__labels", 1)] ∧
    ((positionCombiner "" "").run (.bundle [q1, q2])).map (positionOutput "") =
      .ok [("post_export_metrics/average_min_label_position/__labels", 3 / 2)] ∧
    ((ndcgCombiner (fun n => (n : ℚ)) [1, 2] "gain" "weight").run (.bundle [q1, q2])).map (ndcgOutput [1, 2]) =
      .ok [("post_export_metrics/ndcg@1", 1 / 3), ("post_export_metrics/ndcg@2", 7 / 9)] := by
  refine ⟨?_, ?_, ?_⟩ <;> decide +kernel

/-- A query whose documents disagree about the weight is refused. -/
example : ((positionCombiner (K := ℚ) "" "weight").run (.bundle [[exDoc 0 2 none, exDoc 0 1 none]])).toOption.isNone := by
  decide +kernel

example : (statsCombiner.run (.bundle [3, 1, 2])).map statsOutput =
    .ok [("post_export_metrics/total_queries", 3), ("post_export_metrics/total_documents", 6),
      ("post_export_metrics/min_documents", 1), ("post_export_metrics/max_documents", 3)] := by
  decide +kernel

example : (statsCombiner.run (.bundle [])).map statsOutput =
    .ok [("post_export_metrics/total_queries", 0), ("post_export_metrics/total_documents", 0),
      ("post_export_metrics/min_documents", 1000000000), ("post_export_metrics/max_documents", 0)] := by
  decide +kernel

end QueryMetrics
end TFMA
