import Verif.Model.TfMetrics
import Verif.Lemmas.CombineTotal
import Mathlib.Algebra.BigOperators.Group.List.Basic
import Mathlib.Data.List.Forall2

/-!
# Keras metrics: the invariant of the accumulators
-/

namespace TFMA
namespace TfMetrics

open MetricKeys Beam

variable {W V : Type} [AddCommMonoid W]

/-- The rows of an event for output `i`. -/
def Event.rows (i : ℕ) : Event → List Row
  | .compact => []
  | .add x =>
    match x[i]? with
    | some (.ok rows) => rows
    | _ => []

/-- The rows of a list of events for output `i`, in order. -/
def rowsOf (i : ℕ) (xs : List Event) : List Row := xs.flatMap (Event.rows i)

theorem rowsOf_append (i : ℕ) (xs ys : List Event) : rowsOf i (xs ++ ys) = rowsOf i xs ++ rowsOf i ys := by
  simp [rowsOf]

/-- An event that can be processed: it has rows for each of the `n` outputs, and they are acceptable. -/
def GoodEvent (n : ℕ) (A : ℕ → Row → Prop) : Event → Prop
  | .compact => True
  | .add x => x.length = n ∧ ∀ i < n, ∃ rows, x[i]? = some (.ok rows) ∧ rows ≠ [] ∧ ∀ r ∈ rows, A i r

/-- The row fits into the padded width. -/
def Fits (padding : Option Padding) (padTo : ℕ) (r : Row) : Prop :=
  padding.isSome → r.label.vals.length ≤ padTo ∧ r.pred.vals.length ≤ padTo

/-- The metrics of output `o` yield the sum of the contributions of the rows of any batch of acceptable rows. -/
def BatchSums (c : Combiner W V) (f : Metric W V → Row → W) (A : ℕ → Row → Prop) : Prop :=
  ∀ i o, c.outputs[i]? = some o → ∀ (batch : List Row) (padTo : ℕ), batch ≠ [] →
    (∀ r ∈ batch, A i r ∧ Fits c.padding padTo r) →
    ∃ b, getInputs c.padding padTo batch = .ok b ∧ ∀ m ∈ o.2, m.update b = .ok (batch.map (f m)).sum

/-- The invariant. -/
structure Inv (c : Combiner W V) (f : Metric W V → Row → W) (A : ℕ → Row → Prop) (xs : List Event) (a : Acc W) : Prop where
  inputs_len : a.inputs.length = c.outputs.length
  weights_len : a.weights.length = c.outputs.length
  out : ∀ i o, c.outputs[i]? = some o → ∃ pend ws, a.inputs[i]? = some pend ∧ a.weights[i]? = some ws ∧
    (∀ r ∈ pend, A i r ∧ Fits c.padding a.padTo r) ∧
    List.Forall₂ (fun m w => w.getD 0 + (pend.map (f m)).sum = ((rowsOf i xs).map (f m)).sum) o.2 ws ∧
    (a.inputs[0]? = some [] ↔ pend = [])

theorem updateMetrics_ok (rows : List Row) (X : Metric W V → W) :
    ∀ (ms : List (Metric W V)) (ws : List (Option W)), ms.length = ws.length → (∀ m ∈ ms, m.update rows = .ok (X m)) →
      ∃ us, updateMetrics rows ms ws = .ok us ∧
        ∀ (R R' : Metric W V → Option W → Prop), (∀ m ∈ ms, ∀ w, R m w → R' m (addWeights w (X m))) →
          List.Forall₂ R ms ws → List.Forall₂ R' ms us
  | [], [], _, _ => ⟨[], rfl, fun _ _ _ _ => .nil⟩
  | m :: ms, w :: ws, hl, hm => by
    obtain ⟨us, h1, h2⟩ := updateMetrics_ok rows X ms ws (by simpa using hl) fun m' h' => hm m' (by simp [h'])
    refine ⟨addWeights w (X m) :: us, by simp [updateMetrics, hm m (by simp), h1], fun R R' hR hf => ?_⟩
    cases hf with
    | cons ha hb => exact .cons (hR m (by simp) w ha) (h2 R R' (fun m' h' => hR m' (by simp [h'])) hb)

theorem updateOutputs_ok (padding : Option Padding) (padTo : ℕ) :
    ∀ (os : List (String × List (Metric W V))) (rows : List (List Row)) (ws : List (List (Option W)))
      (R : ℕ → List (Option W) → Prop), rows.length = os.length → ws.length = os.length →
      (∀ i o r w, os[i]? = some o → rows[i]? = some r → ws[i]? = some w →
        ∃ b us, getInputs padding padTo r = .ok b ∧ updateMetrics b o.2 w = .ok us ∧ R i us) →
      ∃ out, updateOutputs padding padTo os rows ws = .ok out ∧ out.length = os.length ∧
        ∀ i < os.length, ∃ us, out[i]? = some us ∧ R i us
  | [], [], [], R, _, _, _ => ⟨[], rfl, rfl, fun i hi => by simp at hi⟩
  | o :: os, r :: rows, w :: ws, R, hr, hw, h => by
    obtain ⟨b, us, h1, h2, h3⟩ := h 0 o r w rfl rfl rfl
    obtain ⟨out, g1, g2, g3⟩ := updateOutputs_ok padding padTo os rows ws (fun i => R (i + 1)) (by simpa using hr)
      (by simpa using hw) fun i o r w ho hr hw => h (i + 1) o r w (by simpa using ho) (by simpa using hr) (by simpa using hw)
    refine ⟨us :: out, by simp [updateOutputs, h1, h2, g1], by simp [g2], fun i hi => ?_⟩
    cases i with
    | zero => exact ⟨us, rfl, h3⟩
    | succ i => simpa using g3 i (by simpa using hi)

theorem getD_addWeights (w : Option W) (u : W) : (addWeights w u).getD 0 = w.getD 0 + u := by
  cases w <;> simp [addWeights]

theorem getD_mergeWeight (w u : Option W) : (mergeWeight w u).getD 0 = w.getD 0 + u.getD 0 := by
  cases u with
  | none => simp [mergeWeight]
  | some u => simp [mergeWeight, getD_addWeights]

variable {c : Combiner W V} {f : Metric W V → Row → W} {A : ℕ → Row → Prop}

/-- After processing nothing is pending. -/
theorem processBatch_ok (hc : c.outputs ≠ []) (hb : BatchSums c f A) {xs : List Event} {a : Acc W} (h : Inv c f A xs a) :
    ∃ b, processBatch c a = .ok b ∧ Inv c f A xs b ∧ ∀ i < c.outputs.length, b.inputs[i]? = some [] := by
  obtain ⟨o0, os, ho⟩ := List.exists_cons_of_ne_nil hc
  have hpos : 0 < c.outputs.length := by simp [ho]
  obtain ⟨first, rest, hin⟩ : ∃ first rest, a.inputs = first :: rest := by
    cases hi : a.inputs with
    | nil => have := h.inputs_len; simp [hi] at this; omega
    | cons x y => exact ⟨x, y, rfl⟩
  by_cases hf : first = []
  · subst hf
    refine ⟨a, by simp [processBatch, hin], h, fun i hi => ?_⟩
    obtain ⟨pend, ws, h1, -, -, -, h5⟩ := h.out i _ (List.getElem?_eq_getElem hi)
    rw [h1, h5.1 (by simp [hin])]
  · have key := updateOutputs_ok c.padding a.padTo c.outputs a.inputs a.weights
      (fun i us => ∀ o, c.outputs[i]? = some o →
        List.Forall₂ (fun m w => w.getD 0 = ((rowsOf i xs).map (f m)).sum) o.2 us) h.inputs_len h.weights_len (by
      intro i o r w hio hir hiw
      obtain ⟨pend, ws, h1, h2, h3, h4, h5⟩ := h.out i o hio
      rw [hir] at h1; cases h1
      rw [hiw] at h2; cases h2
      have hne : r ≠ [] := by
        intro hr
        have := h5.2 hr
        rw [hin] at this
        simp at this
        exact hf this
      obtain ⟨b, hb1, hb2⟩ := hb i o hio r a.padTo hne h3
      obtain ⟨us, hu1, hu2⟩ := updateMetrics_ok b (fun m => (r.map (f m)).sum) o.2 w h4.length_eq hb2
      refine ⟨b, us, hb1, hu1, fun o' ho' => ?_⟩
      rw [hio] at ho'; cases ho'
      refine hu2 _ _ (fun m _ w hw => ?_) h4
      rw [getD_addWeights, hw])
    obtain ⟨out, k1, k2, k3⟩ := key
    refine ⟨⟨a.inputs.map fun _ => [], out, 0, 0⟩, ?_, ?_, ?_⟩
    · unfold processBatch
      rw [k1]
      simp only [hin, List.length_eq_zero_iff, hf, if_false]
    · refine ⟨by simpa using h.inputs_len, k2, fun i o hio => ?_⟩
      obtain ⟨hi, hoi⟩ := List.getElem?_eq_some_iff.1 hio
      obtain ⟨us, hu1, hu2⟩ := k3 i hi
      refine ⟨[], us, ?_, hu1, by simp, ?_, ?_⟩
      · simp only [List.getElem?_map]
        rw [List.getElem?_eq_getElem (by rw [h.inputs_len]; exact hi)]
        rfl
      · refine (hu2 o hio).imp fun m w hw => ?_
        simpa using hw
      · simp [hin]
    · intro i hi
      simp only [List.getElem?_map]
      rw [List.getElem?_eq_getElem (by rw [h.inputs_len]; exact hi)]
      rfl

theorem foldl_addRow (padding : Option Padding) (o : ℕ) (rows : List Row) (a : Acc W) :
    (rows.foldl (addRow padding o) a).weights = a.weights ∧
    (rows.foldl (addRow padding o) a).inputs = a.inputs.modify o (· ++ rows) ∧
    a.padTo ≤ (rows.foldl (addRow padding o) a).padTo ∧
    ∀ r ∈ rows, Fits padding (rows.foldl (addRow padding o) a).padTo r := by
  induction rows generalizing a with
  | nil =>
    refine ⟨rfl, ?_, le_refl _, by simp⟩
    simp only [List.foldl_nil, List.append_nil]
    exact (List.modify_id ..).symm
  | cons r rows ih =>
    obtain ⟨h1, h2, h3, h4⟩ := ih (addRow padding o a r)
    have hp : a.padTo ≤ (addRow padding o a r).padTo := by
      simp only [addRow]; split_ifs
      · exact le_trans (le_max_left _ _) (le_max_left _ _)
      · exact le_refl _
    refine ⟨h1, ?_, le_trans hp h3, ?_⟩
    · rw [List.foldl_cons, h2]
      simp only [addRow, List.modify_modify_eq]
      congr 1
      funext l
      simp
    · intro r' hr'
      rcases List.mem_cons.1 hr' with rfl | hr'
      · intro hs
        have e : (addRow padding o a r').padTo = max (max a.padTo r'.label.vals.length) r'.pred.vals.length := by
          simp [addRow, hs]
        constructor
        · exact le_trans (le_trans (le_max_right _ _) (le_trans (le_max_left _ _) (le_of_eq e.symm))) h3
        · exact le_trans (le_trans (le_max_right _ _) (le_of_eq e.symm)) h3
      · exact h4 r' hr'

theorem addRows_ok (padding : Option Padding) :
    ∀ (x : List (Except Err (List Row))) (o : ℕ) (a : Acc W), (∀ y ∈ x, ∃ rows, y = .ok rows) →
      ∃ b, addRows padding o a x = .ok b ∧ b.weights = a.weights ∧ a.padTo ≤ b.padTo ∧ b.inputs.length = a.inputs.length ∧
        (∀ i, i < o → b.inputs[i]? = a.inputs[i]?) ∧
        (∀ j rows, x[j]? = some (.ok rows) → (∀ p, a.inputs[o + j]? = some p → b.inputs[o + j]? = some (p ++ rows)) ∧
          ∀ r ∈ rows, Fits padding b.padTo r)
  | [], o, a, _ => ⟨a, rfl, rfl, le_refl _, rfl, fun _ _ => rfl, fun j rows h => by simp at h⟩
  | y :: x, o, a, hx => by
    obtain ⟨rows, rfl⟩ := hx y (by simp)
    obtain ⟨f1, f2, f3, f4⟩ := foldl_addRow padding o rows a
    obtain ⟨b, h1, h2, h3, h4, h5, h6⟩ := addRows_ok padding x (o + 1) (rows.foldl (addRow padding o) a)
      fun z hz => hx z (by simp [hz])
    refine ⟨b, h1, h2.trans f1, le_trans f3 h3, ?_, ?_, ?_⟩
    · rw [h4, f2]; simp
    · intro i hi
      rw [h5 i (by omega), f2, List.getElem?_modify]
      cases hai : a.inputs[i]? <;> simp [show ¬ o = i by omega]
    · intro j rows' hj
      cases j with
      | zero =>
        simp only [List.getElem?_cons_zero, Option.some.injEq, Except.ok.injEq] at hj
        subst hj
        refine ⟨fun p hp => ?_, fun r hr hs => ?_⟩
        · rw [Nat.add_zero] at hp ⊢
          rw [h5 o (by omega), f2, List.getElem?_modify, hp]
          simp
        · exact ⟨le_trans (f4 r hr hs).1 h3, le_trans (f4 r hr hs).2 h3⟩
      | succ j =>
        obtain ⟨g1, g2⟩ := h6 j rows' (by simpa using hj)
        refine ⟨fun p hp => ?_, g2⟩
        have e : o + 1 + j = o + (j + 1) := by omega
        rw [e] at g1
        refine g1 p ?_
        rw [f2, List.getElem?_modify, hp]
        simp

theorem sum_map_append (g : Row → W) (xs ys : List Row) : ((xs ++ ys).map g).sum = (xs.map g).sum + (ys.map g).sum := by
  simp

theorem step_ok (hc : c.outputs ≠ []) (hb : BatchSums c f A) {xs : List Event} {a : Acc W} (h : Inv c f A xs a) (e : Event)
    (he : GoodEvent c.outputs.length A e) : ∃ b, step c a e = .ok b ∧ Inv c f A (xs ++ [e]) b := by
  cases e with
  | compact =>
    obtain ⟨b, h1, h2, -⟩ := processBatch_ok hc hb h
    refine ⟨b, h1, ⟨h2.inputs_len, h2.weights_len, ?_⟩⟩
    intro i o hio
    have : rowsOf i (xs ++ [Event.compact]) = rowsOf i xs := by simp [rowsOf, Event.rows]
    rw [this]
    exact h2.out i o hio
  | add x =>
    obtain ⟨hx1, hx2⟩ := he
    obtain ⟨b, h1, h2, h3, h4, h5, h6⟩ := addRows_ok c.padding x 0 a (by
      intro y hy
      obtain ⟨i, hi, rfl⟩ := List.getElem_of_mem hy
      obtain ⟨rows, hr, -⟩ := hx2 i (by omega)
      rw [List.getElem?_eq_getElem hi] at hr
      exact ⟨rows, by simpa using hr⟩)
    have hinv : Inv c f A (xs ++ [.add x]) b := by
      refine ⟨h4.trans h.inputs_len, by rw [h2]; exact h.weights_len, fun i o hio => ?_⟩
      obtain ⟨hi, -⟩ := List.getElem?_eq_some_iff.1 hio
      obtain ⟨pend, ws, p1, p2, p3, p4, p5⟩ := h.out i o hio
      obtain ⟨rows, r1, r2, r3⟩ := hx2 i hi
      obtain ⟨g1, g2⟩ := h6 i rows r1
      rw [Nat.zero_add] at g1
      refine ⟨pend ++ rows, ws, g1 pend p1, by rw [h2]; exact p2, ?_, ?_, ?_⟩
      · intro r hr
        rcases List.mem_append.1 hr with hr | hr
        · refine ⟨(p3 r hr).1, fun hs => ?_⟩
          exact ⟨le_trans ((p3 r hr).2 hs).1 h3, le_trans ((p3 r hr).2 hs).2 h3⟩
        · exact ⟨r3 r hr, g2 r hr⟩
      · refine p4.imp fun m w hw => ?_
        have : rowsOf i [Event.add x] = rows := by simp [rowsOf, Event.rows, r1]
        rw [sum_map_append, rowsOf_append, sum_map_append, ← hw, this, add_assoc]
      · have hpos : 0 < c.outputs.length := by omega
        obtain ⟨rows0, s1, s2, -⟩ := hx2 0 hpos
        obtain ⟨g0, -⟩ := h6 0 rows0 s1
        obtain ⟨p0, ws0, q1, -⟩ := h.out 0 _ (List.getElem?_eq_getElem hpos)
        have := g0 p0 (by simpa using q1)
        rw [Nat.zero_add] at this
        rw [this]
        constructor
        · intro hh; simp at hh; exact absurd hh.2 s2
        · intro hh; simp at hh; exact absurd hh.2 r2
    unfold step
    simp only [h1]
    split_ifs
    · obtain ⟨d, k1, k2, -⟩ := processBatch_ok hc hb hinv
      exact ⟨d, k1, k2⟩
    · exact ⟨b, rfl, hinv⟩

theorem create_inv : Inv c f A [] (create c) := by
  have hin : ∀ i < c.outputs.length, (create c).inputs[i]? = some [] := by
    intro i hi
    simp only [create, List.getElem?_map, List.getElem?_eq_getElem hi]
    rfl
  refine ⟨by simp [create], by simp [create], fun i o hio => ?_⟩
  obtain ⟨hi, -⟩ := List.getElem?_eq_some_iff.1 hio
  refine ⟨[], o.2.map fun _ => none, hin i hi, by simp [create, hio], by simp, ?_, ?_⟩
  · rw [List.forall₂_map_right_iff]
    simp [rowsOf]
  · simp [hin 0 (by omega)]

private theorem zip_merge (X Y : Metric W V → W) : ∀ (ms : List (Metric W V)) (ws us : List (Option W)),
    List.Forall₂ (fun m w => w.getD 0 = X m) ms ws → List.Forall₂ (fun m w => w.getD 0 = Y m) ms us →
    List.Forall₂ (fun m w => w.getD 0 = X m + Y m) ms (List.zipWith mergeWeight ws us)
  | [], _, _, .nil, .nil => .nil
  | _ :: ms, _, _, .cons h hs, .cons g gs => .cons (by rw [getD_mergeWeight, h, g]) (zip_merge X Y ms _ _ hs gs)

theorem mergeOne_ok (hc : c.outputs ≠ []) (hb : BatchSums c f A) {xs ys : List Event} {a b : Acc W} (ha : Inv c f A xs a)
    (ha0 : ∀ i < c.outputs.length, a.inputs[i]? = some []) (h : Inv c f A ys b) :
    ∃ d, mergeOne c a b = .ok d ∧ Inv c f A (xs ++ ys) d ∧ ∀ i < c.outputs.length, d.inputs[i]? = some [] := by
  obtain ⟨b', h1, h2, h3⟩ := processBatch_ok hc hb h
  refine ⟨{ a with weights := List.zipWith (List.zipWith mergeWeight) a.weights b'.weights }, by simp [mergeOne, h1], ?_, ha0⟩
  refine ⟨ha.inputs_len, by simp [ha.weights_len, h2.weights_len], fun i o hio => ?_⟩
  obtain ⟨hi, -⟩ := List.getElem?_eq_some_iff.1 hio
  obtain ⟨p, ws, p1, p2, p3, p4, p5⟩ := ha.out i o hio
  obtain ⟨q, us, q1, q2, q3, q4, q5⟩ := h2.out i o hio
  rw [h3 i hi] at q1; cases q1
  rw [ha0 i hi] at p1; cases p1
  refine ⟨[], List.zipWith mergeWeight ws us, ha0 i hi, ?_, by simp, ?_, p5⟩
  · simp [List.getElem?_zipWith, p2, q2]
  · refine (zip_merge (fun m => ((rowsOf i xs).map (f m)).sum) (fun m => ((rowsOf i ys).map (f m)).sum) _ _ _
      (p4.imp fun m w hw => by simpa using hw) (q4.imp fun m w hw => by simpa using hw)).imp fun m w hw => ?_
    rw [rowsOf_append, sum_map_append, ← hw]
    simp

theorem merge_ok (hc : c.outputs ≠ []) (hb : BatchSums c f A) (l : List (List Event × Acc W)) (hl : l ≠ [])
    (h : ∀ p ∈ l, Inv c f A p.1 p.2) :
    ∃ d, merge c (l.map Prod.snd) = .ok d ∧ Inv c f A (l.map Prod.fst).flatten d := by
  cases l with
  | nil => exact absurd rfl hl
  | cons p l =>
    obtain ⟨r, h1, h2, h3⟩ := processBatch_ok hc hb (h p (by simp))
    have key : ∀ (l : List (List Event × Acc W)) (xs : List Event) (r : Acc W), Inv c f A xs r →
        (∀ i < c.outputs.length, r.inputs[i]? = some []) → (∀ p ∈ l, Inv c f A p.1 p.2) →
        ∃ d, loop (mergeOne c) r (l.map Prod.snd) = .ok d ∧ Inv c f A (xs ++ (l.map Prod.fst).flatten) d := by
      intro l
      induction l with
      | nil => intro xs r hr _ _; exact ⟨r, rfl, by simpa using hr⟩
      | cons q l ih =>
        intro xs r hr hr0 hq
        obtain ⟨d, d1, d2, d3⟩ := mergeOne_ok hc hb hr hr0 (hq q (by simp))
        obtain ⟨e, e1, e2⟩ := ih _ d d2 d3 fun q' h' => hq q' (by simp [h'])
        refine ⟨e, ?_, by simpa using e2⟩
        simp only [List.map_cons, loop, d1, bind, Except.bind]
        exact e1
    obtain ⟨d, d1, d2⟩ := key l p.1 r h2 h3 fun q hq => h q (by simp [hq])
    refine ⟨d, ?_, by simpa using d2⟩
    simp only [List.map_cons, merge, h1]
    exact d1

theorem run_ok (hc : c.outputs ≠ []) (hb : BatchSums c f A) (s : Sched Event)
    (hs : ∀ e ∈ s.inputs, GoodEvent c.outputs.length A e) :
    ∃ a, (combineFn c).run s = .ok a ∧ Inv c f A s.inputs a :=
  run_total_merge (c := combineFn c) (P := Inv c f A) (Q := fun xs => ∀ e ∈ xs, GoodEvent c.outputs.length A e)
    (fun xs ys h => ⟨fun e he => h e (by simp [he]), fun e he => h e (by simp [he])⟩) create_inv
    (fun xs a x h hq => step_ok hc hb h x (hq x (by simp))) (fun l hl hp _ => merge_ok hc hb l hl hp) s hs

/-- What is extracted in the end. -/
theorem extract_ok (hc : c.outputs ≠ []) (hb : BatchSums c f A) {xs : List Event} {a : Acc W} (h : Inv c f A xs a)
    (h0 : ∀ o ∈ c.outputs, ∀ m ∈ o.2, m.initial = 0) :
    ∃ ws, extract c a = .ok (results c ws) ∧ ws.length = c.outputs.length ∧
      ∀ i o, c.outputs[i]? = some o → ∃ w, ws[i]? = some w ∧
        List.Forall₂ (fun m w => w.getD m.initial = ((rowsOf i xs).map (f m)).sum) o.2 w := by
  obtain ⟨b, h1, h2, h3⟩ := processBatch_ok hc hb h
  refine ⟨b.weights, by simp [extract, h1], h2.weights_len, fun i o hio => ?_⟩
  obtain ⟨hi, ho⟩ := List.getElem?_eq_some_iff.1 hio
  obtain ⟨p, ws, p1, p2, p3, p4, p5⟩ := h2.out i o hio
  rw [h3 i hi] at p1; cases p1
  refine ⟨ws, p2, ?_⟩
  have hi0 : ∀ m ∈ o.2, m.initial = 0 := h0 o (by rw [← ho]; exact List.getElem_mem _)
  revert p4 hi0
  generalize o.2 = ms
  clear p2
  intro p4 hi0
  induction p4 with
  | nil => exact .nil
  | cons hw _ ih =>
    refine .cons ?_ (ih fun m hm => hi0 m (by simp [hm]))
    rw [hi0 _ (by simp)]
    simpa using hw

end TfMetrics
end TFMA
