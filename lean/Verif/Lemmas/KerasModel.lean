import Verif.Model.KerasModel
import Verif.Lemmas.CombineTotal
import Verif.Lemmas.Combine
import Mathlib.Algebra.BigOperators.Group.List.Basic
import Mathlib.Data.List.Forall2
import Mathlib.Data.String.Basic

/-!
# The metrics saved with a Keras model: names of the outputs and the invariant of the accumulators
-/

namespace TFMA
namespace KerasModel

open MetricKeys Beam

theorem mem_insertName (x y : String) : ∀ l, y ∈ insertName x l ↔ y = x ∨ y ∈ l
  | [] => by simp [insertName]
  | z :: l => by
    simp only [insertName]
    split_ifs with h1 h2
    · subst h1; simp
    · simp
    · simp only [List.mem_cons, mem_insertName x y l]
      tauto

theorem sorted_insertName (x : String) : ∀ l : List String, l.Pairwise (· < ·) → (insertName x l).Pairwise (· < ·)
  | [], _ => by simp [insertName]
  | z :: l, h => by
    simp only [insertName]
    have h' := List.pairwise_cons.1 h
    split_ifs with h1 h2
    · exact h
    · have hlt : x < z := lt_of_le_of_ne h2 h1
      refine List.pairwise_cons.2 ⟨fun y hy => ?_, h⟩
      rcases List.mem_cons.1 hy with rfl | hy
      · exact hlt
      · exact lt_trans hlt (h'.1 y hy)
    · refine List.pairwise_cons.2 ⟨fun y hy => ?_, sorted_insertName x l h'.2⟩
      rcases (mem_insertName x y l).1 hy with rfl | hy
      · exact not_le.1 h2
      · exact h'.1 y hy

theorem mem_namesOf (keys : List MetricKey) (o : String) : o ∈ namesOf keys ↔ o ∈ keys.map MetricKey.outputName := by
  unfold namesOf
  induction keys.map MetricKey.outputName with
  | nil => simp
  | cons x l ih => rw [List.foldr_cons, mem_insertName, ih, List.mem_cons]

theorem sorted_namesOf (keys : List MetricKey) : (namesOf keys).Pairwise (· < ·) := by
  unfold namesOf
  induction keys.map MetricKey.outputName with
  | nil => simp
  | cons x l ih => rw [List.foldr_cons]; exact sorted_insertName x _ ih

theorem nodup_namesOf (keys : List MetricKey) : (namesOf keys).Nodup :=
  (sorted_namesOf keys).imp fun h => ne_of_lt h

theorem empty_le (s : String) : "" ≤ s := by
  rw [String.le_iff_toList_le]
  exact not_lt.1 (List.not_lt_nil _)

/-- The names without the first place. -/
theorem namesOf_cons (keys : List MetricKey) (h : keys ≠ []) : ∃ o os, namesOf keys = o :: os := by
  cases hn : namesOf keys with
  | cons o os => exact ⟨o, os, rfl⟩
  | nil =>
    obtain ⟨k, ks, rfl⟩ := List.exists_cons_of_ne_nil h
    have : k.outputName ∈ namesOf (k :: ks) := (mem_namesOf _ _).2 (by simp)
    rw [hn] at this
    simp at this

/-- There is room for all metrics at the first output. -/
theorem room {keys : List MetricKey} {o : String} {os : List String} (hn : namesOf keys = o :: os)
    (h : "" ∈ keys.map MetricKey.outputName ∨ os = []) : countOf keys o = keys.length := by
  unfold countOf
  split_ifs with ho
  · rfl
  · rcases h with h | h
    · rw [← mem_namesOf, hn] at h
      rcases List.mem_cons.1 h with h | h
      · exact absurd h.symm ho
      · have hs := sorted_namesOf keys
        rw [hn] at hs
        exact absurd ((List.pairwise_cons.1 hs).1 _ h) (not_lt.2 (empty_le o))
    · subst h
      rw [List.filter_eq_self.2]
      intro k hk
      have : k.outputName ∈ namesOf keys := (mem_namesOf _ _).2 (List.mem_map_of_mem hk)
      rw [hn, List.mem_singleton] at this
      simpa using this

theorem metricKeys_length {W V : Type} (modelName : String) (outputs : List String) : ∀ (ms : List (Stored W V)) (ks : List MetricKey),
    metricKeys modelName outputs ms = .ok ks → ks.length = ms.length
  | [], ks, h => by simp only [metricKeys, Except.ok.injEq] at h; simp [← h]
  | m :: ms, ks, h => by
    simp only [metricKeys] at h
    split at h
    · exact absurd h (by simp)
    · split at h
      · exact absurd h (by simp)
      · rename_i h'
        simp only [Except.ok.injEq] at h
        subst h
        simp [metricKeys_length modelName outputs ms _ h']

variable {F R W V : Type} [AddCommMonoid W]

/-- The output is used for inputs. -/
def fed (names : List String) (o : String) : Bool := !(o = "" ∧ 1 < names.length)

/-- What is stored for an example. -/
def cell (names : List String) (o : String) (x : Example F R) : Option R :=
  match rowFor names x o with
  | .ok r => r
  | .error _ => none

/-- An example that can be added. -/
def Fine (names : List String) (x : Example F R) : Prop := ∀ o ∈ names, fed names o = true → ∃ r, x.row o = .ok r

/-- The examples of the events. -/
def examples (xs : List (Event F R)) : List (Example F R) :=
  xs.filterMap fun e => match e with
    | .add x => some x
    | .compact => none

theorem examples_append (xs ys : List (Event F R)) : examples (xs ++ ys) = examples xs ++ examples ys := by
  simp [examples, List.filterMap_append]

theorem rowFor_ok {names : List String} {x : Example F R} (hx : Fine names x) {o : String} (ho : o ∈ names) :
    rowFor names x o = .ok (cell names o x) := by
  unfold cell
  by_cases hf : o = "" ∧ 1 < names.length
  · simp [rowFor, hf]
  · obtain ⟨r, hr⟩ := hx o ho (by simp [fed, hf])
    simp only [rowFor, if_neg hf, hr, Except.map]

theorem rowsFor_ok {names : List String} {x : Example F R} (hx : Fine names x) : ∀ os : List String, (∀ o ∈ os, o ∈ names) →
    rowsFor names x os = .ok (os.map fun o => cell names o x)
  | [], _ => rfl
  | o :: os, h => by
    simp only [rowsFor, rowFor_ok hx (h o (by simp)), rowsFor_ok hx os fun o' h' => h o' (by simp [h']), List.map_cons]

/-- Batches of examples that can be added update the weights of each metric by the sum of the contributions of the examples. -/
def BatchSums (c : Combiner F R W V) (f : Stored W V → Example F R → W) : Prop :=
  ∀ pend : List (Example F R), pend ≠ [] → (∀ x ∈ pend, Fine (namesOf c.keys) x) →
    c.model.update (pend.map Example.features)
      (columns (namesOf c.keys) ((namesOf c.keys).map fun o => pend.map (cell (namesOf c.keys) o))) =
        .ok (c.model.metrics.map fun m => (pend.map (f m)).sum)

/-- The invariant. -/
def Inv (c : Combiner F R W V) (f : Stored W V → Example F R → W) (xs : List (Event F R)) (a : Acc F R W)
    (pend : List (Example F R)) : Prop :=
  (∀ x ∈ pend, Fine (namesOf c.keys) x) ∧ a.features = pend.map Example.features ∧
  a.inputs = (namesOf c.keys).map (fun o => pend.map (cell (namesOf c.keys) o)) ∧
  ∃ w rest, a.weights = w :: rest ∧
    List.Forall₂ (fun m w => w.getD 0 + (pend.map (f m)).sum = ((examples xs).map (f m)).sum) c.model.metrics w

theorem addWeights_ok (X Y : Stored W V → W) : ∀ (ms : List (Stored W V)) (ws : List (Option W)),
    List.Forall₂ (fun m w => w.getD 0 + X m = Y m) ms ws →
    ∃ us, addWeights ws (ms.map X) = .ok us ∧ List.Forall₂ (fun m w => w.getD 0 = Y m) ms us
  | [], _, .nil => ⟨[], rfl, .nil⟩
  | m :: ms, w :: ws, .cons h hs => by
    obtain ⟨us, h1, h2⟩ := addWeights_ok X Y ms ws hs
    refine ⟨plusWeights w (X m) :: us, by simp only [List.map_cons, addWeights, h1], .cons ?_ h2⟩
    cases w <;> simpa [plusWeights] using h

variable {c : Combiner F R W V} {f : Stored W V → Example F R → W}

theorem processBatch_ok (hk : c.keys ≠ []) (hb : BatchSums c f) {xs : List (Event F R)} {a : Acc F R W} {pend : List (Example F R)}
    (h : Inv c f xs a pend) : ∃ b, processBatch c a = .ok b ∧ Inv c f xs b [] := by
  obtain ⟨h1, h2, h3, w, rest, h4, h5⟩ := h
  obtain ⟨o, os, hn⟩ := namesOf_cons c.keys hk
  by_cases hp : pend = []
  · subst hp
    refine ⟨a, ?_, h1, h2, h3, w, rest, h4, h5⟩
    unfold processBatch
    rw [h3, hn]
    simp
  · obtain ⟨us, g1, g2⟩ := addWeights_ok (fun m => (pend.map (f m)).sum) (fun m => ((examples xs).map (f m)).sum) c.model.metrics w h5
    refine ⟨⟨[], a.inputs.map fun _ => [], us :: rest, 0⟩, ?_, by simp, rfl, ?_, us, rest, rfl, ?_⟩
    · have hu := hb pend hp h1
      unfold processBatch
      rw [h2, h3, hu]
      simp only [hn, List.map_cons, List.length_map, List.length_eq_zero_iff, hp, if_false, h4, onFirst, g1]
    · rw [h3, List.map_map]
      rfl
    · exact g2.imp fun m w hw => by simpa using hw

theorem step_ok (hk : c.keys ≠ []) (hb : BatchSums c f) {xs : List (Event F R)} {a : Acc F R W} {pend : List (Example F R)}
    (h : Inv c f xs a pend) (e : Event F R) (he : ∀ x ∈ examples [e], Fine (namesOf c.keys) x) :
    ∃ b p, step c a e = .ok b ∧ Inv c f (xs ++ [e]) b p := by
  cases e with
  | compact =>
    obtain ⟨b, h1, h2⟩ := processBatch_ok hk hb h
    refine ⟨b, [], h1, ?_⟩
    have : examples (xs ++ [Event.compact]) = examples xs := by simp [examples]
    unfold Inv at h2 ⊢
    rw [this]
    exact h2
  | add x =>
    have hx : Fine (namesOf c.keys) x := he x (by simp [examples])
    obtain ⟨h1, h2, h3, w, rest, h4, h5⟩ := h
    have hinv : Inv c f (xs ++ [.add x]) { a with
        features := a.features ++ [x.features]
        inputs := List.zipWith (fun col r => col ++ [r]) a.inputs ((namesOf c.keys).map fun o => cell (namesOf c.keys) o x)
        size := a.size + x.bytes } (pend ++ [x]) := by
      refine ⟨?_, by simp [h2], ?_, w, rest, h4, ?_⟩
      · intro y hy
        rcases List.mem_append.1 hy with hy | hy
        · exact h1 y hy
        · rw [List.mem_singleton.1 hy]; exact hx
      · rw [h3, List.zipWith_map, List.zipWith_self]
        simp
      · refine h5.imp fun m w hw => ?_
        rw [examples_append]
        simp only [List.map_append, List.sum_append, ← hw]
        simp [examples, add_assoc]
    simp only [step, addExample, rowsFor_ok hx _ fun o ho => ho]
    split_ifs
    · obtain ⟨d, k1, k2⟩ := processBatch_ok hk hb hinv
      exact ⟨d, [], k1, k2⟩
    · exact ⟨_, _, rfl, hinv⟩

theorem mergeWeights_ok (X Y : Stored W V → W) : ∀ (ms : List (Stored W V)) (ws us : List (Option W)),
    List.Forall₂ (fun m w => w.getD 0 = X m) ms ws → List.Forall₂ (fun m w => w.getD 0 = Y m) ms us →
    ∃ out, mergeWeights ms.length ws us = .ok out ∧ List.Forall₂ (fun m w => w.getD 0 = X m + Y m) ms out
  | [], _, _, .nil, .nil => ⟨[], rfl, .nil⟩
  | m :: ms, w :: ws, u :: us, .cons h hs, .cons g gs => by
    obtain ⟨out, h1, h2⟩ := mergeWeights_ok X Y ms ws us hs gs
    cases u with
    | none =>
      refine ⟨w :: out, by simp only [List.length_cons, mergeWeights, h1], .cons ?_ h2⟩
      rw [← h, ← g]; simp
    | some u =>
      refine ⟨plusWeights w u :: out, by simp only [List.length_cons, mergeWeights, h1], .cons ?_ h2⟩
      rw [← h, ← g]
      cases w <;> simp [plusWeights]

theorem mergeOne_ok (hk : c.keys ≠ []) (hl : c.keys.length = c.model.metrics.length) (hb : BatchSums c f)
    {xs ys : List (Event F R)} {a b : Acc F R W} {p : List (Example F R)} (ha : Inv c f xs a []) (h : Inv c f ys b p) :
    ∃ d, mergeOne c a b = .ok d ∧ Inv c f (xs ++ ys) d [] := by
  obtain ⟨b', g1, g2⟩ := processBatch_ok hk hb h
  obtain ⟨-, -, -, u, urest, g4, g5⟩ := g2
  obtain ⟨-, h2, h3, w, rest, h4, h5⟩ := ha
  obtain ⟨out, m1, m2⟩ := mergeWeights_ok (fun m => ((examples xs).map (f m)).sum) (fun m => ((examples ys).map (f m)).sum)
    c.model.metrics w u (h5.imp fun m w hw => by simpa using hw) (g5.imp fun m w hw => by simpa using hw)
  refine ⟨{ a with weights := out :: rest }, ?_, by simp, h2, h3, out, rest, rfl, ?_⟩
  · simp only [mergeOne, g1, g4, h4, onFirst, hl, m1]
  · refine m2.imp fun m w hw => ?_
    rw [examples_append]
    simpa using hw

theorem merge_ok (hk : c.keys ≠ []) (hl : c.keys.length = c.model.metrics.length) (hb : BatchSums c f)
    (l : List (List (Event F R) × Acc F R W)) (hne : l ≠ []) (h : ∀ p ∈ l, ∃ q, Inv c f p.1 p.2 q) :
    ∃ d, merge c (l.map Prod.snd) = .ok d ∧ ∃ q, Inv c f (l.map Prod.fst).flatten d q := by
  cases l with
  | nil => exact absurd rfl hne
  | cons p l =>
    obtain ⟨q, hq⟩ := h p (by simp)
    obtain ⟨r, h1, h2⟩ := processBatch_ok hk hb hq
    have key : ∀ (l : List (List (Event F R) × Acc F R W)) (xs : List (Event F R)) (r : Acc F R W), Inv c f xs r [] →
        (∀ p ∈ l, ∃ q, Inv c f p.1 p.2 q) →
        ∃ d, loop (mergeOne c) r (l.map Prod.snd) = .ok d ∧ Inv c f (xs ++ (l.map Prod.fst).flatten) d [] := by
      intro l
      induction l with
      | nil => intro xs r hr _; exact ⟨r, rfl, by simpa using hr⟩
      | cons q l ih =>
        intro xs r hr hq
        obtain ⟨p, hp⟩ := hq q (by simp)
        obtain ⟨d, d1, d2⟩ := mergeOne_ok hk hl hb hr hp
        obtain ⟨e, e1, e2⟩ := ih _ d d2 fun q' h' => hq q' (by simp [h'])
        refine ⟨e, ?_, by simpa using e2⟩
        simp only [List.map_cons, loop, d1, bind, Except.bind]
        exact e1
    obtain ⟨d, d1, d2⟩ := key l p.1 r h2 fun q hq => h q (by simp [hq])
    refine ⟨d, ?_, [], by simpa using d2⟩
    simp only [List.map_cons, merge, h1]
    exact d1

theorem create_inv (hk : c.keys ≠ []) (hl : c.keys.length = c.model.metrics.length)
    (hr : "" ∈ c.keys.map MetricKey.outputName ∨ ∃ o, namesOf c.keys = [o]) : Inv c f [] (create c) [] := by
  obtain ⟨o, os, hn⟩ := namesOf_cons c.keys hk
  have hroom : countOf c.keys o = c.model.metrics.length := by
    rw [← hl]
    refine room hn (hr.imp id ?_)
    rintro ⟨o', ho'⟩
    rw [hn] at ho'
    simpa using (List.cons.inj ho').2
  refine ⟨by simp, rfl, by simp [create], List.replicate (countOf c.keys o) none, os.map fun o => List.replicate (countOf c.keys o) none,
    by simp [create, hn], ?_⟩
  rw [hroom]
  generalize c.model.metrics = ms
  induction ms with
  | nil => exact .nil
  | cons m ms ih => exact .cons (by simp [examples]) ih

theorem run_ok (hk : c.keys ≠ []) (hl : c.keys.length = c.model.metrics.length)
    (hr : "" ∈ c.keys.map MetricKey.outputName ∨ ∃ o, namesOf c.keys = [o]) (hb : BatchSums c f) (s : Sched (Event F R))
    (hs : ∀ x ∈ examples s.inputs, Fine (namesOf c.keys) x) :
    ∃ a, (combineFn c).run s = .ok a ∧ ∃ p, Inv c f s.inputs a p :=
  run_total_merge (c := combineFn c) (P := fun xs a => ∃ p, Inv c f xs a p)
    (Q := fun xs => ∀ x ∈ examples xs, Fine (namesOf c.keys) x)
    (fun xs ys h => by
      rw [examples_append] at h
      exact ⟨fun x hx => h x (by simp [hx]), fun x hx => h x (by simp [hx])⟩)
    ⟨[], create_inv hk hl hr⟩
    (fun xs a x ⟨p, hp⟩ hq => by
      obtain ⟨b, q, h1, h2⟩ := step_ok hk hb hp x (fun y hy => hq y (by rw [examples_append]; simp [hy]))
      exact ⟨b, h1, q, h2⟩)
    (fun l hne hp _ => merge_ok hk hl hb l hne hp) s hs

omit [AddCommMonoid W] in
/-- What is extracted. -/
theorem results_get (X : Stored W V → W) : ∀ (ms : List (Stored W V)) (ks : List MetricKey) (ws : List (Option W)) (d : Dict MetricKey V),
    ks.length = ms.length → List.Forall₂ (fun m w => w.getD m.initial = X m) ms ws →
    results ms ks ws d = .ok ((List.zip ks ms).foldl (fun d p => Dict.set d p.1 (p.2.result (X p.2))) d)
  | [], [], _, d, _, .nil => rfl
  | m :: ms, k :: ks, w :: ws, d, hl, .cons h hs => by
    simp only [results, List.zip_cons_cons, List.foldl_cons]
    rw [results_get X ms ks ws _ (by simpa using hl) hs, h]

/-! ### Layouts without room for all the metrics -/

theorem addWeights_length : ∀ (ws : List (Option W)) (us : List W) (out : List (Option W)), addWeights ws us = .ok out →
    out.length = ws.length
  | ws, [], out, h => by simp only [addWeights, Except.ok.injEq] at h; rw [h]
  | [], _ :: _, _, h => by simp [addWeights] at h
  | w :: ws, u :: us, out, h => by
    simp only [addWeights] at h
    split at h
    · exact absurd h (by simp)
    · rename_i h'
      simp only [Except.ok.injEq] at h
      subst h
      simp [addWeights_length ws us _ h']

theorem mergeWeights_length : ∀ (n : ℕ) (ws us out : List (Option W)), mergeWeights n ws us = .ok out → out.length = ws.length
  | 0, ws, us, out, h => by simp only [mergeWeights, Except.ok.injEq] at h; rw [h]
  | n + 1, [], [], _, h => by simp [mergeWeights] at h
  | n + 1, _ :: _, [], _, h => by simp [mergeWeights] at h
  | n + 1, w :: ws, none :: us, out, h => by
    simp only [mergeWeights] at h
    split at h
    · exact absurd h (by simp)
    · rename_i h'
      simp only [Except.ok.injEq] at h
      subst h
      simp [mergeWeights_length n ws us _ h']
  | n + 1, [], none :: us, out, h => by
    simp only [mergeWeights] at h
    exact mergeWeights_length n [] us out h
  | n + 1, [], some _ :: _, _, h => by simp [mergeWeights] at h
  | n + 1, w :: ws, some u :: us, out, h => by
    simp only [mergeWeights] at h
    split at h
    · exact absurd h (by simp)
    · rename_i h'
      simp only [Except.ok.injEq] at h
      subst h
      simp [mergeWeights_length n ws us _ h']

/-- The places of the weights at the first output. -/
def places (a : Acc F R W) : ℕ := (a.weights.head?.getD []).length

theorem onFirst_places {g : List (Option W) → Except Err (List (Option W))} (hg : ∀ w out, g w = .ok out → out.length = w.length)
    {ws out : List (List (Option W))} (h : onFirst g ws = .ok out) : (out.head?.getD []).length = (ws.head?.getD []).length := by
  cases ws with
  | nil => simp [onFirst] at h
  | cons w ws =>
    simp only [onFirst] at h
    split at h
    · exact absurd h (by simp)
    · rename_i h'
      simp only [Except.ok.injEq] at h
      subst h
      simpa using hg _ _ h'

theorem processBatch_places {a b : Acc F R W} (h : processBatch c a = .ok b) : places b = places a := by
  unfold processBatch at h
  split at h
  · exact absurd h (by simp)
  · split_ifs at h
    · simp only [Except.ok.injEq] at h; rw [h]
    · split at h
      · exact absurd h (by simp)
      · split at h
        · exact absurd h (by simp)
        · rename_i h'
          simp only [Except.ok.injEq] at h
          subst h
          exact onFirst_places (fun w out hw => addWeights_length w _ out hw) h'

theorem step_places {a b : Acc F R W} {e : Event F R} (h : step c a e = .ok b) : places b = places a := by
  cases e with
  | compact => exact processBatch_places h
  | add x =>
    simp only [step] at h
    split at h
    · exact absurd h (by simp)
    · rename_i d hd
      have e1 : places d = places a := by
        simp only [addExample] at hd
        split at hd
        · exact absurd hd (by simp)
        · simp only [Except.ok.injEq] at hd
          subst hd
          rfl
      split_ifs at h
      · rw [processBatch_places h, e1]
      · simp only [Except.ok.injEq] at h; rw [← h, e1]

theorem mergeOne_places {a b d : Acc F R W} (h : mergeOne c a b = .ok d) : places d = places a := by
  simp only [mergeOne] at h
  split at h
  · exact absurd h (by simp)
  · split at h
    · exact absurd h (by simp)
    · split at h
      · exact absurd h (by simp)
      · rename_i h'
        simp only [Except.ok.injEq] at h
        subst h
        exact onFirst_places (fun w out hw => mergeWeights_length _ w _ out hw) h'

theorem loop_places {l : List (Acc F R W)} : ∀ {a d : Acc F R W}, loop (mergeOne c) a l = .ok d → places d = places a := by
  induction l with
  | nil => intro a d h; simp only [loop, Except.ok.injEq] at h; rw [h]
  | cons b l ih =>
    intro a d h
    simp only [loop] at h
    cases hm : mergeOne c a b with
    | error e => rw [hm] at h; exact absurd h (by simp [bind, Except.bind])
    | ok a' =>
      rw [hm] at h
      rw [ih (a := a') h, mergeOne_places hm]

theorem run_places (s : Sched (Event F R)) (a : Acc F R W) (h : (combineFn c).run s = .ok a) : places a = places (create c) := by
  refine run_rel (c := combineFn c) (P := fun _ a => places a = places (create c)) rfl (fun xs a x b ha hb => ?_) ?_ s a h
  · rw [step_places hb, ha]
  · intro l hl hp b hb
    cases l with
    | nil => exact absurd rfl hl
    | cons p l =>
      simp only [List.map_cons, combineFn, merge] at hb
      split at hb
      · exact absurd hb (by simp)
      · rename_i h'
        rw [loop_places hb, processBatch_places h', hp p (by simp)]

theorem results_short : ∀ (ms : List (Stored W V)) (ks : List MetricKey) (ws : List (Option W)) (d : Dict MetricKey V),
    ws.length < ms.length → results ms ks ws d = .error .indexError
  | [], _, _, _, h => by simp at h
  | m :: ms, [], ws, d, _ => by simp [results]
  | m :: ms, k :: ks, [], d, _ => by simp [results]
  | m :: ms, k :: ks, w :: ws, d, h => by
    simp only [results]
    exact results_short ms ks ws _ (by simpa using h)

end KerasModel
end TFMA
