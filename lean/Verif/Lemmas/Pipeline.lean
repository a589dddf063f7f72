import Verif.Model.Pipeline
import Verif.Py.DictLemmas
import Mathlib.Data.List.Flatten
import Mathlib.Data.List.Perm.Basic

/-! # Lemmas about the assembly of the pipeline -/

namespace TFMA.Pipeline

variable {X P : Type}

/-- The values of a key in the items of a dictionary. -/
def valuesAt (k : String) (d : List (String × P)) : List P := d.filterMap fun e => if e.1 = k then some e.2 else none

theorem valuesAt_of_wf (k : String) : ∀ (d : Dict String P), Dict.WF d → valuesAt k d = (Dict.get? d k).toList
  | [], _ => rfl
  | (k', v) :: d, h => by
    have hd : Dict.WF d := (List.nodup_cons.1 h).2
    have hk : k' ∉ Dict.keys d := (List.nodup_cons.1 h).1
    have ih := valuesAt_of_wf k d hd
    rw [Dict.get?_cons]
    by_cases e : k' = k
    · subst e
      have : Dict.get? d k' = none := (Dict.get?_eq_none_iff _ _).2 hk
      rw [this] at ih
      have hh : valuesAt k' ((k', v) :: d) = v :: valuesAt k' d := by simp [valuesAt]
      rw [hh, ih]
      simp
    · have hh : valuesAt k ((k', v) :: d) = valuesAt k d := by simp [valuesAt, e]
      rw [hh, ih]
      simp [e]

/-- The outputs collected for a key. -/
def collected (ev : Dict String (List P)) (k : String) : List P := (Dict.get? ev k).getD []

/-- No list of outputs is empty, and no key occurs twice. -/
def Sound (ev : Dict String (List P)) : Prop := Dict.WF ev ∧ ∀ k, Dict.get? ev k ≠ some []

theorem update_spec : ∀ (d : List (String × P)) (ev : Dict String (List P)), Sound ev →
    Sound (update ev d) ∧ ∀ k, collected (update ev d) k = collected ev k ++ valuesAt k d
  | [], ev, h => ⟨h, fun k => by simp [update, valuesAt]⟩
  | (k', v) :: d, ev, h => by
    have hs : Sound (Dict.set ev k' ((Dict.get? ev k').getD [] ++ [v])) := by
      refine ⟨Dict.WF_set h.1 _ _, fun k => ?_⟩
      rw [Dict.get?_set]
      split
      · simp
      · exact h.2 k
    obtain ⟨h1, h2⟩ := update_spec d _ hs
    refine ⟨h1, fun k => ?_⟩
    simp only [update]
    rw [h2 k]
    unfold collected
    rw [Dict.get?_set]
    by_cases e : k' = k
    · subst e
      simp [valuesAt]
    · have : ¬ k = k' := fun hh => e hh.symm
      simp [valuesAt, e, this]

/-- A run of an evaluator: with the extracts it gets. -/
abbrev Run (X P : Type) := Evaluator X P × X

/-- The labels of the runs. -/
def runLabels (rs : List (Run X P)) : List String := rs.map fun r => r.1.stageName

/-- The evaluation after the runs. -/
def afterRuns (ev : Dict String (List P)) (rs : List (Run X P)) : Dict String (List P) := rs.foldl (fun e r => update e (r.1.apply r.2)) ev

theorem afterRuns_spec : ∀ (rs : List (Run X P)) (ev : Dict String (List P)), Sound ev →
    Sound (afterRuns ev rs) ∧ ∀ k, collected (afterRuns ev rs) k = collected ev k ++ rs.flatMap fun r => valuesAt k (r.1.apply r.2)
  | [], ev, h => ⟨h, fun k => by simp [afterRuns]⟩
  | r :: rs, ev, h => by
    obtain ⟨h1, h2⟩ := update_spec (r.1.apply r.2) ev h
    obtain ⟨h3, h4⟩ := afterRuns_spec rs _ h1
    refine ⟨h3, fun k => ?_⟩
    have := h4 k
    rw [h2 k] at this
    simp only [afterRuns, List.foldl_cons, List.flatMap_cons] at this ⊢
    rw [this, List.append_assoc]

theorem afterRuns_append (ev : Dict String (List P)) (rs rs' : List (Run X P)) :
    afterRuns ev (rs ++ rs') = afterRuns (afterRuns ev rs) rs' := by simp [afterRuns]

/-- The runs of one round. -/
def round (now : Option String → Bool) (x : X) (vs : List (Evaluator X P)) : List (Run X P) :=
  (vs.filter fun v => now v.runAfter).map fun v => (v, x)

theorem evaluate_spec (now : Option String → Bool) (x : X) : ∀ (vs : List (Evaluator X P)) (labels : List String)
    (ev : Dict String (List P)), labels.Nodup →
    ((labels ++ runLabels (round now x vs)).Nodup →
      evaluate now x vs (labels, ev) = .ok (labels ++ runLabels (round now x vs), afterRuns ev (round now x vs))) ∧
    (¬ (labels ++ runLabels (round now x vs)).Nodup → evaluate now x vs (labels, ev) = .error .runtimeError)
  | [], labels, ev, h => by simp [evaluate, round, runLabels, afterRuns, h]
  | v :: vs, labels, ev, h => by
    unfold evaluate
    by_cases hn : now v.runAfter = true
    · have hr : round now x (v :: vs) = (v, x) :: round now x vs := by simp [round, hn]
      rw [if_pos hn, hr]
      unfold useLabel
      by_cases hm : v.stageName ∈ labels
      · simp only [hm, if_true]
        refine ⟨fun hd => ?_, fun _ => trivial⟩
        exact absurd rfl (List.nodup_append.1 hd |>.2.2 _ hm v.stageName (by simp [runLabels]))
      · simp only [hm, if_false]
        have hl : (labels ++ [v.stageName]).Nodup := by
          rw [List.nodup_append]
          refine ⟨h, by simp, ?_⟩
          intro a ha b hb
          rw [List.mem_singleton] at hb
          subst hb
          exact fun e => hm (e ▸ ha)
        obtain ⟨i1, i2⟩ := evaluate_spec now x vs (labels ++ [v.stageName]) (update ev (v.apply x)) hl
        have e1 : labels ++ [v.stageName] ++ runLabels (round now x vs) = labels ++ runLabels ((v, x) :: round now x vs) := by
          simp [runLabels]
        rw [e1] at i1 i2
        exact ⟨i1, i2⟩
    · have hr : round now x (v :: vs) = round now x vs := by simp [round, hn]
      rw [if_neg hn, hr]
      exact evaluate_spec now x vs labels ev h

/-- The extracts after each extractor, with the name of the extractor. -/
def stages (x : X) : List (Extractor X) → List (String × X)
  | [] => []
  | e :: es => (e.stageName, e.apply x) :: stages (e.apply x) es

/-- All extractors applied. -/
def afterAll (x : X) (xs : List (Extractor X)) : X := xs.foldl (fun y e => e.apply y) x

/-- The runs in the loop over the extractors. -/
def loopRuns (vs : List (Evaluator X P)) (x : X) (xs : List (Extractor X)) : List (Run X P) :=
  (stages x xs).flatMap fun s => round (fun r => r == some s.1) s.2 vs

theorem nodup_of_append_left {α : Type} {l l' : List α} (h : (l ++ l').Nodup) : l.Nodup := (List.nodup_append.1 h).1

/-- The labels used in the loop over the extractors, in their order. -/
def loopLabels (vs : List (Evaluator X P)) (x : X) (xs : List (Extractor X)) : List String :=
  (stages x xs).flatMap fun s => s.1 :: runLabels (round (fun r => r == some s.1) s.2 vs)

theorem extractLoop_spec (vs : List (Evaluator X P)) : ∀ (xs : List (Extractor X)) (x : X) (labels : List String)
    (ev : Dict String (List P)), labels.Nodup →
    ((labels ++ loopLabels vs x xs).Nodup →
      extractLoop vs xs x (labels, ev) = .ok (afterAll x xs, labels ++ loopLabels vs x xs, afterRuns ev (loopRuns vs x xs))) ∧
    (¬ (labels ++ loopLabels vs x xs).Nodup → extractLoop vs xs x (labels, ev) = .error .runtimeError)
  | [], x, labels, ev, h => by simp [extractLoop, loopRuns, loopLabels, stages, afterRuns, afterAll, h]
  | e :: es, x, labels, ev, h => by
    unfold extractLoop useLabel
    have hL : loopLabels vs x (e :: es) =
        e.stageName :: (runLabels (round (fun r => r == some e.stageName) (e.apply x) vs) ++ loopLabels vs (e.apply x) es) := by
      simp [loopLabels, stages]
    have hR : loopRuns vs x (e :: es) = round (fun r => r == some e.stageName) (e.apply x) vs ++ loopRuns vs (e.apply x) es := by
      simp [loopRuns, stages]
    rw [hL, hR]
    by_cases hm : e.stageName ∈ labels
    · simp only [hm, if_true]
      refine ⟨fun hd => ?_, fun _ => trivial⟩
      exact absurd rfl (List.nodup_append.1 hd |>.2.2 _ hm e.stageName (by simp))
    · simp only [hm, if_false]
      have hl : (labels ++ [e.stageName]).Nodup := by
        rw [List.nodup_append]
        refine ⟨h, by simp, ?_⟩
        intro a ha b hb
        rw [List.mem_singleton] at hb
        subst hb
        exact fun e => hm (e ▸ ha)
      obtain ⟨i1, i2⟩ := evaluate_spec (fun r => r == some e.stageName) (e.apply x) vs (labels ++ [e.stageName]) ev hl
      have hA : labels ++ e.stageName :: (runLabels (round (fun r => r == some e.stageName) (e.apply x) vs) ++ loopLabels vs (e.apply x) es)
          = (labels ++ [e.stageName] ++ runLabels (round (fun r => r == some e.stageName) (e.apply x) vs)) ++ loopLabels vs (e.apply x) es := by
        simp
      rw [hA]
      by_cases hd : (labels ++ [e.stageName] ++ runLabels (round (fun r => r == some e.stageName) (e.apply x) vs)).Nodup
      · rw [i1 hd]
        obtain ⟨j1, j2⟩ := extractLoop_spec vs es (e.apply x) _
          (afterRuns ev (round (fun r => r == some e.stageName) (e.apply x) vs)) hd
        refine ⟨fun hdd => ?_, fun hdd => j2 hdd⟩
        simp only
        rw [j1 hdd, afterRuns_append]
        rfl
      · rw [i2 hd]
        exact ⟨fun hdd => absurd (nodup_of_append_left hdd) hd, fun _ => rfl⟩

/-- All runs, in the order in which they are added. -/
def allRuns (vs : List (Evaluator X P)) (x : X) (xs : List (Extractor X)) : List (Run X P) :=
  round (fun r => r == none || r == some "") x vs ++ loopRuns vs x xs ++ round (fun r => r == some lastStage) (afterAll x xs) vs

/-- The labels used before the outputs are merged. -/
def allLabels (vs : List (Evaluator X P)) (x : X) (xs : List (Extractor X)) : List String :=
  ["TrackInputBytes"] ++ runLabels (round (fun r => r == none || r == some "") x vs) ++ loopLabels vs x xs ++
    runLabels (round (fun r => r == some lastStage) (afterAll x xs) vs)

theorem extractAndEvaluate_spec (combine : List P → P) (x : X) (xs : List (Extractor X)) (vs : List (Evaluator X P)) :
    ((allLabels vs x xs).Nodup →
      extractAndEvaluate combine x xs vs = mergeOutputs combine (afterRuns [] (allRuns vs x xs)) (allLabels vs x xs)) ∧
    (¬ (allLabels vs x xs).Nodup → extractAndEvaluate combine x xs vs = .error .runtimeError) := by
  unfold extractAndEvaluate allLabels allRuns
  obtain ⟨a1, a2⟩ := evaluate_spec (P := P) (fun r => r == none || r == some "") x vs ["TrackInputBytes"] [] (by simp)
  by_cases h1 : (["TrackInputBytes"] ++ runLabels (round (fun r => r == none || r == some "") x vs)).Nodup
  · rw [a1 h1]
    obtain ⟨b1, b2⟩ := extractLoop_spec vs xs x _ (afterRuns ([] : Dict String (List P)) (round (fun r => r == none || r == some "") x vs)) h1
    by_cases h2 : (["TrackInputBytes"] ++ runLabels (round (fun r => r == none || r == some "") x vs) ++ loopLabels vs x xs).Nodup
    · simp only
      rw [b1 h2]
      obtain ⟨c1, c2⟩ := evaluate_spec (fun r => r == some lastStage) (afterAll x xs) vs _
        (afterRuns (afterRuns ([] : Dict String (List P)) (round (fun r => r == none || r == some "") x vs)) (loopRuns vs x xs)) h2
      refine ⟨fun h3 => ?_, fun h3 => ?_⟩
      · simp only
        rw [c1 h3, afterRuns_append, afterRuns_append]
      · simp only
        rw [c2 h3]
    · simp only
      rw [b2 h2]
      exact ⟨fun h3 => absurd (nodup_of_append_left h3) h2, fun _ => rfl⟩
  · rw [a2 h1]
    exact ⟨fun h3 => absurd (nodup_of_append_left (nodup_of_append_left h3)) h1, fun _ => rfl⟩

/-! ### Every verified evaluator runs once -/

theorem round_cons_perm (now : Option String → Bool) (x : X) (v : Evaluator X P) (vs : List (Evaluator X P)) :
    round now x (v :: vs) = round now x [v] ++ round now x vs := by
  by_cases h : now v.runAfter = true <;> simp [round, h]

theorem loopRuns_cons_perm (v : Evaluator X P) (vs : List (Evaluator X P)) (x : X) (xs : List (Extractor X)) :
    (loopRuns (v :: vs) x xs).Perm (loopRuns [v] x xs ++ loopRuns vs x xs) := by
  unfold loopRuns
  have : (fun s : String × X => round (fun r => r == some s.1) s.2 (v :: vs)) =
      fun s => round (fun r => r == some s.1) s.2 [v] ++ round (fun r => r == some s.1) s.2 vs := by
    funext s
    exact round_cons_perm _ _ _ _
  rw [this]
  exact (List.flatMap_append_perm _ _ _).symm

theorem allRuns_cons_perm (v : Evaluator X P) (vs : List (Evaluator X P)) (x : X) (xs : List (Extractor X)) :
    (allRuns (v :: vs) x xs).Perm (allRuns [v] x xs ++ allRuns vs x xs) := by
  unfold allRuns
  rw [round_cons_perm _ x v vs, round_cons_perm _ (afterAll x xs) v vs]
  have e := loopRuns_cons_perm v vs x xs
  generalize loopRuns (v :: vs) x xs = l at e ⊢
  classical
  rw [List.perm_iff_count] at e ⊢
  intro a
  have := e a
  simp only [List.count_append] at this ⊢
  omega

theorem stages_names (xs : List (Extractor X)) : ∀ x : X, (stages x xs).map Prod.fst = xs.map Extractor.stageName := by
  induction xs with
  | nil => intro x; rfl
  | cons e es ih => intro x; simp [stages, ih]

theorem stages_split : ∀ (xs : List (Extractor X)) (x : X) (s : String) (y : X), (s, y) ∈ stages x xs →
    ∃ before e after, xs = before ++ e :: after ∧ e.stageName = s ∧ y = afterAll x (before ++ [e])
  | [], x, s, y, h => by simp [stages] at h
  | e :: es, x, s, y, h => by
    simp only [stages, List.mem_cons] at h
    rcases h with h | h
    · obtain ⟨rfl, rfl⟩ := Prod.mk.inj h
      exact ⟨[], e, es, rfl, rfl, rfl⟩
    · obtain ⟨before, e', after, h1, h2, h3⟩ := stages_split es _ s y h
      exact ⟨e :: before, e', after, by simp [h1], h2, by rw [h3]; simp [afterAll]⟩

theorem loopRuns_one (v : Evaluator X P) (x : X) (xs : List (Extractor X)) (s : String) (hs : v.runAfter = some s)
    (hn : (xs.map Extractor.stageName).Nodup) (hm : s ∈ xs.map Extractor.stageName) :
    ∃ y, (s, y) ∈ stages x xs ∧ loopRuns [v] x xs = [(v, y)] := by
  induction xs generalizing x with
  | nil => simp at hm
  | cons e es ih =>
    have hc : loopRuns [v] x (e :: es) = round (fun r => r == some e.stageName) (e.apply x) [v] ++ loopRuns [v] (e.apply x) es := by
      simp [loopRuns, stages]
    rw [List.map_cons, List.nodup_cons] at hn
    by_cases he : s = e.stageName
    · refine ⟨e.apply x, by simp [stages, he], ?_⟩
      rw [hc]
      have h2 : loopRuns [v] (e.apply x) es = [] := by
        unfold loopRuns
        rw [List.flatMap_eq_nil_iff]
        intro t ht
        have : t.1 ∈ es.map Extractor.stageName := by
          rw [← stages_names es (e.apply x)]
          exact List.mem_map_of_mem ht
        have hne : t.1 ≠ s := fun h => hn.1 (by rw [← he, ← h]; exact this)
        simp [round, hs, Ne.symm hne]
      rw [h2]
      simp [round, hs, he]
    · rw [List.map_cons, List.mem_cons] at hm
      obtain ⟨y, h1, h2⟩ := ih (e.apply x) hn.2 (hm.resolve_left he)
      refine ⟨y, by simp [stages, h1], ?_⟩
      rw [hc, h2]
      simp [round, hs, he]

theorem loopRuns_none (v : Evaluator X P) (x : X) (xs : List (Extractor X)) (h : ∀ e ∈ xs, v.runAfter ≠ some e.stageName) :
    loopRuns [v] x xs = [] := by
  unfold loopRuns
  rw [List.flatMap_eq_nil_iff]
  intro t ht
  have : t.1 ∈ xs.map Extractor.stageName := by
    rw [← stages_names xs x]
    exact List.mem_map_of_mem ht
  obtain ⟨e, he, e'⟩ := List.mem_map.1 this
  have := h e he
  rw [e'] at this
  simp [round, this]

/-! ### Merging outputs -/

/-- The labels used for merging the outputs of a key. -/
def mergeLabels (ev : Dict String (List P)) : List String :=
  (ev.filter fun e => decide (e.2.length ≠ 1)).flatMap fun e =>
    ["FlattenEvaluationOutput(" ++ e.1 ++ ")", "CombineEvaluationOutput(" ++ e.1 ++ ")"]

/-- What becomes of the outputs of a key. -/
def mergedOf (combine : List P → P) : List P → P
  | [p] => p
  | l => combine l

theorem useLabel_ok (label : String) (labels : List String) (h : label ∉ labels) : useLabel label labels = .ok (labels ++ [label]) := by
  simp [useLabel, h]

theorem mergeOutputs_ok (combine : List P → P) : ∀ (ev : List (String × List P)) (labels : List String),
    (labels ++ mergeLabels ev).Nodup → mergeOutputs combine ev labels = .ok (ev.map fun e => (e.1, mergedOf combine e.2))
  | [], _, _ => rfl
  | (k, l) :: ev, labels, h => by
    unfold mergeOutputs
    split
    · next p =>
      have : mergeLabels ((k, [p]) :: ev) = mergeLabels ev := by simp [mergeLabels]
      rw [this] at h
      rw [mergeOutputs_ok combine ev labels h]
      rfl
    · next hne =>
      have hl : l.length ≠ 1 := fun e => by
        obtain ⟨p, rfl⟩ := List.length_eq_one_iff.1 e
        exact hne p rfl
      have : mergeLabels ((k, l) :: ev) =
          ("FlattenEvaluationOutput(" ++ k ++ ")") :: ("CombineEvaluationOutput(" ++ k ++ ")") :: mergeLabels ev := by simp [mergeLabels, hl]
      rw [this] at h
      have h' : (labels ++ ["FlattenEvaluationOutput(" ++ k ++ ")"] ++ ["CombineEvaluationOutput(" ++ k ++ ")"] ++ mergeLabels ev).Nodup := by
        simpa using h
      have h1 := nodup_of_append_left h'
      have h2 := nodup_of_append_left h1
      rw [useLabel_ok _ _ (fun hm => (List.nodup_append.1 h2).2.2 _ hm _ (by simp) rfl)]
      simp only
      rw [useLabel_ok _ _ (fun hm => (List.nodup_append.1 h1).2.2 _ hm _ (by simp) rfl)]
      simp only
      rw [mergeOutputs_ok combine ev _ h']
      have : mergedOf combine l = combine l := by
        unfold mergedOf
        split
        · next p => exact absurd rfl (hne p)
        · rfl
      simp [this]

theorem mergeOutputs_eq (combine : List P → P) : ∀ (ev : List (String × List P)) (labels : List String) (r : Dict String P),
    mergeOutputs combine ev labels = .ok r → r = ev.map fun e => (e.1, mergedOf combine e.2)
  | [], _, r, h => by simpa [mergeOutputs] using h.symm
  | (k, l) :: ev, labels, r, h => by
    unfold mergeOutputs at h
    split at h
    · next p =>
      split at h
      · simp at h
      · next d hd =>
        rw [← Except.ok.inj h, mergeOutputs_eq combine ev _ d hd]
        rfl
    · next hne =>
      split at h
      · simp at h
      · split at h
        · simp at h
        · split at h
          · simp at h
          · next d hd =>
            rw [← Except.ok.inj h, mergeOutputs_eq combine ev _ d hd]
            have : mergedOf combine l = combine l := by
              unfold mergedOf
              split
              · next p => exact absurd rfl (hne p)
              · rfl
            simp [this]

theorem get?_map_values {A B : Type} (f : A → B) : ∀ (d : Dict String A) (k : String),
    Dict.get? (d.map fun e => (e.1, f e.2)) k = (Dict.get? d k).map f
  | [], _ => rfl
  | (k', v) :: d, k => by
    rw [List.map_cons, Dict.get?_cons, Dict.get?_cons, get?_map_values f d k]
    split <;> rfl

end TFMA.Pipeline
