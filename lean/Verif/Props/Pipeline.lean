import Verif.Lemmas.Pipeline
import Mathlib.Data.List.Forall2
import Mathlib.Data.List.Nodup
import Mathlib.Data.String.Basic

/-!
# C117, C118: the assembly of the pipeline

C117: in a pipeline that can be built every evaluator runs exactly once, on the extracts of the stage it asks for, and the results contain
what it returned.

C118: the default extractors and evaluators fit together for all models, and outputs that are disabled are not written.
-/

namespace TFMA.Pipeline

variable {X P : Type}

/-! ## Specification -/

/-- The extracts an evaluator asks for: the incoming extracts, the extracts after all extractors, or the extracts after the extractor it
names. -/
def Asked (x : X) (xs : List (Extractor X)) (v : Evaluator X P) (y : X) : Prop :=
  ((v.runAfter = none ∨ v.runAfter = some "") ∧ y = x) ∨
  (v.runAfter = some "<last-extractor>" ∧ y = xs.foldl (fun z e => e.apply z) x) ∨
  ∃ before e after, xs = before ++ e :: after ∧ v.runAfter = some e.stageName ∧ y = (before ++ [e]).foldl (fun z e => e.apply z) x

/-- There is something to run after: nothing is named, or the last extractor, or one of the extractors. -/
def Placed (xs : List (Extractor X)) (v : Evaluator X P) : Prop :=
  v.runAfter = none ∨ v.runAfter = some "" ∨ v.runAfter = some "<last-extractor>" ∨ ∃ e ∈ xs, v.runAfter = some e.stageName

/-- No extractor has a name with a special meaning. -/
def Named (xs : List (Extractor X)) : Prop := ∀ e ∈ xs, e.stageName ≠ "" ∧ e.stageName ≠ "<last-extractor>"

/-- The names of all stages. -/
def names (xs : List (Extractor X)) (vs : List (Evaluator X P)) : List String :=
  "TrackInputBytes" :: xs.map Extractor.stageName ++ vs.map Evaluator.stageName

/-! ## C117 -/

/-- C117: an evaluator is rejected, with a ValueError, exactly if it names an extractor that is not there. -/
theorem C117_verified (xs : List (Extractor X)) (vs : List (Evaluator X P)) :
    (verifyAll xs vs = .ok () ↔ ∀ v ∈ vs, Placed xs v) ∧
    (verifyAll xs vs = .error .valueError ↔ ∃ v ∈ vs, ¬ Placed xs v) := by
  have h1 : ∀ v : Evaluator X P, (Placed xs v → verifyEvaluator v xs = .ok ()) ∧ (¬ Placed xs v → verifyEvaluator v xs = .error .valueError) := by
    intro v
    unfold Placed verifyEvaluator lastStage
    cases hv : v.runAfter with
    | none => simp
    | some s =>
      have ha : (xs.any fun x => x.stageName == s) = true ↔ ∃ e ∈ xs, s = e.stageName := by
        simp only [List.any_eq_true, beq_iff_eq]
        exact ⟨fun ⟨e, h, e'⟩ => ⟨e, h, e'.symm⟩, fun ⟨e, h, e'⟩ => ⟨e, h, e'.symm⟩⟩
      constructor
      · intro h
        show (if _ then _ else _) = _
        rw [if_neg]
        rintro ⟨h1, h2, h3⟩
        rw [ha] at h3
        simp only [reduceCtorEq, Option.some.injEq, false_or] at h
        rcases h with h | h | h
        · exact h1 h
        · exact h2 h
        · exact h3 h
      · intro h
        simp only [reduceCtorEq, Option.some.injEq, false_or, not_or] at h
        show (if _ then _ else _) = _
        rw [if_pos]
        refine ⟨h.1, h.2.1, ?_⟩
        rw [ha]
        exact h.2.2
  have h2 : (∀ v ∈ vs, Placed xs v) → verifyAll xs vs = .ok () := by
    induction vs with
    | nil => intro _; rfl
    | cons v vs ih =>
      intro h
      unfold verifyAll
      rw [(h1 v).1 (h v (by simp))]
      exact ih fun w hw => h w (by simp [hw])
  have h3 : (∃ v ∈ vs, ¬ Placed xs v) → verifyAll xs vs = .error .valueError := by
    clear h2
    induction vs with
    | nil => rintro ⟨v, hv, _⟩; simp at hv
    | cons v vs ih =>
      rintro ⟨w, hw, hn⟩
      unfold verifyAll
      by_cases hp : Placed xs v
      · rw [(h1 v).1 hp]
        rcases List.mem_cons.1 hw with rfl | hw
        · exact absurd hp hn
        · exact ih ⟨w, hw, hn⟩
      · rw [(h1 v).2 hp]
  refine ⟨⟨fun h => ?_, h2⟩, ⟨fun h => ?_, h3⟩⟩
  · by_contra hc
    push Not at hc
    rw [h3 hc] at h
    simp at h
  · by_contra hc
    push Not at hc
    rw [h2 hc] at h
    simp at h

private theorem runs_one (x : X) (xs : List (Extractor X)) (v : Evaluator X P) (hn : Named xs)
    (hd : (xs.map Extractor.stageName).Nodup) (hp : Placed xs v) : ∃ y, Asked x xs v y ∧ allRuns [v] x xs = [(v, y)] := by
  unfold allRuns
  rcases hp with h | h | h | ⟨e, he, h⟩
  · refine ⟨x, .inl ⟨.inl h, rfl⟩, ?_⟩
    rw [loopRuns_none v x xs (by simp [h])]
    simp [round, h]
  · refine ⟨x, .inl ⟨.inr h, rfl⟩, ?_⟩
    rw [loopRuns_none v x xs (fun e he => by
      rw [h]; intro hh; exact (hn e he).1 (Option.some.inj hh).symm)]
    simp [round, h, lastStage]
  · refine ⟨afterAll x xs, .inr (.inl ⟨h, rfl⟩), ?_⟩
    rw [loopRuns_none v x xs (fun e he => by
      rw [h]; intro hh; exact (hn e he).2 (Option.some.inj hh).symm)]
    simp [round, h, lastStage]
  · obtain ⟨y, h1, h2⟩ := loopRuns_one v x xs _ h hd (List.mem_map_of_mem he)
    obtain ⟨before, e', after, h3, h4, h5⟩ := stages_split _ _ _ _ h1
    refine ⟨y, .inr (.inr ⟨before, e', after, h3, by rw [h, h4], h5⟩), ?_⟩
    rw [h2]
    have h6 := hn e he
    simp [round, h, lastStage, h6.1, h6.2]

private theorem runs_all (x : X) (xs : List (Extractor X)) (vs : List (Evaluator X P)) (hn : Named xs)
    (hd : (xs.map Extractor.stageName).Nodup) (hp : ∀ v ∈ vs, Placed xs v) :
    ∃ ys, List.Forall₂ (Asked x xs) vs ys ∧ (allRuns vs x xs).Perm (vs.zip ys) := by
  induction vs with
  | nil =>
    refine ⟨[], .nil, ?_⟩
    have : loopRuns ([] : List (Evaluator X P)) x xs = [] := by simp [loopRuns, round]
    simp [allRuns, this, round]
  | cons v vs ih =>
    obtain ⟨ys, h1, h2⟩ := ih fun w hw => hp w (by simp [hw])
    obtain ⟨y, h3, h4⟩ := runs_one x xs v hn hd (hp v (by simp))
    refine ⟨y :: ys, .cons h3 h1, ?_⟩
    refine (allRuns_cons_perm v vs x xs).trans ?_
    rw [h4]
    simpa using h2

private theorem labels_perm (x : X) (xs : List (Extractor X)) (vs : List (Evaluator X P)) :
    (allLabels vs x xs).Perm ("TrackInputBytes" :: xs.map Extractor.stageName ++ runLabels (allRuns vs x xs)) := by
  have h : (loopLabels vs x xs).Perm (xs.map Extractor.stageName ++ runLabels (loopRuns vs x xs)) := by
    rw [← stages_names xs x]
    unfold loopLabels loopRuns runLabels
    rw [List.map_flatMap]
    have := List.flatMap_append_perm (stages x xs) (fun s => [s.1])
      (fun s => (round (fun r => r == some s.1) s.2 vs).map fun r => r.1.stageName)
    have e : (stages x xs).flatMap (fun s => [s.1]) = (stages x xs).map Prod.fst := by
      induction stages x xs with
      | nil => rfl
      | cons a l ih => simp [ih]
    rw [e] at this
    exact this.symm
  unfold allLabels allRuns
  have e1 : ∀ a b : List (Run X P), runLabels (a ++ b) = runLabels a ++ runLabels b := fun a b => by simp [runLabels]
  rw [e1, e1]
  generalize loopLabels vs x xs = l at h ⊢
  rw [List.perm_iff_count] at h ⊢
  intro a
  have := h a
  simp only [List.count_append, List.count_cons, List.count_nil] at this ⊢
  omega

private theorem nodup_iff (x : X) (xs : List (Extractor X)) (vs : List (Evaluator X P)) (hn : Named xs) (hp : ∀ v ∈ vs, Placed xs v) :
    (allLabels vs x xs).Nodup ↔ (names xs vs).Nodup := by
  rw [(labels_perm x xs vs).nodup_iff]
  unfold names
  by_cases hd : (xs.map Extractor.stageName).Nodup
  · obtain ⟨ys, h1, h2⟩ := runs_all x xs vs hn hd hp
    have h3 : (runLabels (allRuns vs x xs)).Perm (vs.map Evaluator.stageName) := by
      refine (h2.map _).trans (List.Perm.of_eq ?_)
      have : ∀ (l : List (Evaluator X P)) (m : List X), l.length = m.length → (l.zip m).map (fun r => r.1.stageName) = l.map Evaluator.stageName := by
        intro l m hl
        rw [← List.map_fst_zip (l₁ := l) (l₂ := m) (by omega), List.map_map]
        rw [List.map_fst_zip (by omega)]
        rfl
      exact this vs ys h1.length_eq
    exact (h3.append_left _).nodup_iff
  · refine ⟨fun h => absurd ?_ hd, fun h => absurd ?_ hd⟩
    · exact (List.nodup_cons.1 (nodup_of_append_left h)).2
    · exact (List.nodup_cons.1 (nodup_of_append_left h)).2

private theorem get?_afterRuns (runs : List (Run X P)) (hw : ∀ r ∈ runs, Dict.WF (r.1.apply r.2)) (k : String) :
    Sound (afterRuns [] runs) ∧ ∃ l, l = runs.filterMap (fun r => Dict.get? (r.1.apply r.2) k) ∧
      Dict.get? (afterRuns [] runs) k = if l = [] then none else some l := by
  have h0 : Sound ([] : Dict String (List P)) := ⟨Dict.WF_nil, fun k => by simp [Dict.get?]⟩
  obtain ⟨h1, h2⟩ := afterRuns_spec runs [] h0
  refine ⟨h1, _, rfl, ?_⟩
  have h3 := h2 k
  have h4 : collected ([] : Dict String (List P)) k = [] := rfl
  rw [h4, List.nil_append] at h3
  have h5 : (runs.flatMap fun r => valuesAt k (r.1.apply r.2)) = runs.filterMap fun r => Dict.get? (r.1.apply r.2) k := by
    clear h1 h2 h3
    induction runs with
    | nil => rfl
    | cons r runs ih =>
      rw [List.flatMap_cons, ih fun r' hr' => hw r' (by simp [hr']), valuesAt_of_wf k _ (hw r (by simp)), List.filterMap_cons]
      cases Dict.get? (r.1.apply r.2) k <;> simp
  rw [h5] at h3
  unfold collected at h3
  cases hg : Dict.get? (afterRuns [] runs) k with
  | none => rw [hg] at h3; simp only [Option.getD_none] at h3; simp [← h3]
  | some l =>
    rw [hg] at h3
    simp only [Option.getD_some] at h3
    have : l ≠ [] := fun e => h1.2 k (by rw [hg, e])
    rw [← h3]
    simp [this]

/-- C117: if the pipeline can be built, every evaluator was applied once, to the extracts it asks for.  A key that one evaluator returns has the
value of this evaluator; the values of several evaluators are combined, each once; there are no other keys. -/
theorem C117_once (combine : List P → P) (x : X) (xs : List (Extractor X)) (vs : List (Evaluator X P)) (hn : Named xs)
    (hp : ∀ v ∈ vs, Placed xs v) (hw : ∀ v ∈ vs, ∀ y, Dict.WF (v.apply y)) (r : Dict String P)
    (h : extractAndEvaluate combine x xs vs = .ok r) :
    ∃ ys, List.Forall₂ (Asked x xs) vs ys ∧ ∀ k outs, outs = (vs.zip ys).filterMap (fun w => Dict.get? (w.1.apply w.2) k) →
      (outs = [] → Dict.get? r k = none) ∧ (∀ p, outs = [p] → Dict.get? r k = some p) ∧
      (2 ≤ outs.length → ∃ l, l.Perm outs ∧ Dict.get? r k = some (combine l)) := by
  obtain ⟨a1, a2⟩ := extractAndEvaluate_spec combine x xs vs
  by_cases hl : (allLabels vs x xs).Nodup
  swap
  · rw [a2 hl] at h; simp at h
  rw [a1 hl] at h
  have hd : (xs.map Extractor.stageName).Nodup :=
    (List.nodup_cons.1 (nodup_of_append_left ((nodup_iff x xs vs hn hp).1 hl))).2
  obtain ⟨ys, h1, h2⟩ := runs_all x xs vs hn hd hp
  refine ⟨ys, h1, ?_⟩
  rintro k outs rfl
  have hr := mergeOutputs_eq combine _ _ r h
  have hwr : ∀ q ∈ allRuns vs x xs, Dict.WF (q.1.apply q.2) := by
    intro q hq
    have := h2.mem_iff.1 hq
    exact hw _ (List.of_mem_zip this).1 _
  obtain ⟨-, l, hl', hg⟩ := get?_afterRuns (allRuns vs x xs) hwr k
  have hperm : l.Perm ((vs.zip ys).filterMap fun w => Dict.get? (w.1.apply w.2) k) := by
    rw [hl']
    exact h2.filterMap _
  have hval : Dict.get? r k = (if l = [] then none else some l).map (mergedOf combine) := by
    rw [hr, get?_map_values, hg]
  generalize (vs.zip ys).filterMap (fun w => Dict.get? (w.1.apply w.2) k) = outs at hperm
  refine ⟨fun e => ?_, fun p e => ?_, fun e => ⟨l, hperm, ?_⟩⟩
  · rw [e] at hperm
    rw [hval, hperm.eq_nil]
    rfl
  · rw [e] at hperm
    rw [hval, hperm.eq_singleton]
    rfl
  · rw [hval]
    have : 2 ≤ l.length := by rw [hperm.length_eq]; exact e
    match l, this with
    | a :: b :: l, _ => rfl

private theorem append_inj {a k k' b : String} (h : a ++ k ++ b = a ++ k' ++ b) : k = k' := by
  have := congrArg String.toList h
  simp only [String.toList_append, List.append_assoc] at this
  exact String.toList_inj.1 (List.append_cancel_right (List.append_cancel_left this))

private theorem flatten_ne (k k' : String) : "FlattenEvaluationOutput(" ++ k ++ ")" ≠ "CombineEvaluationOutput(" ++ k' ++ ")" := by
  intro h
  have := congrArg String.toList h
  simp only [String.toList_append, List.append_assoc] at this
  have := congrArg List.head? this
  simp at this

/-- C117: the pipeline can be built if the names of all stages are different, and none is a name that is used for combining outputs. -/
theorem C117_total (combine : List P → P) (x : X) (xs : List (Extractor X)) (vs : List (Evaluator X P)) (hn : Named xs)
    (hp : ∀ v ∈ vs, Placed xs v) (hd : (names xs vs).Nodup)
    (hr : ∀ n ∈ names xs vs, ∀ k, n ≠ "FlattenEvaluationOutput(" ++ k ++ ")" ∧ n ≠ "CombineEvaluationOutput(" ++ k ++ ")") :
    ∃ r, extractAndEvaluate combine x xs vs = .ok r := by
  have hl := (nodup_iff x xs vs hn hp).2 hd
  rw [(extractAndEvaluate_spec combine x xs vs).1 hl]
  refine ⟨_, mergeOutputs_ok combine _ _ ?_⟩
  have h0 : Sound ([] : Dict String (List P)) := ⟨Dict.WF_nil, fun k => by simp [Dict.get?]⟩
  have hs := (afterRuns_spec (allRuns vs x xs) [] h0).1.1
  generalize afterRuns [] (allRuns vs x xs) = ev at hs
  have hform : ∀ m ∈ mergeLabels ev, ∃ k ∈ Dict.keys ev, m = "FlattenEvaluationOutput(" ++ k ++ ")" ∨ m = "CombineEvaluationOutput(" ++ k ++ ")" := by
    intro m hm
    simp only [mergeLabels, List.mem_flatMap, List.mem_filter] at hm
    obtain ⟨e, ⟨he, -⟩, hm⟩ := hm
    refine ⟨e.1, List.mem_map_of_mem he, ?_⟩
    simpa using hm
  have hm : (mergeLabels ev).Nodup := by
    clear hform
    induction ev with
    | nil => simp [mergeLabels]
    | cons e ev ih =>
      have hk : e.1 ∉ Dict.keys ev := (List.nodup_cons.1 hs).1
      have ih := ih (List.nodup_cons.1 hs).2
      unfold mergeLabels at ih ⊢
      rw [List.filter_cons]
      split
      · rw [List.flatMap_cons, List.nodup_append]
        refine ⟨?_, ih, ?_⟩
        · simp [flatten_ne]
        · intro a ha b hb hab
          subst hab
          simp only [List.mem_flatMap, List.mem_filter] at hb
          obtain ⟨e', ⟨he', -⟩, hb⟩ := hb
          have hne : e.1 ≠ e'.1 := fun h => hk (h ▸ List.mem_map_of_mem he')
          simp only [List.mem_cons, List.not_mem_nil, or_false] at ha hb
          rcases ha with rfl | rfl <;> rcases hb with hb | hb
          · exact hne (append_inj hb)
          · exact flatten_ne _ _ hb
          · exact flatten_ne _ _ hb.symm
          · exact hne (append_inj hb)
      · exact ih
  rw [List.nodup_append]
  refine ⟨hl, hm, ?_⟩
  intro a ha b hb hab
  subst hab
  obtain ⟨k, -, hk⟩ := hform a hb
  have hmem : a ∈ names xs vs := by
    have h1 := (labels_perm x xs vs).mem_iff.1 ha
    rw [List.mem_append] at h1
    rcases h1 with h1 | h1
    · exact List.mem_append.2 (.inl h1)
    · refine List.mem_append.2 (.inr ?_)
      obtain ⟨q, hq, rfl⟩ := List.mem_map.1 h1
      have hxd : (xs.map Extractor.stageName).Nodup := (List.nodup_cons.1 (nodup_of_append_left hd)).2
      obtain ⟨ys, h2, h3⟩ := runs_all x xs vs hn hxd hp
      exact List.mem_map_of_mem (List.of_mem_zip (h3.mem_iff.1 hq)).1
  rcases hk with hk | hk
  · exact (hr a hmem k).1 hk
  · exact (hr a hmem k).2 hk

/-- C117: two stages with the same name are an error. -/
theorem C117_clash (combine : List P → P) (x : X) (xs : List (Extractor X)) (vs : List (Evaluator X P)) (hn : Named xs)
    (hp : ∀ v ∈ vs, Placed xs v) (hd : ¬ (names xs vs).Nodup) : extractAndEvaluate combine x xs vs = .error .runtimeError :=
  (extractAndEvaluate_spec combine x xs vs).2 fun h => hd ((nodup_iff x xs vs hn hp).1 h)

private theorem evaluate_drop (now : Option String → Bool) (x : X) (v : Evaluator X P) (hv : now v.runAfter = false) (after : List (Evaluator X P)) :
    ∀ (before : List (Evaluator X P)) (b : Built P), evaluate now x (before ++ v :: after) b = evaluate now x (before ++ after) b
  | [], b => by simp [evaluate, hv]
  | w :: before, b => by
    have ih := evaluate_drop now x v hv after before
    simp only [List.cons_append, evaluate, ih]

private theorem loop_drop (v : Evaluator X P) (before after : List (Evaluator X P)) : ∀ (xs : List (Extractor X)) (x : X) (b : Built P),
    (∀ e ∈ xs, v.runAfter ≠ some e.stageName) → extractLoop (before ++ v :: after) xs x b = extractLoop (before ++ after) xs x b
  | [], x, b, _ => rfl
  | e :: es, x, b, h => by
    have ih := fun y b' => loop_drop v before after es y b' fun e' he' => h e' (by simp [he'])
    have hv : (v.runAfter == some e.stageName) = false := by simpa using h e (by simp)
    simp only [extractLoop]
    split
    · rfl
    · rw [evaluate_drop _ _ v hv]
      split
      · rfl
      · exact ih _ _

/-- C117 fails for `ExtractAndEvaluate` itself, which may be used without verification: an evaluator that names an extractor that is not
there is left out without notice. -/
theorem C117_dropped_fails (combine : List P → P) (x : X) (xs : List (Extractor X)) (before after : List (Evaluator X P)) (v : Evaluator X P)
    (hv : ¬ Placed xs v) : extractAndEvaluate combine x xs (before ++ v :: after) = extractAndEvaluate combine x xs (before ++ after) := by
  unfold Placed at hv
  simp only [not_or, not_exists, not_and] at hv
  obtain ⟨h1, h2, h3, h4⟩ := hv
  unfold extractAndEvaluate
  rw [evaluate_drop _ _ v (by simp [h2]; exact Option.ne_none_iff_isSome.1 h1)]
  split
  · rfl
  · rw [loop_drop v before after xs x _ h4]
    split
    · rfl
    · rw [evaluate_drop _ _ v (by simpa [lastStage] using h3)]

/-! ## C118: default extractors -/

/-- What must have been done before a stage: features come first, batches are split after everything that works on batches, slice keys are
computed for single examples, and SQL queries may use transformed features. -/
def Ready (before all : List Stage) : Stage → Prop
  | .features => before = []
  | .sliceKeys => .unbatch ∈ before
  | .sqlSliceKeys => .features ∈ before ∧ .unbatch ∉ before ∧ (.transformedFeatures ∈ all → .transformedFeatures ∈ before)
  | _ => .features ∈ before ∧ .unbatch ∉ before

/-- The stages that add predictions. -/
def Predicts : Stage → Prop
  | .predictions | .materializedPredictions | .tflitePredictions | .tfjsPredictions | .custom => True
  | _ => False

/-- The stage that should add the predictions. -/
def Predictor (types : Option (List String)) (custom : Bool) (s : Stage) : Prop :=
  (types = none ∧ s = .materializedPredictions) ∨
  ∃ ts, types = some ts ∧
    (((∀ t ∈ ts, t = "materialized_prediction") ∧ s = .materializedPredictions) ∨
     ((∃ t ∈ ts, t ≠ "materialized_prediction") ∧ custom = true ∧ s = .custom) ∨
     ((∃ t ∈ ts, t ≠ "materialized_prediction") ∧ custom = false ∧
       (((∀ t ∈ ts, t = "tf_lite") ∧ s = .tflitePredictions) ∨ ((∀ t ∈ ts, t = "tf_js") ∧ s = .tfjsPredictions) ∨
        ((∀ t ∈ ts, t ≠ "tf_lite" ∧ t ≠ "tf_js") ∧ s = .predictions))))

private theorem only_iff (ts : List String) (t : String) (h : ts ≠ []) : onlyType ts t = true ↔ ∀ u ∈ ts, u = t := by
  unfold onlyType
  simp only [Bool.and_eq_true, List.all_eq_true, beq_iff_eq, List.contains_iff_mem]
  constructor
  · exact fun h => h.1
  · intro hu
    refine ⟨hu, ?_⟩
    obtain ⟨u, hm⟩ := List.exists_mem_of_ne_nil _ h
    rw [← hu u hm]
    exact hm

/-- All the lists there are. -/
private theorem cases_ok {types : Option (List String)} {custom sql sliceSpec config : Bool} {l : List Stage}
    (h : defaultExtractors types custom sql sliceSpec config = .ok l) (hne : types ≠ some []) :
    ∃ (tr : Bool) (p : Stage), Predictor types custom p ∧
      l = [.features] ++ (if tr then [.transformedFeatures] else []) ++ [.labels, .exampleWeights, p] ++ slicingStages sql := by
  unfold defaultExtractors at h
  split at h
  · simp at h
  cases types with
  | none =>
    refine ⟨false, .materializedPredictions, .inl ⟨rfl, rfl⟩, ?_⟩
    simpa using h.symm
  | some ts =>
    have hts : ts ≠ [] := fun e => hne (by rw [e])
    simp only at h
    split at h
    · simp at h
    split at h
    · next hm =>
      rw [only_iff _ _ hts] at hm
      refine ⟨false, .materializedPredictions, .inr ⟨ts, rfl, .inl ⟨hm, rfl⟩⟩, ?_⟩
      simpa using h.symm
    · next hm =>
      rw [only_iff _ _ hts] at hm
      push Not at hm
      split at h
      · next hl =>
        rw [only_iff _ _ hts] at hl
        refine ⟨true, if custom then .custom else .tflitePredictions, .inr ⟨ts, rfl, .inr ?_⟩, by simpa using h.symm⟩
        cases custom
        · exact .inr ⟨hm, rfl, .inl ⟨hl, rfl⟩⟩
        · exact .inl ⟨hm, rfl, rfl⟩
      split at h
      · simp at h
      · next hc =>
        split at h
        · next hj =>
          rw [only_iff _ _ hts] at hj
          refine ⟨false, if custom then .custom else .tfjsPredictions, .inr ⟨ts, rfl, .inr ?_⟩, by simpa using h.symm⟩
          cases custom
          · exact .inr ⟨hm, rfl, .inr (.inl ⟨hj, rfl⟩)⟩
          · exact .inl ⟨hm, rfl, rfl⟩
        split at h
        · simp at h
        · next hd =>
          refine ⟨! custom, if custom then .custom else .predictions, .inr ⟨ts, rfl, .inr ?_⟩, ?_⟩
          · cases custom
            · refine .inr ⟨hm, rfl, .inr (.inr ⟨fun t ht => ⟨?_, ?_⟩, rfl⟩)⟩
              · rintro rfl; exact hc (by simpa using ht)
              · rintro rfl; exact hd (by simpa using ht)
            · exact .inl ⟨hm, rfl, rfl⟩
          · cases custom <;> simpa using h.symm

private theorem predicts_of {types : Option (List String)} {custom : Bool} {p : Stage} (h : Predictor types custom p) : Predicts p := by
  rcases h with ⟨-, rfl⟩ | ⟨ts, -, ⟨-, rfl⟩ | ⟨-, -, rfl⟩ | ⟨-, -, ⟨-, rfl⟩ | ⟨-, rfl⟩ | ⟨-, rfl⟩⟩⟩ <;> trivial

/-- C118: whatever the models, the default extractors are in an order in which each finds what it needs, none occurs twice, they include labels and
weights, end with the slice keys, and include the stage for SQL slices exactly if a spec has a query.  Exactly one of them adds predictions, the
one for the type of the models. -/
theorem C118_extractors (types : Option (List String)) (custom sql sliceSpec config : Bool) (l : List Stage)
    (h : defaultExtractors types custom sql sliceSpec config = .ok l) (hne : types ≠ some []) :
    (∀ before s after, l = before ++ s :: after → Ready before l s) ∧ l.Nodup ∧ .labels ∈ l ∧ .exampleWeights ∈ l ∧
    l.getLast? = some .sliceKeys ∧ (.sqlSliceKeys ∈ l ↔ sql = true) ∧
    ∃ p ∈ l, Predictor types custom p ∧ ∀ q ∈ l, Predicts q → q = p := by
  obtain ⟨tr, p, hp, rfl⟩ := cases_ok h hne
  have hpp := predicts_of hp
  clear h
  have key : ∀ (l : List Stage), (∀ i, (hi : i < l.length) → Ready (l.take i) l l[i]) → ∀ before s after, l = before ++ s :: after → Ready before l s := by
    rintro l hall before s after rfl
    have := hall before.length (by simp)
    simpa using this
  refine ⟨key _ ?_, ?_, ?_, ?_, ?_, ?_, p, ?_, hp, ?_⟩ <;> clear key hp
  · intro i hi
    cases tr <;> cases sql <;> cases p <;> simp only [Predicts] at hpp <;>
      simp only [slicingStages, if_true, if_false, Bool.false_eq_true, List.nil_append, List.cons_append, List.length_cons, List.length_nil,
        List.append_nil] at hi ⊢ <;>
      (have : i = 0 ∨ i = 1 ∨ i = 2 ∨ i = 3 ∨ i = 4 ∨ i = 5 ∨ i = 6 ∨ i = 7 := by omega
       rcases this with rfl | rfl | rfl | rfl | rfl | rfl | rfl | rfl <;> first | (simp [Ready]; done) | omega)
  · cases tr <;> cases sql <;> cases p <;> simp only [Predicts] at hpp <;> decide
  · simp
  · simp
  · cases tr <;> cases sql <;> simp [slicingStages]
  · cases tr <;> cases sql <;> cases p <;> simp only [Predicts] at hpp <;> decide
  · simp
  · intro q hq hqp
    cases q <;> simp only [Predicts] at hqp <;> cases tr <;> cases sql <;> simpa [slicingStages] using hq

/-- C118: default extractors are refused exactly in these cases. -/
theorem C118_refused (types : Option (List String)) (custom sql sliceSpec config : Bool) (hne : types ≠ some []) :
    (defaultExtractors types custom sql sliceSpec config = .error .valueError ↔ sliceSpec = true ∧ config = true) ∧
    (defaultExtractors types custom sql sliceSpec config = .error .notImplementedError ↔
      ¬ (sliceSpec = true ∧ config = true) ∧ ∃ ts, types = some ts ∧
        ((custom = false ∧ ∃ t ∈ ts, t ∉ ["tfma_eval", "tf_generic", "tf_estimator", "tf_keras", "tf_lite", "tf_js", "materialized_prediction"]) ∨
         ("tf_lite" ∈ ts ∧ ∃ t ∈ ts, t ≠ "tf_lite") ∨ ("tf_js" ∈ ts ∧ ∃ t ∈ ts, t ≠ "tf_js"))) := by
  unfold defaultExtractors
  by_cases h0 : (sliceSpec && config) = true
  · simp only [h0, if_true]
    rw [Bool.and_eq_true] at h0
    simp [h0]
  · rw [if_neg h0]
    rw [Bool.and_eq_true] at h0
    simp only [h0, not_false_eq_true, true_and, iff_false]
    cases types with
    | none => simp
    | some ts =>
      have hts : ts ≠ [] := fun e => hne (by rw [e])
      have hv : (ts.all fun t => validTypes.contains t) = true ↔ ∀ t ∈ ts, t ∈
          ["tfma_eval", "tf_generic", "tf_estimator", "tf_keras", "tf_lite", "tf_js", "materialized_prediction"] := by
        simp [validTypes]
      simp only [Option.some.injEq, exists_eq_left']
      by_cases h1 : ¬ (ts.all fun t => validTypes.contains t) = true ∧ ¬ custom = true
      · rw [if_pos h1]
        rw [hv] at h1
        push Not at h1
        exact ⟨by simp, fun _ => .inl ⟨by simpa using h1.2, h1.1⟩, fun _ => rfl⟩
      · rw [if_neg h1]
        rw [hv] at h1
        have h1' : ¬ (custom = false ∧ ∃ t ∈ ts, t ∉ ["tfma_eval", "tf_generic", "tf_estimator", "tf_keras", "tf_lite", "tf_js", "materialized_prediction"]) := by
          rintro ⟨hc, t, ht, hn⟩
          exact h1 ⟨fun hh => hn (hh t ht), by simp [hc]⟩
        simp only [h1', false_or]
        by_cases h2 : ∀ t ∈ ts, t = "materialized_prediction"
        · rw [if_pos ((only_iff _ _ hts).2 h2)]
          simp only [reduceCtorEq, not_false_eq_true, true_and, false_iff]
          rintro (⟨h, -⟩ | ⟨h, -⟩) <;> simpa using h2 _ h
        rw [if_neg (fun h => h2 ((only_iff _ _ hts).1 h))]
        by_cases h3 : ∀ t ∈ ts, t = "tf_lite"
        · rw [if_pos ((only_iff _ _ hts).2 h3)]
          simp only [reduceCtorEq, not_false_eq_true, true_and, false_iff]
          rintro (⟨-, t, ht, hn⟩ | ⟨h, -⟩)
          · exact hn (h3 t ht)
          · simpa using h3 _ h
        rw [if_neg (fun h => h3 ((only_iff _ _ hts).1 h))]
        push Not at h3
        by_cases h4 : "tf_lite" ∈ ts
        · rw [if_pos (by simpa using h4)]
          simp [h4, h3]
        rw [if_neg (by simpa using h4)]
        by_cases h5 : ∀ t ∈ ts, t = "tf_js"
        · rw [if_pos ((only_iff _ _ hts).2 h5)]
          simp only [reduceCtorEq, not_false_eq_true, true_and, false_iff]
          rintro (⟨h, -⟩ | ⟨-, t, ht, hn⟩)
          · exact h4 h
          · exact hn (h5 t ht)
        rw [if_neg (fun h => h5 ((only_iff _ _ hts).1 h))]
        push Not at h5
        by_cases h6 : "tf_js" ∈ ts
        · rw [if_pos (by simpa using h6)]
          simp [h6, h5]
        rw [if_neg (by simpa using h6)]
        simp [h4, h6]

/-- C118 fails: a custom extractor for predictions is ignored without models, and if the models only have materialized predictions. -/
theorem C118_custom_ignored_fails (types : Option (List String)) (sql : Bool) (l : List Stage) (hne : types ≠ some [])
    (ht : ∀ ts, types = some ts → ∀ t ∈ ts, t = "materialized_prediction")
    (h : defaultExtractors types true sql false true = .ok l) : .custom ∉ l ∧ defaultExtractors types false sql false true = .ok l := by
  obtain ⟨tr, p, hp, rfl⟩ := cases_ok h hne
  have hpm : p = .materializedPredictions := by
    rcases hp with ⟨-, rfl⟩ | ⟨ts, e, ⟨-, rfl⟩ | ⟨⟨t, hm, hn⟩, -⟩ | ⟨⟨t, hm, hn⟩, -⟩⟩
    · rfl
    · rfl
    · exact absurd (ht ts e t hm) hn
    · exact absurd (ht ts e t hm) hn
  subst hpm
  refine ⟨by cases tr <;> cases sql <;> decide, ?_⟩
  rw [← h]
  cases types with
  | none => rfl
  | some ts =>
    have hts : ts ≠ [] := fun e => hne (by rw [e])
    have ho := (only_iff ts "materialized_prediction" hts).2 (ht ts rfl)
    have hv : (ts.all fun t => validTypes.contains t) = true := by
      rw [List.all_eq_true]
      intro t hm
      rw [ht ts rfl t hm]
      decide
    unfold defaultExtractors
    simp only [hv, ho]
    rfl

/-! ## C118: default evaluators -/

private theorem stageName_inj (s t : Stage) (hs : s ≠ .custom) (ht : t ≠ .custom) (h : stageName "" s = stageName "" t) : s = t := by
  cases s <;> cases t <;> first | rfl | exact absurd rfl hs | exact absurd rfl ht | exact absurd h (by decide)

/-- C118: the default extractors and evaluators fit together: if the models are not refused the pipeline can be built, and unless all outputs are
disabled the metrics are evaluated once, on the extracts after all stages, and handed to the writers. -/
theorem C118_fits (s : Setup X P) (x : X) (l : List Stage) (hx : s.extractors = []) (hv : s.evaluators = []) (hne : s.types ≠ some [])
    (h : defaultExtractors s.types false s.sql false true = .ok l)
    (hd : ¬ ("metrics" ∈ s.disabled ∧ "plots" ∈ s.disabled ∧ "attributions" ∈ s.disabled))
    (hw : ∀ y, Dict.WF (s.metrics y)) (hm : ∀ y, s.metrics y ≠ []) :
    ∃ r, extractEvaluateAndWrite s x = .ok r ∧
      ∀ k, Dict.get? r k = Dict.get? (s.metrics (l.foldl (fun y t => s.stage t y) x)) k := by
  obtain ⟨-, hnd, -, -, hlast, -, p, hpm, hp, hpu⟩ := C118_extractors s.types false s.sql false true l h hne
  let xs : List (Extractor X) := l.map fun t => ⟨stageName "" t, s.stage t⟩
  have hxs : usedExtractors s = .ok xs := by simp [usedExtractors, hx, h, Except.map, xs]
  have hvs : usedEvaluators s = [metricsEvaluator s.metrics] := by
    have : defaultEvaluator s.disabled = true := by
      unfold defaultEvaluator
      simp only [Bool.not_eq_true', Bool.and_eq_false_iff, List.contains_eq_mem, decide_eq_false_iff_not]
      tauto
    simp [usedEvaluators, hv, this]
  have hnc : .custom ∉ l := by
    intro hc
    have := hpu .custom hc trivial
    subst this
    rcases hp with ⟨-, e⟩ | ⟨ts, -, ⟨-, e⟩ | ⟨-, e, -⟩ | ⟨-, -, ⟨-, e⟩ | ⟨-, e⟩ | ⟨-, e⟩⟩⟩ <;> cases e
  obtain ⟨l', rfl⟩ : ∃ l', l = l' ++ [.sliceKeys] := by
    obtain ⟨l', e⟩ := List.getLast?_eq_some_iff.1 hlast
    exact ⟨l', e⟩
  have hnames : xs.map Extractor.stageName = (l' ++ [Stage.sliceKeys]).map (stageName "") := by simp [xs]
  have hplaced : ∀ v ∈ [metricsEvaluator s.metrics], Placed xs v := by
    intro v hv
    rw [List.mem_singleton] at hv
    subst hv
    refine .inr (.inr (.inr ⟨⟨"ExtractSliceKeys", s.stage .sliceKeys⟩, ?_, rfl⟩))
    simp [xs, stageName]
  have hin : ∀ t ∈ l' ++ [.sliceKeys], stageName "" t ∈
      ["ExtractFeatures", "ExtractTransformedFeatures", "ExtractLabels", "ExtractExampleWeights", "ExtractPredictions",
        "ExtractMaterializedPredictions", "ExtractTFLitePredictions", "ExtractTFJSPredictions", "ExtractSqlSliceKeys",
        "ExtractUnbatchedInputs", "ExtractSliceKeys"] := by
    intro t ht
    cases t <;> first | exact absurd ht hnc | (simp [stageName]; done)
  have hnamed : Named xs := by
    intro e he
    have : e.stageName ∈ (l' ++ [Stage.sliceKeys]).map (stageName "") := by
      rw [← hnames]
      exact List.mem_map_of_mem he
    obtain ⟨t, ht, e'⟩ := List.mem_map.1 this
    have := hin t ht
    rw [e'] at this
    simp only [List.mem_cons, List.not_mem_nil, or_false] at this
    rcases this with h | h | h | h | h | h | h | h | h | h | h <;> rw [h] <;> decide
  have hnodup : (xs.map Extractor.stageName).Nodup := by
    rw [hnames]
    refine hnd.map_on ?_
    intro a ha b hb hab
    exact stageName_inj a b (fun e => hnc (e ▸ ha)) (fun e => hnc (e ▸ hb)) hab
  have hall : ∀ n ∈ names xs [metricsEvaluator s.metrics], n = "TrackInputBytes" ∨ n = "EvaluateMetricsAndPlots" ∨ n ∈
      ["ExtractFeatures", "ExtractTransformedFeatures", "ExtractLabels", "ExtractExampleWeights", "ExtractPredictions",
        "ExtractMaterializedPredictions", "ExtractTFLitePredictions", "ExtractTFJSPredictions", "ExtractSqlSliceKeys",
        "ExtractUnbatchedInputs", "ExtractSliceKeys"] := by
    intro n hn
    unfold names at hn
    rw [hnames] at hn
    simp only [List.cons_append, List.mem_cons, List.mem_append, List.map_cons, List.map_nil, List.not_mem_nil, or_false] at hn
    rcases hn with hn | hn | hn
    · exact .inl hn
    · obtain ⟨t, ht, rfl⟩ := List.mem_map.1 hn
      exact .inr (.inr (hin t ht))
    · exact .inr (.inl hn)
  have hfree : ∀ n ∈ xs.map Extractor.stageName, n ≠ "TrackInputBytes" ∧ n ≠ "EvaluateMetricsAndPlots" := by
    rw [hnames]
    intro n hn
    obtain ⟨t, ht, rfl⟩ := List.mem_map.1 hn
    have := hin t ht
    generalize stageName "" t = n at this
    simp only [List.mem_cons, List.not_mem_nil, or_false] at this
    rcases this with h | h | h | h | h | h | h | h | h | h | h <;> rw [h] <;> decide
  have hnn : (names xs [metricsEvaluator s.metrics]).Nodup := by
    unfold names
    rw [List.cons_append, List.nodup_cons, List.nodup_append]
    refine ⟨?_, hnodup, by simp, ?_⟩
    · rw [List.mem_append]
      rintro (hh | hh)
      · exact (hfree _ hh).1 rfl
      · simp [metricsEvaluator] at hh
    · intro a ha b hb
      simp only [List.map_cons, List.map_nil, List.mem_singleton] at hb
      rw [hb]
      exact (hfree a ha).2
  obtain ⟨r, hr⟩ := C117_total s.combine x xs [metricsEvaluator s.metrics] hnamed hplaced hnn (by
    intro n hn k
    have hhead : n.toList.take 2 = ['T', 'r'] ∨ n.toList.take 2 = ['E', 'v'] ∨ n.toList.take 2 = ['E', 'x'] := by
      rcases hall n hn with rfl | rfl | hh
      · decide
      · decide
      · simp only [List.mem_cons, List.not_mem_nil, or_false] at hh
        rcases hh with h | h | h | h | h | h | h | h | h | h | h <;> rw [h] <;> decide
    constructor
    · rintro rfl
      simp [String.toList_append] at hhead
    · rintro rfl
      simp [String.toList_append] at hhead)
  obtain ⟨ys, hys, hk⟩ := C117_once s.combine x xs _ hnamed hplaced (by
    intro v hv y
    rw [List.mem_singleton] at hv
    subst hv
    exact hw y) r hr
  cases hys with
  | cons hask htail =>
    rename_i y ys
    cases htail
    have hy : y = (l' ++ [Stage.sliceKeys]).foldl (fun y t => s.stage t y) x := by
      have hf : (l' ++ [Stage.sliceKeys]).foldl (fun y t => s.stage t y) x = xs.foldl (fun z e => e.apply z) x := by
        simp only [xs, List.foldl_map]
      rw [hf]
      rcases hask with ⟨h1 | h1, -⟩ | ⟨-, h1⟩ | ⟨before, e, after, h1, h2, h3⟩
      · simp [metricsEvaluator] at h1
      · simp [metricsEvaluator] at h1
      · exact h1
      · have : after = [] := by
          by_contra hne
          have hx2 : xs = l'.map (fun t => (⟨stageName "" t, s.stage t⟩ : Extractor X)) ++ [⟨"ExtractSliceKeys", s.stage .sliceKeys⟩] := by
            simp [xs, stageName]
          obtain ⟨after', z, rfl⟩ : ∃ a z, after = a ++ [z] := ⟨_, _, (List.dropLast_append_getLast hne).symm⟩
          rw [h1, ← List.cons_append, ← List.append_assoc] at hx2
          have hz := (List.append_inj' hx2 rfl).2
          rw [h1] at hnodup
          simp only [List.map_append, List.map_cons, List.nodup_append, List.nodup_cons] at hnodup
          refine hnodup.2.1.1 ?_
          rw [List.mem_append]
          right
          have he : e.stageName = "ExtractSliceKeys" := by simpa [metricsEvaluator] using h2.symm
          have hz' : z = ⟨"ExtractSliceKeys", s.stage .sliceKeys⟩ := by simpa using hz
          simp [he, hz']
        subst this
        rw [h1]
        exact h3
    refine ⟨r, ?_, fun k => ?_⟩
    · have hne : r ≠ [] := by
        intro e
        obtain ⟨⟨k, v⟩, hkv⟩ := List.exists_mem_of_ne_nil _ (hm y)
        have hg := Dict.get?_of_mem (hw y) hkv
        have := (hk k [v] (by simp [metricsEvaluator, hg])).2.1 v rfl
        rw [e] at this
        simp [Dict.get?] at this
      unfold extractEvaluateAndWrite
      simp only [hxs, hvs, (C117_verified xs [metricsEvaluator s.metrics]).1.2 hplaced, hr, writeResults, hne, if_false]
    · rw [← hy]
      have := hk k _ rfl
      cases hg : Dict.get? (s.metrics y) k with
      | none => exact this.1 (by simp [metricsEvaluator, hg])
      | some v => exact this.2.1 v (by simp [metricsEvaluator, hg])

/-- C118 fails: there is no way to disable the output of metrics, plots or attributions.  Unless all three are disabled nothing changes, and
if all three are disabled the run is an error: no results are written, nor the configuration. -/
theorem C118_disabled_fails (s : Setup X P) (x : X) (hv : s.evaluators = []) :
    (¬ ("metrics" ∈ s.disabled ∧ "plots" ∈ s.disabled ∧ "attributions" ∈ s.disabled) →
      extractEvaluateAndWrite s x = extractEvaluateAndWrite { s with disabled := [] } x) ∧
    ("metrics" ∈ s.disabled ∧ "plots" ∈ s.disabled ∧ "attributions" ∈ s.disabled → ∀ r, extractEvaluateAndWrite s x ≠ .ok r) := by
  constructor
  · intro hd
    have h1 : usedEvaluators s = usedEvaluators { s with disabled := [] } := by
      have : defaultEvaluator s.disabled = true := by
        unfold defaultEvaluator
        simp only [Bool.not_eq_true', Bool.and_eq_false_iff, List.contains_eq_mem, decide_eq_false_iff_not]
        tauto
      have h0 : defaultEvaluator [] = true := rfl
      simp [usedEvaluators, hv, this, h0]
    have h2 : usedExtractors s = usedExtractors { s with disabled := [] } := rfl
    unfold extractEvaluateAndWrite
    rw [h1, h2]
  · rintro ⟨h1, h2, h3⟩ r h
    have hu : usedEvaluators s = [] := by simp [usedEvaluators, hv, defaultEvaluator, h1, h2, h3]
    unfold extractEvaluateAndWrite at h
    rw [hu] at h
    split at h
    · simp at h
    · next xs _ =>
      simp only [verifyAll] at h
      split at h
      · simp at h
      · next ev hev =>
        have hall : extractAndEvaluate s.combine x xs ([] : List (Evaluator X P)) = .ok [] ∨
            ∃ e, extractAndEvaluate s.combine x xs ([] : List (Evaluator X P)) = .error e := by
          obtain ⟨a1, a2⟩ := extractAndEvaluate_spec s.combine x xs ([] : List (Evaluator X P))
          by_cases hl : (allLabels ([] : List (Evaluator X P)) x xs).Nodup
          · rw [a1 hl]
            have : allRuns ([] : List (Evaluator X P)) x xs = [] := by simp [allRuns, loopRuns, round]
            rw [this]
            exact .inl rfl
          · exact .inr ⟨_, a2 hl⟩
        rcases hall with e | ⟨e, he⟩
        · rw [hev] at e
          rw [Except.ok.inj e] at h
          simp [writeResults] at h
        · rw [hev] at he
          simp at he

/-- C118 fails: the name that the documentation of the option gives for the configuration file does not disable it. -/
theorem C118_config_name_fails : writesConfig ["eval_config.json"] = true ∧ ∀ disabled, "eval_config" ∈ disabled → writesConfig disabled = false :=
  ⟨by decide, fun d h => by simp [writesConfig, h]⟩

/-- What the parts of a run make of it, if it succeeds. -/
private theorem run_ok (s : Setup X P) (x : X) (r : Dict String P) (h : extractEvaluateAndWrite s x = .ok r) :
    ∃ xs, usedExtractors s = .ok xs ∧ (∀ v ∈ usedEvaluators s, Placed xs v) ∧ extractAndEvaluate s.combine x xs (usedEvaluators s) = .ok r := by
  unfold extractEvaluateAndWrite at h
  cases h1 : usedExtractors s with
  | error e => rw [h1] at h; cases h
  | ok xs =>
    rw [h1] at h
    cases h2 : verifyAll xs (usedEvaluators s) with
    | error e => simp only [h2] at h; cases h
    | ok u =>
      simp only [h2] at h
      cases h3 : extractAndEvaluate s.combine x xs (usedEvaluators s) with
      | error e => simp only [h3] at h; cases h
      | ok ev =>
        simp only [h3, writeResults] at h
        split at h
        · cases h
        · cases h
          exact ⟨xs, rfl, (C117_verified xs _).1.1 h2, h3⟩

/-- C118: extractors and evaluators that are given are used as they are, in place of the defaults: what is written is what the given evaluators
make of the extracts at their places among the given extractors. -/
theorem C118_given (s : Setup X P) (x : X) (hx : s.extractors ≠ []) (hv : s.evaluators ≠ []) (hn : Named s.extractors)
    (hw : ∀ v ∈ s.evaluators, ∀ y, Dict.WF (v.apply y)) (r : Dict String P) (h : extractEvaluateAndWrite s x = .ok r) :
    ∃ ys, List.Forall₂ (Asked x s.extractors) s.evaluators ys ∧
      ∀ k outs, outs = (s.evaluators.zip ys).filterMap (fun w => Dict.get? (w.1.apply w.2) k) →
      (outs = [] → Dict.get? r k = none) ∧ (∀ p, outs = [p] → Dict.get? r k = some p) ∧
      (2 ≤ outs.length → ∃ l, l.Perm outs ∧ Dict.get? r k = some (s.combine l)) := by
  obtain ⟨xs, h1, hp, h2⟩ := run_ok s x r h
  have hvs : usedEvaluators s = s.evaluators := if_pos hv
  have hxs : s.extractors = xs := by
    simp only [usedExtractors] at h1
    rw [if_pos hx] at h1
    exact Except.ok.inj h1
  subst hxs
  rw [hvs] at hp h2
  exact C117_once s.combine x s.extractors s.evaluators hn hp hw r h2

/-- C118: with given extractors and without evaluators the metrics are evaluated, on the extracts after the given extractor of slice keys; if
there is none the run is refused. -/
theorem C118_given_extractors (s : Setup X P) (x : X) (hx : s.extractors ≠ []) (hv : s.evaluators = []) (hn : Named s.extractors)
    (hd : ¬ ("metrics" ∈ s.disabled ∧ "plots" ∈ s.disabled ∧ "attributions" ∈ s.disabled))
    (hw : ∀ y, Dict.WF (s.metrics y)) :
    ((∀ e ∈ s.extractors, e.stageName ≠ "ExtractSliceKeys") → extractEvaluateAndWrite s x = .error .valueError) ∧
    ∀ r, extractEvaluateAndWrite s x = .ok r →
      ∃ before e after, s.extractors = before ++ e :: after ∧ e.stageName = "ExtractSliceKeys" ∧
        ∀ k, Dict.get? r k = Dict.get? (s.metrics ((before ++ [e]).foldl (fun z e => e.apply z) x)) k := by
  have hvs : usedEvaluators s = [metricsEvaluator s.metrics] := by
    have : defaultEvaluator s.disabled = true := by
      unfold defaultEvaluator
      simp only [Bool.not_eq_true', Bool.and_eq_false_iff, List.contains_eq_mem, decide_eq_false_iff_not]
      tauto
    simp [usedEvaluators, hv, this]
  have hxs : usedExtractors s = .ok s.extractors := if_pos hx
  constructor
  · intro hne
    have : verifyAll s.extractors [metricsEvaluator s.metrics] = .error .valueError := by
      refine (C117_verified _ _).2.2 ⟨_, List.mem_singleton.2 rfl, ?_⟩
      rintro (h | h | h | ⟨e, he, h⟩)
      · cases h
      · exact absurd h (by simp [metricsEvaluator])
      · exact absurd h (by simp [metricsEvaluator])
      · exact hne e he (Option.some.inj h).symm
    simp only [extractEvaluateAndWrite, hxs, hvs, this]
  · intro r h
    obtain ⟨xs, h1, hp, h2⟩ := run_ok s x r h
    rw [hxs] at h1
    cases h1
    rw [hvs] at hp h2
    obtain ⟨ys, hf, hall⟩ := C117_once s.combine x s.extractors _ hn hp (by
      intro v hv y
      rw [List.mem_singleton] at hv
      subst hv
      exact hw y) r h2
    obtain ⟨y, rfl⟩ : ∃ y, ys = [y] := by
      cases hf with
      | cons _ ht => cases ht; exact ⟨_, rfl⟩
    have ha : Asked x s.extractors (metricsEvaluator s.metrics) y := by
      cases hf with
      | cons ha _ => exact ha
    rcases ha with ⟨h | h, -⟩ | ⟨h, -⟩ | ⟨before, e, after, he, hs, rfl⟩
    · cases h
    · exact absurd h (by simp [metricsEvaluator])
    · exact absurd h (by simp [metricsEvaluator])
    · refine ⟨before, e, after, he, (Option.some.inj hs).symm, fun k => ?_⟩
      have := hall k _ rfl
      simp only [List.zip_cons_cons, List.zip_nil_left, List.filterMap_cons, List.filterMap_nil, metricsEvaluator] at this
      cases hg : Dict.get? (s.metrics ((before ++ [e]).foldl (fun z e => e.apply z) x)) k with
      | none => exact this.1 (by simp only [hg])
      | some p => exact this.2.1 p (by simp only [hg])

/-! ## C118: inputs -/

variable {V : Type}

/-- C118: with a configuration, record batches and extracts with features are read by the default extractors, whose features are those of the
batch. -/
theorem C118_inputs (types : Option (List String)) (read : Option V → V → V × V) :
    configVersion true types none = .ok (some 2) ∧ isLegacy (some 2) = false ∧
    (∀ v, ∃ d, extractFeatures read (toExtracts false (.recordBatch v)) = .ok d ∧ Dict.get? d "features" = some (read none v).1 ∧
      Dict.get? d "input" = some (read none v).2) ∧
    ∀ d : Dict String V, Dict.get? d "arrow_record_batch" = none → (∃ f, Dict.get? d "features" = some f) →
      extractFeatures read (toExtracts false (.extracts d)) = .ok d := by
  refine ⟨rfl, rfl, fun v => ⟨_, rfl, ?_, ?_⟩, fun d h1 ⟨f, h2⟩ => ?_⟩
  · rw [Dict.get?_set, Dict.get?_set]
    simp [toExtracts, Dict.del]
  · rw [Dict.get?_set]
    simp [toExtracts, Dict.del]
  · simp [extractFeatures, toExtracts, h1, Dict.has, h2]

/-- C118 fails: without a configuration, which is still supported for models with metrics of their own, every serialized example or record batch
is refused by the default extractors; and without models the run is an error before it starts. -/
theorem C118_no_config_fails (read : Option V → V → V × V) :
    configVersion false none none = .error .typeError ∧
    ∀ ts, configVersion false (some ts) none = .ok (some 1) ∧ isLegacy (some 1) = true ∧
      ∀ v, extractFeatures read (toExtracts true (.serialized v)) = .error .valueError ∧
        extractFeatures read (toExtracts true (.recordBatch v)) = .error .valueError :=
  ⟨rfl, fun _ => ⟨rfl, rfl, fun _ => ⟨by simp [extractFeatures, toExtracts, Dict.get?, Dict.has], by simp [extractFeatures, toExtracts, Dict.get?, Dict.has]⟩⟩⟩

/-! ## Examples -/

/-- Extractors that write their names into the extracts. -/
private def tagger (n : String) : Extractor (List String) := ⟨n, fun l => l ++ [n]⟩

/-- An evaluator that returns the extracts it gets. -/
private def reporter (n key : String) (after : Option String) : Evaluator (List String) (List String) := ⟨n, after, fun l => [(key, l)]⟩

example : extractAndEvaluate List.flatten ["in"] [tagger "a", tagger "b"]
    [reporter "last" "x" (some "<last-extractor>"), reporter "mid" "y" (some "a"), reporter "first" "x" none] =
    .ok [("x", ["in", "in", "a", "b"]), ("y", ["in", "a"])] := by decide +kernel

example : Named [tagger "a", tagger "b"] ∧ Placed [tagger "a", tagger "b"] (reporter "mid" "y" (some "a")) ∧
    (names [tagger "a", tagger "b"] [reporter "mid" "y" (some "a")]).Nodup := by
  refine ⟨?_, .inr (.inr (.inr ⟨tagger "a", by simp, rfl⟩)), by decide⟩
  intro e he
  simp only [List.mem_cons, List.not_mem_nil, or_false] at he
  rcases he with rfl | rfl <;> decide

example : ¬ Placed [tagger "a"] (reporter "mid" "y" (some "b")) := by
  simp [Placed, reporter, tagger]

example : defaultExtractors (some ["tf_keras", "tf_generic"]) false true false true =
    .ok [.features, .transformedFeatures, .labels, .exampleWeights, .predictions, .sqlSliceKeys, .unbatch, .sliceKeys] := by decide +kernel

example : defaultExtractors (some ["tf_lite", "tf_keras"]) false true false true = .error .notImplementedError := by decide +kernel

/-- A run with default stages that write their names. -/
private def demoSetup (disabled : List String) : Setup (List String) (List String) :=
  { types := some ["tf_js"], sql := false, disabled := disabled, extractors := [], evaluators := []
    stage := fun t l => l ++ [stageName "" t], metrics := fun l => [("metrics", l)], combine := List.flatten }

example : extractEvaluateAndWrite (demoSetup ["metrics"]) [] = .ok [("metrics", ["ExtractFeatures", "ExtractLabels", "ExtractExampleWeights",
    "ExtractTFJSPredictions", "ExtractUnbatchedInputs", "ExtractSliceKeys"])] := by decide +kernel

example : extractEvaluateAndWrite (demoSetup ["metrics", "plots", "attributions"]) [] = .error .valueError := by decide +kernel

/-- Given extractors and evaluators, and given extractors alone. -/
example : extractEvaluateAndWrite { demoSetup [] with
      extractors := [tagger "a", tagger "b"], evaluators := [reporter "r" "x" (some "a")] } ["in"] = .ok [("x", ["in", "a"])] ∧
    extractEvaluateAndWrite { demoSetup [] with extractors := [tagger "ExtractSliceKeys", tagger "b"] } ["in"] =
      .ok [("metrics", ["in", "ExtractSliceKeys"])] ∧
    extractEvaluateAndWrite { demoSetup [] with extractors := [tagger "a", tagger "b"] } ["in"] = .error .valueError := by
  refine ⟨?_, ?_, ?_⟩ <;> decide +kernel

end TFMA.Pipeline
