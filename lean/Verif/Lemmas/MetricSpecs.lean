import Verif.Model.MetricSpecs
import Verif.Py.DictLemmas

/-!
# Lemmas about the loops of the metrics specs
-/

namespace TFMA
namespace MetricSpecs

open MetricKeys Evaluate

variable {α β B S T : Type}

theorem mapE_eq_ok {f : α → Except Err β} {l : List α} {r : List β} (h : mapE f l = .ok r) :
    List.Forall₂ (fun x y => f x = .ok y) l r := by
  induction l generalizing r with
  | nil => simp only [mapE, Except.ok.injEq] at h; subst h; exact .nil
  | cons x xs ih =>
    simp only [mapE] at h
    cases hx : f x with
    | error e => rw [hx] at h; cases h
    | ok y =>
      rw [hx] at h
      simp only at h
      cases hs : mapE f xs with
      | error e => rw [hs] at h; cases h
      | ok ys =>
        rw [hs] at h
        simp only [Except.ok.injEq] at h
        subst h
        exact .cons hx (ih hs)

theorem mapE_of {f : α → Except Err β} {g : α → β} {l : List α} (h : ∀ x ∈ l, f x = .ok (g x)) : mapE f l = .ok (l.map g) := by
  induction l with
  | nil => rfl
  | cons x xs ih =>
    simp only [mapE, h x (by simp), ih fun y hy => h y (by simp [hy]), List.map_cons]

theorem mapE_error {f : α → Except Err β} {l : List α} {e₀ : Err} (hf : ∀ x e, f x = .error e → e = e₀)
    (h : ∃ x ∈ l, ∃ e, f x = .error e) : mapE f l = .error e₀ := by
  induction l with
  | nil => obtain ⟨x, hx, -⟩ := h; cases hx
  | cons x xs ih =>
    simp only [mapE]
    cases hx : f x with
    | error e => rw [hf x e hx]
    | ok y =>
      obtain ⟨z, hz, e, he⟩ := h
      rcases List.mem_cons.1 hz with rfl | hz
      · rw [hx] at he; cases he
      · rw [ih ⟨z, hz, e, he⟩]

theorem flatMapE_ok {f : α → Except Err (List β)} {l : List α} {r : List β} (h : flatMapE f l = .ok r) :
    (∀ x ∈ l, ∃ ys, f x = .ok ys) ∧ ∀ y, y ∈ r ↔ ∃ x ∈ l, ∃ ys, f x = .ok ys ∧ y ∈ ys := by
  induction l generalizing r with
  | nil =>
    simp only [flatMapE, Except.ok.injEq] at h
    subst h
    simp
  | cons x xs ih =>
    simp only [flatMapE] at h
    cases hx : f x with
    | error e => rw [hx] at h; cases h
    | ok y =>
      rw [hx] at h
      simp only at h
      cases hs : flatMapE f xs with
      | error e => rw [hs] at h; cases h
      | ok ys =>
        rw [hs] at h
        simp only [Except.ok.injEq] at h
        subst h
        obtain ⟨h1, h2⟩ := ih hs
        constructor
        · intro z hz
          rcases List.mem_cons.1 hz with rfl | hz
          · exact ⟨y, hx⟩
          · exact h1 z hz
        · intro z
          simp only [List.mem_append, h2, List.mem_cons, exists_eq_or_imp, hx, Except.ok.injEq, exists_eq_left']

/-- The elements of the result of a loop, for known results of the steps. -/
theorem mem_flatMapE {f : α → Except Err (List β)} {l : List α} {r : List β} (h : flatMapE f l = .ok r) (y : β) :
    y ∈ r ↔ ∃ x ∈ l, ∃ ys, f x = .ok ys ∧ y ∈ ys := (flatMapE_ok h).2 y

theorem flatMapE_of {f : α → Except Err (List β)} {g : α → List β} {l : List α} (h : ∀ x ∈ l, f x = .ok (g x)) :
    flatMapE f l = .ok (l.flatMap g) := by
  induction l with
  | nil => rfl
  | cons x xs ih =>
    simp only [flatMapE, h x (by simp), ih fun y hy => h y (by simp [hy]), List.flatMap_cons]

theorem flatMapE_append {f : α → Except Err (List β)} {l₁ l₂ : List α} :
    flatMapE f (l₁ ++ l₂) = match flatMapE f l₁ with
      | .error e => .error e
      | .ok a => match flatMapE f l₂ with
        | .error e => .error e
        | .ok b => .ok (a ++ b) := by
  induction l₁ with
  | nil => simp only [List.nil_append, flatMapE]; cases flatMapE f l₂ <;> rfl
  | cons x xs ih =>
    simp only [List.cons_append, flatMapE, ih]
    cases f x with
    | error e => rfl
    | ok y =>
      cases flatMapE f xs with
      | error e => rfl
      | ok a =>
        simp only
        cases flatMapE f l₂ with
        | error e => rfl
        | ok b => simp

/-! ### Metrics by configuration -/

private def groupStep (d : Dict String (Metric B S T × List (Spec B S T))) (p : Spec B S T × Metric B S T) :
    Dict String (Metric B S T × List (Spec B S T)) :=
  match Dict.get? d p.2.config with
  | none => Dict.set d p.2.config (p.2, [p.1])
  | some (m', ss) => Dict.set d p.2.config (m', ss ++ [p.1])

private def allPairs (specs : List (Spec B S T)) : List (Spec B S T × Metric B S T) :=
  specs.flatMap fun s => s.metrics.map fun m => (s, m)

private theorem byConfig_eq (specs : List (Spec B S T)) : byConfig specs = (allPairs specs).foldl groupStep [] := by
  unfold byConfig allPairs
  rw [List.foldl_flatMap]
  congr 1
  funext d s
  rw [List.foldl_map]
  rfl

private structure GroupInv (P : List (Spec B S T × Metric B S T)) (d : Dict String (Metric B S T × List (Spec B S T))) : Prop where
  wf : d.WF
  missing : ∀ c, Dict.get? d c = none → ∀ p ∈ P, p.2.config ≠ c
  found : ∀ c m ss, Dict.get? d c = some (m, ss) → (∃ s, (s, m) ∈ P ∧ m.config = c) ∧
    ∀ s, s ∈ ss ↔ ∃ m', (s, m') ∈ P ∧ m'.config = c

private theorem groupInv_step {P : List (Spec B S T × Metric B S T)} {d : Dict String (Metric B S T × List (Spec B S T))}
    (h : GroupInv P d) (p : Spec B S T × Metric B S T) : GroupInv (P ++ [p]) (groupStep d p) := by
  obtain ⟨s0, m0⟩ := p
  unfold groupStep
  cases hg : Dict.get? d m0.config with
  | none =>
    simp only [hg]
    refine ⟨Dict.WF_set h.wf _ _, ?_, ?_⟩
    · intro c hc p hp
      rw [Dict.get?_set] at hc
      by_cases e : m0.config = c
      · rw [if_pos e] at hc; cases hc
      · rw [if_neg e] at hc
        rcases List.mem_append.1 hp with hp | hp
        · exact h.missing c hc p hp
        · rw [List.mem_singleton.1 hp]; exact e
    · intro c m ss hc
      rw [Dict.get?_set] at hc
      by_cases e : m0.config = c
      · rw [if_pos e] at hc
        cases hc
        refine ⟨⟨s0, by simp, e⟩, ?_⟩
        intro s
        subst e
        simp only [List.mem_singleton, List.mem_append, Prod.mk.injEq]
        constructor
        · rintro rfl
          exact ⟨m0, .inr ⟨rfl, rfl⟩, rfl⟩
        · rintro ⟨m', hm | ⟨rfl, -⟩, hc⟩
          · exact absurd hc (h.missing _ hg (s, m') hm)
          · rfl
      · rw [if_neg e] at hc
        obtain ⟨⟨s, h1, h2⟩, h3⟩ := h.found c m ss hc
        refine ⟨⟨s, by simp [h1], h2⟩, ?_⟩
        intro s'
        rw [h3]
        constructor
        · rintro ⟨m', h4, h5⟩; exact ⟨m', by simp [h4], h5⟩
        · rintro ⟨m', h4, h5⟩
          rcases List.mem_append.1 h4 with h4 | h4
          · exact ⟨m', h4, h5⟩
          · simp only [List.mem_singleton, Prod.mk.injEq] at h4
            exact absurd (by rw [← h4.2]; exact h5) e
  | some q =>
    obtain ⟨m1, ss1⟩ := q
    simp only [hg]
    refine ⟨Dict.WF_set h.wf _ _, ?_, ?_⟩
    · intro c hc p hp
      rw [Dict.get?_set] at hc
      by_cases e : m0.config = c
      · rw [if_pos e] at hc; cases hc
      · rw [if_neg e] at hc
        rcases List.mem_append.1 hp with hp | hp
        · exact h.missing c hc p hp
        · rw [List.mem_singleton.1 hp]; exact e
    · intro c m ss hc
      rw [Dict.get?_set] at hc
      by_cases e : m0.config = c
      · rw [if_pos e] at hc
        cases hc
        subst e
        obtain ⟨⟨s, h1, h2⟩, h3⟩ := h.found _ _ _ hg
        refine ⟨⟨s, by simp [h1], h2⟩, ?_⟩
        intro s'
        rw [List.mem_append, h3, List.mem_singleton]
        constructor
        · rintro (⟨m', h4, h5⟩ | rfl)
          · exact ⟨m', by simp [h4], h5⟩
          · exact ⟨m0, by simp, rfl⟩
        · rintro ⟨m', h4, h5⟩
          rcases List.mem_append.1 h4 with h4 | h4
          · exact .inl ⟨m', h4, h5⟩
          · simp only [List.mem_singleton, Prod.mk.injEq] at h4
            exact .inr h4.1
      · rw [if_neg e] at hc
        obtain ⟨⟨s, h1, h2⟩, h3⟩ := h.found c m ss hc
        refine ⟨⟨s, by simp [h1], h2⟩, ?_⟩
        intro s'
        rw [h3]
        constructor
        · rintro ⟨m', h4, h5⟩; exact ⟨m', by simp [h4], h5⟩
        · rintro ⟨m', h4, h5⟩
          rcases List.mem_append.1 h4 with h4 | h4
          · exact ⟨m', h4, h5⟩
          · simp only [List.mem_singleton, Prod.mk.injEq] at h4
            exact absurd (by rw [← h4.2]; exact h5) e

private theorem groupInv_fold (P Q : List (Spec B S T × Metric B S T)) {d : Dict String (Metric B S T × List (Spec B S T))}
    (h : GroupInv P d) : GroupInv (P ++ Q) (Q.foldl groupStep d) := by
  induction Q generalizing P d with
  | nil => simpa using h
  | cons p Q ih =>
    have := ih (P ++ [p]) (groupInv_step h p)
    simpa using this

private theorem groupInv (specs : List (Spec B S T)) : GroupInv (allPairs specs) (byConfig specs) := by
  rw [byConfig_eq]
  have := groupInv_fold [] (allPairs specs) (d := []) ⟨Dict.WF_nil, by simp, by simp⟩
  simpa using this

private theorem mem_allPairs (specs : List (Spec B S T)) (s : Spec B S T) (m : Metric B S T) :
    (s, m) ∈ allPairs specs ↔ s ∈ specs ∧ m ∈ s.metrics := by
  unfold allPairs
  simp only [List.mem_flatMap, List.mem_map, Prod.mk.injEq]
  constructor
  · rintro ⟨s', h1, m', h2, rfl, rfl⟩; exact ⟨h1, h2⟩
  · rintro ⟨h1, h2⟩; exact ⟨s, h1, m, h2, rfl, rfl⟩

/-- Every metric of every spec is processed, with a metric of the same configuration. -/
theorem byConfig_complete {specs : List (Spec B S T)} {s : Spec B S T} {m : Metric B S T} (hs : s ∈ specs) (hm : m ∈ s.metrics) :
    ∃ e ∈ byConfig specs, s ∈ e.2.2 ∧ e.2.1.config = m.config ∧ ∃ s' ∈ specs, e.2.1 ∈ s'.metrics := by
  have inv := groupInv specs
  cases hg : Dict.get? (byConfig specs) m.config with
  | none => exact absurd rfl (inv.missing _ hg (s, m) ((mem_allPairs _ _ _).2 ⟨hs, hm⟩))
  | some q =>
    obtain ⟨m', ss⟩ := q
    obtain ⟨⟨s', h1, h2⟩, h3⟩ := inv.found _ _ _ hg
    refine ⟨(m.config, m', ss), Dict.mem_of_get? hg, (h3 s).2 ⟨m, (mem_allPairs _ _ _).2 ⟨hs, hm⟩, rfl⟩, h2, s', ?_⟩
    exact (mem_allPairs _ _ _).1 h1

/-- Only metrics and specs that are given are processed. -/
theorem byConfig_sound {specs : List (Spec B S T)} {e : String × Metric B S T × List (Spec B S T)} (he : e ∈ byConfig specs) :
    (∃ s ∈ specs, e.2.1 ∈ s.metrics) ∧ ∀ s ∈ e.2.2, s ∈ specs ∧ ∃ m ∈ s.metrics, m.config = e.2.1.config := by
  have inv := groupInv specs
  obtain ⟨c, m, ss⟩ := e
  have hg := Dict.get?_of_mem inv.wf he
  obtain ⟨⟨s', h1, h2⟩, h3⟩ := inv.found _ _ _ hg
  refine ⟨⟨s', (mem_allPairs _ _ _).1 h1⟩, ?_⟩
  intro s hs
  obtain ⟨m', h4, h5⟩ := (h3 s).1 hs
  obtain ⟨h6, h7⟩ := (mem_allPairs _ _ _).1 h4
  exact ⟨h6, m', h7, by rw [h5]; exact h2.symm⟩

end MetricSpecs
end TFMA
