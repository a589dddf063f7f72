import Verif.Props.Combiners
import Verif.Props.KeysGet

/-!
# C73: the weighted example count adds up the weights of its own model and output
-/

namespace TFMA
namespace Combiners

open Beam

/-! ### specification -/

/-- No entry of the dictionary is called `k` or `k/...`. -/
def Absent (f : Forest (List ℚ)) (k : String) : Prop :=
  ∀ k' ∈ f.keys, k' ≠ k ∧ ∀ rest, k' ≠ k ++ "/" ++ rest

/-- What an example with the weights `w` counts for model `m` and output `o`. -/
inductive Counts (m o : String) : Option (Tree (List ℚ)) → ℚ → Prop where
  /-- no weights: 1 -/
  | unweighted : Counts m o none 1
  /-- one array: the sum of its elements -/
  | array (a : List ℚ) : Counts m o (some (.leaf a)) a.sum
  /-- an array for the model -/
  | model {f a} : m ≠ "" → f.find? m = some (.leaf a) → Counts m o (some (.node f)) a.sum
  /-- an array for the output of the model -/
  | modelOutput {f g a} : m ≠ "" → o ≠ "" → f.find? m = some (.node g) → g.find? o = some (.leaf a) →
      Counts m o (some (.node f)) a.sum
  /-- weights for other outputs of the model only: 1 -/
  | otherOutputs {f g} : m ≠ "" → o ≠ "" → f.find? m = some (.node g) → g ≠ .nil → Absent g o →
      Counts m o (some (.node f)) 1
  /-- no model level: an array for the output -/
  | output {f a} : m = "" ∨ Absent f m → o ≠ "" → f.find? o = some (.leaf a) → Counts m o (some (.node f)) a.sum
  /-- no model level and weights for other outputs only: 1 -/
  | otherOutputsOnly {f} : m = "" ∨ Absent f m → o ≠ "" → Absent f o → Counts m o (some (.node f)) 1

/-! ### lookup -/

theorem lookup1_of_find {f : Forest (List ℚ)} {k : String} {t : Tree (List ℚ)} (h : f.find? k = some t)
    (hn : t ≠ .node .nil) : lookup1 f k = some t := by
  unfold lookup1
  rw [h]
  cases t with
  | leaf a => rfl
  | node g => cases g with
    | nil => exact absurd rfl hn
    | cons _ _ _ => rfl

theorem lookup1_absent {f : Forest (List ℚ)} {k : String} (h : Absent f k) : lookup1 f k = none := by
  unfold lookup1
  have h1 : f.find? k = none := by
    cases e : f.find? k with
    | none => rfl
    | some t => exact absurd rfl (h k ((Forest.mem_keys_iff f k).2 ⟨t, e⟩)).1
  have h2 : ∀ acc, lookup1.pm k acc f = acc := by
    clear h1
    intro acc
    induction f using Forest.rec (motive_1 := fun _ => True) generalizing acc with
    | leaf => trivial
    | node => trivial
    | nil => rfl
    | cons k' t rest _ ih =>
      unfold lookup1.pm
      have : Keys.stripPrefix? k k' = none := by
        cases e : Keys.stripPrefix? k k' with
        | none => rfl
        | some r =>
          exact absurd ((Keys.stripPrefix_iff k k' r).1 e) ((h k' (by simp [Forest.keys])).2 r)
      rw [this]
      exact ih (fun k'' hk => h k'' (by simp [Forest.keys, hk])) acc
  rw [h1]
  simp only [h2]

theorem exampleWeight_counts {m o : String} {w : Option (Tree (List ℚ))} {q : ℚ} (h : Counts m o w q) :
    ∃ a, exampleWeight true m o w = .ok a ∧ a.sum = q := by
  unfold exampleWeight
  cases h with
  | unweighted => exact ⟨[1], rfl, by simp⟩
  | array a => exact ⟨a, rfl, rfl⟩
  | model hm hf => exact ⟨_, by simp [hm, lookup1_of_find hf (by simp)], rfl⟩
  | modelOutput hm ho hf hg =>
    refine ⟨_, ?_, rfl⟩
    have h1 := lookup1_of_find hf (by rintro e; cases e; simp [Forest.find?] at hg)
    simp [hm, ho, h1, lookup1_of_find hg (by simp)]
  | otherOutputs hm ho hf hg ha =>
    refine ⟨[1], ?_, by simp⟩
    have h1 := lookup1_of_find hf (by rintro e; cases e; exact hg rfl)
    simp [hm, ho, h1, lookup1_absent ha]
  | output hm ho hf =>
    refine ⟨_, ?_, rfl⟩
    rcases hm with hm | hm
    · simp [hm, ho, lookup1_of_find hf (by simp)]
    · by_cases h0 : m = ""
      · simp [h0, ho, lookup1_of_find hf (by simp)]
      · simp [h0, ho, lookup1_absent hm, lookup1_of_find hf (by simp)]
  | otherOutputsOnly hm ho ha =>
    refine ⟨[1], ?_, by simp⟩
    rcases hm with hm | hm
    · simp [hm, ho, lookup1_absent ha]
    · by_cases h0 : m = ""
      · simp [h0, ho, lookup1_absent ha]
      · simp [h0, ho, lookup1_absent hm, lookup1_absent ha]

/-- **C73.**  For every execution over examples whose weights have an entry for the model and output (or no weights at
all), the weighted example count is the sum of what the examples count. -/
theorem C73_weighted_count (m o : String) (data : List (Option (Tree (List ℚ)))) (qs : List ℚ)
    (h : List.Forall₂ (Counts m o) data qs) (s : Sched _) (p : s.inputs.Perm data) :
    (exampleCountCombiner true m o).run s = .ok qs.sum := by
  have e := C15_example_count true m o data s p
  have hb : ∀ a : ℚ, (exampleCountCombiner true m o).addAll a data = .ok (a + qs.sum) := by
    clear e p
    induction h with
    | nil => intro a; simp [CombineFn.addAll]
    | @cons w q data qs hw _ ih =>
      intro a
      obtain ⟨l, h1, h2⟩ := exampleWeight_counts hw
      simp only [CombineFn.addAll]
      have : (exampleCountCombiner true m o).addInput a w = .ok (a + q) := by
        simp only [exampleCountCombiner, h1, ← h2]; rfl
      rw [this]
      refine (ih (a + q)).trans ?_
      rw [List.sum_cons, add_assoc]
  have hz := hb 0
  rw [zero_add] at hz
  have hrun : (exampleCountCombiner true m o).run (.bundle data) = .ok qs.sum := by
    simp only [CombineFn.run]; exact hz
  rw [hrun] at e
  cases hr : (exampleCountCombiner true m o).run s with
  | error x => rw [hr] at e; cases e
  | ok a => rw [hr] at e; cases e; rfl

/-- **C73** (ambiguous weights).  If the weights of the model are still a dictionary and the metric has no output name,
adding the example raises ValueError; nothing is counted silently. -/
theorem C73_ambiguous (m : String) (hm : m ≠ "") (f g : Forest (List ℚ)) (hf : f.find? m = some (.node g)) (hg : g ≠ .nil)
    (a : ℚ) : (exampleCountCombiner true m "").addInput a (some (.node f)) = .error .valueError := by
  have : exampleWeight true m "" (some (.node f)) = .error .valueError := by
    unfold exampleWeight
    have h1 := lookup1_of_find hf (by rintro e; cases e; exact hg rfl)
    simp [hm, h1]
  simp only [exampleCountCombiner, this]
  rfl

/-- a concrete case: per model and output, other outputs only, none. -/
example (s : Sched _) (p : s.inputs.Perm
      [some (.node (.cons "m" (.node (.cons "o" (.leaf [2, 3]) .nil)) .nil)),
       some (.node (.cons "m" (.node (.cons "other" (.leaf [7]) .nil)) .nil)), none]) :
    (exampleCountCombiner true "m" "o").run s = .ok ([5, 1, 1] : List ℚ).sum := by
  refine C73_weighted_count "m" "o" _ [5, 1, 1] (.cons ?_ (.cons ?_ (.cons .unweighted .nil))) s p
  · have := Counts.modelOutput (m := "m") (o := "o") (f := .cons "m" (.node (.cons "o" (.leaf [2, 3]) .nil)) .nil)
      (a := [2, 3]) (by decide) (by decide) rfl rfl
    rwa [show ([2, 3] : List ℚ).sum = 5 by decide +kernel] at this
  · refine Counts.otherOutputs (by decide) (by decide) rfl (by simp) ?_
    intro k hk
    simp only [Forest.keys, List.mem_cons, List.not_mem_nil, or_false] at hk
    subst hk
    refine ⟨by decide, ?_⟩
    intro rest e
    have := congrArg (fun s : String => s.toList[1]?) e
    simp at this

end Combiners
end TFMA
