import Verif.Model.EvaluationDicts
import Verif.Lemmas.CombineTotal

/-!
# C49: combining the outputs of evaluators
-/

namespace TFMA
namespace EvaluationDicts

open Beam

variable {K V : Type} [DecidableEq K]

/-- No key is in two of the dictionaries. -/
def DisjointKeys (xs : List (Dict K V)) : Prop := xs.Pairwise fun d e => ∀ k, k ∈ Dict.keys d → k ∉ Dict.keys e

/-- `d` is the union of the dictionaries. -/
def IsUnion (xs : List (Dict K V)) (d : Dict K V) : Prop :=
  Dict.WF d ∧ ∀ k v, Dict.get? d k = some v ↔ ∃ e ∈ xs, Dict.get? e k = some v

theorem get?_update (d e : Dict K V) (he : Dict.WF e) (k : K) :
    Dict.get? (Dict.update d e) k = (Dict.get? e k).or (Dict.get? d k) := by
  unfold Dict.update
  induction e generalizing d with
  | nil => rfl
  | cons p e ih =>
    obtain ⟨k1, v1⟩ := p
    have hne : k1 ∉ Dict.keys e := (List.nodup_cons.1 he).1
    rw [List.foldl_cons, ih _ (List.nodup_cons.1 he).2, Dict.get?_cons, Dict.get?_set]
    by_cases hk : k1 = k
    · subst hk
      simp [(Dict.get?_eq_none_iff e k1).2 hne]
    · simp [hk]

theorem WF_update {d : Dict K V} (hd : Dict.WF d) (e : Dict K V) : Dict.WF (Dict.update d e) := by
  unfold Dict.update
  induction e generalizing d with
  | nil => exact hd
  | cons p e ih => exact ih (Dict.WF_set hd _ _)

private theorem merge_ok_iff (d e : Dict K V) :
    (∃ r, merge d e = .ok r) ↔ ∀ k, k ∈ Dict.keys d → k ∉ Dict.keys e := by
  unfold merge
  by_cases h : (Dict.keys d).any (fun k => Dict.has e k) = true
  · rw [if_pos h]
    obtain ⟨k, hk, hk'⟩ := List.any_eq_true.1 h
    simp only [reduceCtorEq, exists_false, false_iff]
    exact fun hall => hall k hk ((Dict.has_iff e k).1 hk')
  · rw [if_neg h]
    simp only [Except.ok.injEq, exists_eq', true_iff]
    intro k hk hk'
    exact h (List.any_eq_true.2 ⟨k, hk, (Dict.has_iff e k).2 hk'⟩)

private theorem merge_union {xs ys : List (Dict K V)} {d e r : Dict K V} (hd : IsUnion xs d) (he : IsUnion ys e)
    (h : merge d e = .ok r) : IsUnion (xs ++ ys) r := by
  have hdis := (merge_ok_iff d e).1 ⟨r, h⟩
  unfold merge at h
  split_ifs at h
  cases h
  refine ⟨WF_update hd.1 e, fun k v => ?_⟩
  rw [get?_update d e he.1]
  have hx := hd.2 k v
  have hy := he.2 k v
  simp only [List.mem_append, or_and_right, exists_or]
  rw [← hx, ← hy]
  cases h1 : Dict.get? e k with
  | none => simp
  | some w =>
    have : Dict.get? d k = none := by
      rw [Dict.get?_eq_none_iff]
      intro hk
      exact hdis k hk ((Dict.mem_keys_iff e k).2 ⟨w, h1⟩)
    simp [this]

private theorem keys_of_union {xs : List (Dict K V)} {d : Dict K V} (h : IsUnion xs d) (k : K) :
    k ∈ Dict.keys d ↔ ∃ e ∈ xs, k ∈ Dict.keys e := by
  rw [Dict.mem_keys_iff]
  constructor
  · rintro ⟨v, hv⟩
    obtain ⟨e, he, hev⟩ := (h.2 k v).1 hv
    exact ⟨e, he, (Dict.mem_keys_iff e k).2 ⟨v, hev⟩⟩
  · rintro ⟨e, he, hk⟩
    obtain ⟨v, hv⟩ := (Dict.mem_keys_iff e k).1 hk
    exact ⟨v, (h.2 k v).2 ⟨e, he, hv⟩⟩

private theorem single_union {e : Dict K V} (he : Dict.WF e) : IsUnion [e] e :=
  ⟨he, fun k v => by simp⟩

private theorem disjoint_append (xs ys : List (Dict K V)) :
    DisjointKeys (xs ++ ys) ↔ DisjointKeys xs ∧ DisjointKeys ys ∧ ∀ d ∈ xs, ∀ e ∈ ys, ∀ k, k ∈ Dict.keys d → k ∉ Dict.keys e :=
  List.pairwise_append

/-- C49: dictionaries without common keys are combined to their union, by every execution. -/
theorem C49_union (outputs : List (Dict K V)) (hwf : ∀ d ∈ outputs, Dict.WF d) (hdis : DisjointKeys outputs)
    (s : Sched (Option (Dict K V))) (hs : s.inputs.Perm (outputs.map some)) :
    ∃ d, combiner.run s = .ok d ∧ IsUnion outputs d := by
  let P : List (Option (Dict K V)) → Dict K V → Prop := fun xs d =>
    ∃ ys : List (Dict K V), xs = ys.map some ∧ IsUnion ys d
  let Q : List (Option (Dict K V)) → Prop := fun xs => ∃ ys : List (Dict K V), xs = ys.map some ∧ DisjointKeys ys ∧ ∀ d ∈ ys, Dict.WF d
  have hinj : ∀ {l m : List (Dict K V)}, l.map some = m.map some → l = m := fun h =>
    List.map_injective_iff.2 (fun _ _ h => Option.some.inj h) h
  have step : ∀ (xs ys : List (Dict K V)) a b, IsUnion xs a → IsUnion ys b → DisjointKeys (xs ++ ys) →
      ∃ d, merge a b = .ok d ∧ IsUnion (xs ++ ys) d := by
    intro xs ys a b ha hb hd
    obtain ⟨r, hr⟩ := (merge_ok_iff a b).2 fun k hk hk' => by
      obtain ⟨d, hd1, hd2⟩ := (keys_of_union ha k).1 hk
      obtain ⟨e, he1, he2⟩ := (keys_of_union hb k).1 hk'
      exact ((disjoint_append xs ys).1 hd).2.2 d hd1 e he1 k hd2 he2
    exact ⟨r, hr, merge_union ha hb hr⟩
  have hQs : Q s.inputs := by
    obtain ⟨ys, hy1, hy2⟩ : ∃ ys : List (Dict K V), s.inputs = ys.map some ∧ ys.Perm outputs := by
      have hall : ∀ x ∈ s.inputs, ∃ d, x = some d := fun x hx => by
        obtain ⟨d, _, rfl⟩ := List.mem_map.1 (hs.subset hx)
        exact ⟨d, rfl⟩
      refine ⟨s.inputs.filterMap id, ?_, ?_⟩
      · generalize s.inputs = l at hall
        induction l with
        | nil => rfl
        | cons x l ih =>
          obtain ⟨d, rfl⟩ := hall x (by simp)
          simp only [List.filterMap_cons, id, List.map_cons]
          exact congrArg (some d :: ·) (ih fun x hx => hall x (by simp [hx]))
      · have := hs.filterMap id
        simpa [List.filterMap_map, Function.comp_def] using this
    refine ⟨ys, hy1, ?_, fun d hd => hwf d (hy2.subset hd)⟩
    refine hy2.symm.pairwise hdis ?_
    intro d e h k hk hk'
    exact h k hk' hk
  obtain ⟨d, h1, ys, h2, h3⟩ := run_total (c := combiner (K := K) (V := V)) (P := P) (Q := Q) (plus := merge)
    (fun xs ys ⟨zs, h1, h2, h3⟩ => by
      obtain ⟨l, m, rfl, rfl, rfl⟩ := List.map_eq_append_iff.1 h1.symm
      obtain ⟨h4, h5, _⟩ := (disjoint_append l m).1 h2
      exact ⟨⟨l, rfl, h4, fun d hd => h3 d (by simp [hd])⟩, ⟨m, rfl, h5, fun d hd => h3 d (by simp [hd])⟩⟩)
    ⟨[], rfl, Dict.WF_nil, by simp [combiner]⟩
    (fun xs a x ⟨ys, h1, h2⟩ ⟨zs, h3, h4, h5⟩ => by
      obtain ⟨l, m, rfl, h6, h7⟩ := List.map_eq_append_iff.1 h3.symm
      have : l = ys := hinj (h6.trans h1)
      subst this
      cases m with
      | nil => simp at h7
      | cons e m =>
        cases m with
        | cons _ _ => simp at h7
        | nil =>
          simp only [List.map_cons, List.map_nil, List.cons.injEq, and_true] at h7
          subst h7
          obtain ⟨d, hd1, hd2⟩ := step l [e] a e h2 (single_union (h5 e (by simp))) h4
          exact ⟨d, hd1, l ++ [e], by simp [h1], hd2⟩)
    (fun l => rfl)
    (fun xs ys a b ⟨l, h1, h2⟩ ⟨m, h3, h4⟩ ⟨zs, h5, h6, h7⟩ => by
      have : zs = l ++ m := hinj (by rw [← h5, List.map_append, h1, h3])
      subst this
      obtain ⟨d, hd1, hd2⟩ := step l m a b h2 h4 h6
      exact ⟨d, hd1, l ++ m, h5, hd2⟩)
    s hQs
  refine ⟨d, h1, h3.1, fun k v => ?_⟩
  rw [h3.2 k v]
  have hp : (ys.map some).Perm (outputs.map some) := h2 ▸ hs
  have : ∀ e, e ∈ ys ↔ e ∈ outputs := fun e => by
    have := hp.mem_iff (a := some e)
    simpa using this
  simp only [this]

/-- C49: if a key is in the outputs of two evaluators, or an output is not a dictionary, every execution raises. -/
theorem C49_conflict (outputs : List (Option (Dict K V))) (hwf : ∀ d, some d ∈ outputs → Dict.WF d)
    (s : Sched (Option (Dict K V))) (hs : s.inputs.Perm outputs)
    (hbad : none ∈ outputs ∨ ¬ DisjointKeys (outputs.filterMap id)) :
    ∃ e, combiner.run s = .error e ∧ (e = .valueError ∨ e = .typeError) := by
  cases hr : combiner.run s with
  | error e =>
    refine ⟨e, rfl, ?_⟩
    have hmerge : ∀ (a b : Dict K V) e, merge a b = .error e → e = .valueError ∨ e = .typeError := by
      intro a b e h
      unfold merge at h
      split_ifs at h
      cases h; exact .inl rfl
    refine run_error (c := combiner (K := K) (V := V)) (E := fun e => e = .valueError ∨ e = .typeError) (plus := merge) ?_
      (fun l => rfl) hmerge s e hr
    intro a x e h
    cases x with
    | none => cases h; exact .inr rfl
    | some x => exact hmerge a x e h
  | ok d =>
    exfalso
    have hwf' : ∀ d, some d ∈ s.inputs → Dict.WF d := fun d hd => hwf d (hs.subset hd)
    have key : (∀ d, some d ∈ s.inputs → Dict.WF d) → none ∉ s.inputs ∧ DisjointKeys (s.inputs.filterMap id) ∧
        IsUnion (s.inputs.filterMap id) d := by
      refine run_rel_pair (c := combiner (K := K) (V := V)) (P := fun xs d => (∀ d, some d ∈ xs → Dict.WF d) →
        none ∉ xs ∧ DisjointKeys (xs.filterMap id) ∧ IsUnion (xs.filterMap id) d) (plus := merge) ?_ ?_ (fun l => rfl) ?_ s d hr
      · intro _
        exact ⟨by simp, List.Pairwise.nil, Dict.WF_nil, by simp [combiner]⟩
      · intro xs a x b hP hb hw
        obtain ⟨h1, h2, h3⟩ := hP fun d hd => hw d (by simp [hd])
        cases x with
        | none => cases hb
        | some x =>
          have hx : Dict.WF x := hw x (by simp)
          have hb : merge a x = .ok b := hb
          refine ⟨by simp [h1], ?_, ?_⟩
          · rw [List.filterMap_append, disjoint_append]
            refine ⟨h2, by simp [DisjointKeys], ?_⟩
            intro d hd e he k hk
            have : e = x := by simpa using he
            subst this
            exact (merge_ok_iff a e).1 ⟨b, hb⟩ k ((keys_of_union h3 k).2 ⟨d, hd, hk⟩)
          · rw [List.filterMap_append]
            exact merge_union h3 (by simpa using single_union hx) hb
      · intro xs ys a b d hx hy hd hw
        obtain ⟨h1, h2, h3⟩ := hx fun d hd => hw d (by simp [hd])
        obtain ⟨h4, h5, h6⟩ := hy fun d hd => hw d (by simp [hd])
        refine ⟨by simp [h1, h4], ?_, ?_⟩
        · rw [List.filterMap_append, disjoint_append]
          refine ⟨h2, h5, ?_⟩
          intro d' hd' e he k hk hk'
          exact (merge_ok_iff a b).1 ⟨d, hd⟩ k ((keys_of_union h3 k).2 ⟨d', hd', hk⟩) ((keys_of_union h6 k).2 ⟨e, he, hk'⟩)
        · rw [List.filterMap_append]
          exact merge_union h3 h6 hd
    obtain ⟨h1, h2, _⟩ := key hwf'
    rcases hbad with hb | hb
    · exact h1 (hs.symm.subset hb)
    · apply hb
      refine (hs.filterMap id).pairwise h2 ?_
      intro d e h k hk hk'
      exact h k hk' hk

/-- C49: at the level of collections: if for each slice the outputs of the evaluators have no key in common, the combined
record of each slice is the union of its records. -/
theorem C49_collections {S : Type} [DecidableEq S] (outputs : List (List (S × Option (Dict K V)))) (hlen : outputs.length ≠ 1)
    (result : List (S × Option (Dict K V))) (h : Combined outputs result) (slice : S) (dicts : List (Dict K V))
    (hd : valuesOf slice outputs.flatten = dicts.map some) (hwf : ∀ d ∈ dicts, Dict.WF d) (hdis : DisjointKeys dicts) :
    ∀ r, (slice, r) ∈ result → ∃ d, r = some d ∧ IsUnion dicts d := by
  intro r hr
  have hcomb : ∃ r, CombinesPerKey combiner outputs.flatten r ∧ result = r.map fun p => (p.1, some p.2) := by
    cases outputs with
    | nil => exact h
    | cons o os =>
      cases os with
      | nil => simp at hlen
      | cons o' os => exact h
  obtain ⟨l, ⟨_, _, h3⟩, rfl⟩ := hcomb
  obtain ⟨⟨k, a⟩, hp, he⟩ := List.mem_map.1 hr
  simp only [Prod.mk.injEq] at he
  obtain ⟨rfl, rfl⟩ := he
  obtain ⟨s, hs, hrun⟩ := h3 k a hp
  rw [hd] at hs
  obtain ⟨d, h1, h2⟩ := C49_union dicts hwf hdis s hs
  rw [hrun] at h1
  cases h1
  exact ⟨a, rfl, h2⟩

/-- Two dictionaries without a common key, merged as accumulators; and two with one. -/
example : combiner.run (.merge (.cons (.bundle [some [("auc", 1)]]) (.one (.bundle [some [("mse", 2)]])))) =
      .ok [("auc", 1), ("mse", 2)] ∧
    combiner.run (.bundle [some [("auc", 1)], some [("mse", 2), ("auc", 3)]]) = .error .valueError ∧
    DisjointKeys [[("auc", 1)], [("mse", 2)]] := by
  refine ⟨by rfl, by rfl, ?_⟩
  simp [DisjointKeys, Dict.keys]

end EvaluationDicts
end TFMA
