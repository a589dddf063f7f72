import Verif.Model.Bleu
import Verif.Py.DictLemmas
import Mathlib.Data.Multiset.Count
import Mathlib.Algebra.BigOperators.Group.Finset.Basic
import Mathlib.Algebra.BigOperators.Group.List.Basic
import Mathlib.Algebra.Order.BigOperators.Group.Finset
import Mathlib.Data.List.Infix
import Mathlib.Data.List.Dedup

/-!
# Counting n-grams
-/

namespace TFMA
namespace Bleu

variable {W : Type} [DecidableEq W]

theorem counter_aux (l : List (List W)) (d : Dict (List W) ℕ) (g : List W) :
    Dict.get? (l.foldl (fun d g => Dict.set d g ((Dict.get? d g).getD 0 + 1)) d) g =
      if g ∈ l then some ((Dict.get? d g).getD 0 + l.count g) else Dict.get? d g := by
  induction l generalizing d with
  | nil => simp
  | cons x l ih =>
    rw [List.foldl_cons, ih, Dict.get?_set]
    by_cases hx : x = g
    · subst hx
      by_cases hm : x ∈ l
      · simp [hm]; omega
      · simp [hm, List.count_eq_zero_of_not_mem hm]
    · have hx' : g ≠ x := fun h => hx h.symm
      simp [hx, hx']

theorem counter_get? (l : List (List W)) (g : List W) :
    Dict.get? (counter l) g = if g ∈ l then some (l.count g) else none := by
  rw [counter, counter_aux]
  simp [Dict.get?]

theorem counter_wf (l : List (List W)) : Dict.WF (counter l) := by
  have : ∀ (l : List (List W)) (d : Dict (List W) ℕ), d.WF →
      Dict.WF (l.foldl (fun d g => Dict.set d g ((Dict.get? d g).getD 0 + 1)) d) := by
    intro l
    induction l with
    | nil => intro d h; exact h
    | cons x l ih => intro d h; exact ih _ (Dict.WF_set h _ _)
  exact this l [] Dict.WF_nil

/-- A counter holds the distinct elements with their counts. -/
theorem counter_perm (l : List (List W)) : (counter l).Perm (l.dedup.map fun g => (g, l.count g)) := by
  have hwf := counter_wf l
  rw [List.perm_ext_iff_of_nodup]
  · rintro ⟨g, c⟩
    rw [Dict.mem_iff_get? hwf, counter_get?]
    simp only [List.mem_map, List.mem_dedup, Prod.mk.injEq]
    constructor
    · intro h
      split_ifs at h with hm
      · cases h; exact ⟨g, hm, rfl, rfl⟩
    · rintro ⟨g', hm, rfl, rfl⟩
      simp [hm]
  · exact List.Nodup.of_map _ hwf
  · refine List.Nodup.of_map Prod.fst ?_
    rw [List.map_map]
    have : (Prod.fst ∘ fun g => (g, l.count g)) = (id : List W → List W) := rfl
    rw [this, List.map_id]
    exact List.nodup_dedup l

/-- All the n-grams, position by position. -/
def positions (n : ℕ) (ws : List W) : List (List W) :=
  (List.range (ws.length + 1 - n)).map fun i => (ws.drop i).take n

theorem positions_length {n : ℕ} {ws g : List W} (h : g ∈ positions n ws) : g.length = n := by
  simp only [positions, List.mem_map, List.mem_range] at h
  obtain ⟨i, hi, rfl⟩ := h
  rw [List.length_take, List.length_drop]
  omega

theorem positions_cons (n : ℕ) (hn : 1 ≤ n) (w : W) (ws : List W) :
    positions n (w :: ws) = (if n ≤ ws.length + 1 then [(w :: ws).take n] else []) ++ positions n ws := by
  unfold positions
  rw [List.length_cons]
  split_ifs with h
  · have : ws.length + 1 + 1 - n = (ws.length + 1 - n) + 1 := by omega
    rw [this, List.range_succ_eq_map, List.map_cons, List.map_map]
    rfl
  · have h1 : ws.length + 1 + 1 - n = 0 := by omega
    have h2 : ws.length + 1 - n = 0 := by omega
    rw [h1, h2]; rfl

theorem all_ngrams (order : ℕ) (ws : List W) :
    (ngrams order ws).1 = counter ((List.range order).flatMap fun k => positions (k + 1) ws) := rfl

theorem count_flat (order : ℕ) (ws g : List W) :
    ((List.range order).flatMap fun k => positions (k + 1) ws).count g =
      if 1 ≤ g.length ∧ g.length ≤ order then (positions g.length ws).count g else 0 := by
  induction order with
  | zero => rw [if_neg (by omega)]; simp
  | succ k ih =>
    rw [List.range_succ, List.flatMap_append, List.count_append, ih]
    simp only [List.flatMap_cons, List.flatMap_nil, List.append_nil]
    by_cases hk : g.length = k + 1
    · rw [if_neg (by omega), if_pos (by omega), hk, Nat.zero_add]
    · rw [List.count_eq_zero_of_not_mem fun hm => hk (positions_length hm), Nat.add_zero]
      split_ifs <;> first | rfl | omega

theorem mem_flat (order : ℕ) (ws g : List W) :
    g ∈ ((List.range order).flatMap fun k => positions (k + 1) ws) ↔
      (1 ≤ g.length ∧ g.length ≤ order) ∧ g ∈ positions g.length ws := by
  rw [← List.count_pos_iff, count_flat]
  split_ifs with h
  · rw [List.count_pos_iff]; tauto
  · simp [h]

/-! ### The loop over the n-grams of the hypothesis -/

theorem countNgram_fold (refs : Dict (List W) ℕ) (d : Dict (List W) ℕ) (a : List ℕ × List ℕ) (k : ℕ) :
    (d.foldl (countNgram refs) a).1.length = a.1.length ∧ (d.foldl (countNgram refs) a).2.length = a.2.length ∧
    (k < a.1.length → (d.foldl (countNgram refs) a).1.getD k 0 = a.1.getD k 0 +
      (d.map fun p => if p.1.length - 1 = k then min p.2 ((Dict.get? refs p.1).getD 0) else 0).sum) ∧
    (k < a.2.length → (d.foldl (countNgram refs) a).2.getD k 0 = a.2.getD k 0 +
      (d.map fun p => if p.1.length - 1 = k then p.2 else 0).sum) := by
  induction d generalizing a with
  | nil => simp
  | cons p d ih =>
    rw [List.foldl_cons]
    obtain ⟨h1, h2, h3, h4⟩ := ih (countNgram refs a p)
    have l1 : (countNgram refs a p).1.length = a.1.length := by
      unfold countNgram; cases Dict.get? refs p.1 <;> simp
    have l2 : (countNgram refs a p).2.length = a.2.length := by simp [countNgram]
    refine ⟨h1.trans l1, h2.trans l2, fun hk => ?_, fun hk => ?_⟩
    · rw [h3 (by omega), List.map_cons, List.sum_cons, ← Nat.add_assoc]
      congr 1
      simp only [countNgram]
      cases hg : Dict.get? refs p.1 with
      | none => simp
      | some c =>
        simp only [Option.getD_some, List.getD_eq_getElem?_getD]
        rw [List.getElem?_modify, List.getElem?_eq_getElem hk]
        split_ifs <;> simp
    · rw [h4 (by omega), List.map_cons, List.sum_cons, ← Nat.add_assoc]
      congr 1
      simp only [countNgram, List.getD_eq_getElem?_getD]
      rw [List.getElem?_modify, List.getElem?_eq_getElem hk]
      split_ifs <;> simp

/-- A sum over the n-grams of one order in the counter of all of them. -/
theorem sum_counter (order : ℕ) (ws : List W) (k : ℕ) (hk : k < order) (F : List W → ℕ → ℕ) :
    ((ngrams order ws).1.map fun p => if p.1.length - 1 = k then F p.1 p.2 else 0).sum =
      ∑ g ∈ (positions (k + 1) ws).toFinset, F g ((positions (k + 1) ws).count g) := by
  rw [all_ngrams, ((counter_perm _).map _).sum_eq, List.map_map]
  rw [← List.sum_toFinset _ (List.nodup_dedup _)]
  have hsub : (positions (k + 1) ws).toFinset ⊆
      (((List.range order).flatMap fun k => positions (k + 1) ws).dedup).toFinset := by
    intro g hg
    rw [List.mem_toFinset] at hg
    have hl := positions_length hg
    rw [List.mem_toFinset, List.mem_dedup, mem_flat, hl]
    exact ⟨⟨by omega, by omega⟩, hg⟩
  rw [← Finset.sum_subset hsub]
  · refine Finset.sum_congr rfl fun g hg => ?_
    rw [List.mem_toFinset] at hg
    have hl := positions_length hg
    simp only [Function.comp]
    rw [if_pos (by omega), count_flat, if_pos (by omega), hl]
  · intro g hg hng
    rw [List.mem_toFinset, List.mem_dedup, mem_flat] at hg
    rw [List.mem_toFinset] at hng
    simp only [Function.comp]
    rw [if_neg]
    intro h
    have : g.length = k + 1 := by omega
    rw [this] at hg
    exact hng hg.2

/-! ### References -/

theorem mergeCounts_get? (new : Dict (List W) ℕ) (hwf : new.WF) (final : Dict (List W) ℕ) (g : List W) :
    (Dict.get? (mergeCounts final new) g).getD 0 = max ((Dict.get? final g).getD 0) ((Dict.get? new g).getD 0) := by
  induction new generalizing final with
  | nil => simp [mergeCounts, Dict.get?]
  | cons p new ih =>
    obtain ⟨k, c⟩ := p
    have hwf' : Dict.WF new := (List.nodup_cons.1 hwf).2
    have hk : k ∉ Dict.keys new := (List.nodup_cons.1 hwf).1
    show (Dict.get? (mergeCounts (Dict.set final k _) new) g).getD 0 = _
    rw [ih hwf', Dict.get?_set, Dict.get?_cons]
    by_cases h : k = g
    · subst h
      rw [(Dict.get?_eq_none_iff _ _).2 hk]
      simp
    · simp [h]

theorem ngrams_get? (order : ℕ) (ws g : List W) :
    (Dict.get? (ngrams order ws).1 g).getD 0 =
      if 1 ≤ g.length ∧ g.length ≤ order then (positions g.length ws).count g else 0 := by
  rw [all_ngrams, counter_get?, ← count_flat]
  split_ifs with h
  · rfl
  · rw [List.count_eq_zero_of_not_mem h]; rfl

theorem info_fold (order : ℕ) (rs : List (List W)) (info : RefInfo W) (g : List W) :
    (Dict.get? (rs.foldl (fun info ref =>
        (⟨mergeCounts info.ngrams (ngrams order ref).1, info.lens ++ [(ngrams order ref).2]⟩ : RefInfo W)) info).ngrams g).getD 0
      = (rs.map fun r => (Dict.get? (ngrams order r).1 g).getD 0).foldl max ((Dict.get? info.ngrams g).getD 0) ∧
    (rs.foldl (fun info ref =>
        (⟨mergeCounts info.ngrams (ngrams order ref).1, info.lens ++ [(ngrams order ref).2]⟩ : RefInfo W)) info).lens
      = info.lens ++ rs.map List.length := by
  induction rs generalizing info with
  | nil => simp
  | cons r rs ih =>
    simp only [List.foldl_cons, List.map_cons]
    obtain ⟨h1, h2⟩ := ih ⟨mergeCounts info.ngrams (ngrams order r).1, info.lens ++ [(ngrams order r).2]⟩
    refine ⟨?_, ?_⟩
    · rw [h1, mergeCounts_get? (ngrams order r).1 (counter_wf _)]
    · rw [h2]; simp [ngrams]

end Bleu
end TFMA
