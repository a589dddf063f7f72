import Verif.Model.ModelOutputs
import Verif.Lemmas.SparseRagged
import Verif.Py.DictLemmas
import Mathlib.Data.List.Forall2
import Mathlib.Tactic.Linarith
import Mathlib.Tactic.Ring

/-!
# Lemmas about dense arrays

Positions of indices, items of equal length one after another, padding, scattered entries.
-/

namespace TFMA
namespace ModelOutputs

open Tensors TensorSpecs

variable {α : Type}

theorem within_iff (ds is : List ℕ) : within ds is = true ↔ List.Forall₂ (· < ·) is ds := by
  induction ds generalizing is with
  | nil => cases is <;> simp [within]
  | cons d ds ih => cases is <;> simp [within, ih]

theorem flat_lt (ds is : List ℕ) (h : List.Forall₂ (· < ·) is ds) : flat ds is < ds.prod := by
  induction h with
  | nil => simp [flat]
  | @cons i d is ds hd _ ih =>
    simp only [flat, List.prod_cons]
    calc i * ds.prod + flat ds is < i * ds.prod + ds.prod := by omega
      _ = (i + 1) * ds.prod := by ring
      _ ≤ d * ds.prod := Nat.mul_le_mul_right _ hd

theorem flat_inj (ds is js : List ℕ) (h : List.Forall₂ (· < ·) is ds) (h' : List.Forall₂ (· < ·) js ds)
    (he : flat ds is = flat ds js) : is = js := by
  induction h generalizing js with
  | nil => cases h'; rfl
  | @cons i d is ds hd hr ih =>
    cases h' with
    | @cons j _ js _ hd' hr' =>
      simp only [flat] at he
      have h1 := flat_lt _ _ hr
      have h2 := flat_lt _ _ hr'
      have e : i = j := by
        have a1 : (i * ds.prod + flat ds is) / ds.prod = i := by
          rw [Nat.mul_comm, Nat.mul_add_div (by omega), Nat.div_eq_of_lt h1]; rfl
        have a2 : (j * ds.prod + flat ds js) / ds.prod = j := by
          rw [Nat.mul_comm, Nat.mul_add_div (by omega), Nat.div_eq_of_lt h2]; rfl
        rw [he] at a1
        exact a1.symm.trans a2
      subst e
      rw [ih js hr' (by omega)]

theorem flatten_length (w : ℕ) (l : List (List α)) (h : ∀ x ∈ l, x.length = w) : l.flatten.length = l.length * w := by
  induction l with
  | nil => simp
  | cons x l ih =>
    have hx := h x (by simp)
    have hl := ih (fun y hy => h y (by simp [hy]))
    simp only [List.flatten_cons, List.length_append, hx, hl, List.length_cons]
    ring

theorem flatten_get (w : ℕ) (l : List (List α)) (h : ∀ x ∈ l, x.length = w) (p r : ℕ) (hr : r < w) :
    l.flatten[p * w + r]? = l[p]?.bind fun x => x[r]? := by
  induction l generalizing p with
  | nil => simp
  | cons x l ih =>
    have hx := h x (by simp)
    have hl := ih (fun y hy => h y (by simp [hy]))
    cases p with
    | zero => simp [List.getElem?_append_left, hx, hr]
    | succ p =>
      rw [List.flatten_cons, List.getElem?_append_right (by rw [hx]; nlinarith)]
      rw [show (p + 1) * w + r - x.length = p * w + r by rw [hx]; have : (p + 1) * w = p * w + w := by ring
                                                         omega]
      simpa using hl p

theorem padRow_length (zero : α) (h w : ℕ) (g : List (List α)) (hg : ∀ x ∈ g, x.length = w) (hh : g.length ≤ h) :
    (padRow zero h w g).length = h * w := by
  simp only [padRow, List.length_append, List.length_replicate, flatten_length w g hg]
  rw [← Nat.add_mul]
  congr 1
  omega

theorem padRow_get (zero : α) (h w : ℕ) (g : List (List α)) (hg : ∀ x ∈ g, x.length = w) (j r : ℕ) (hj : j < h) (hr : r < w) :
    (padRow zero h w g)[j * w + r]? = if j < g.length then g[j]?.bind (fun x => x[r]?) else some zero := by
  have hlen := flatten_length w g hg
  unfold padRow
  split_ifs with hjg
  · rw [List.getElem?_append_left, flatten_get w g hg j r hr]
    rw [hlen]
    calc j * w + r < (j + 1) * w := by nlinarith
      _ ≤ g.length * w := Nat.mul_le_mul_right _ hjg
  · rw [List.getElem?_append_right (by rw [hlen]; nlinarith), List.getElem?_replicate]
    rw [if_pos]
    rw [hlen]
    have h1 : (h - g.length) * w = h * w - g.length * w := Nat.sub_mul _ _ _
    have h2 : j * w + r < h * w := by
      calc j * w + r < (j + 1) * w := by nlinarith
        _ ≤ h * w := Nat.mul_le_mul_right _ hj
    have h3 : g.length * w ≤ j * w := Nat.mul_le_mul_right _ (by omega)
    omega

theorem le_longest {β : Type} (gs : List (List β)) (g : List β) (h : g ∈ gs) : g.length ≤ longest gs := by
  induction gs with
  | nil => simp at h
  | cons x gs ih =>
    simp only [longest, List.foldr_cons]
    rcases List.mem_cons.1 h with e | h
    · subst e; exact Nat.le_max_left _ _
    · exact le_trans (ih h) (Nat.le_max_right _ _)

theorem longest_mem {β : Type} (gs : List (List β)) (h : gs ≠ []) : ∃ g ∈ gs, g.length = longest gs := by
  induction gs with
  | nil => exact absurd rfl h
  | cons x gs ih =>
    simp only [longest, List.foldr_cons]
    by_cases hn : gs = []
    · subst hn; exact ⟨x, by simp, by simp⟩
    · obtain ⟨g, hg, hl⟩ := ih hn
      by_cases hx : longest gs ≤ x.length
      · exact ⟨x, by simp, (Nat.max_eq_left hx).symm⟩
      · exact ⟨g, by simp [hg], by rw [hl]; exact (Nat.max_eq_right (Nat.le_of_lt (Nat.lt_of_not_le hx))).symm⟩

theorem splits_mono (s : List ℕ) (h : (s.zip s.tail).all (fun p => decide (p.1 ≤ p.2)) = true) : s.Pairwise (· ≤ ·) := by
  induction s with
  | nil => simp
  | cons a s ih =>
    cases s with
    | nil => simp
    | cons b s =>
      simp only [List.tail_cons, List.zip_cons_cons, List.all_cons, Bool.and_eq_true, decide_eq_true_eq] at h
      have hs := ih (by simpa using h.2)
      refine List.pairwise_cons.2 ⟨?_, hs⟩
      intro x hx
      rcases List.mem_cons.1 hx with e | hx
      · subst e; exact h.1
      · exact le_trans h.1 ((List.pairwise_cons.1 hs).1 x hx)

/-- Row splits that are accepted are at most the number of items. -/
theorem splits_le (s : List ℕ) (m : ℕ) (h : splitsOk s m = true) (x : ℕ) (hx : x ∈ s) : x ≤ m := by
  simp only [splitsOk, Bool.and_eq_true, decide_eq_true_eq] at h
  obtain ⟨⟨_, hl⟩, hz⟩ := h
  have hp := splits_mono s hz
  obtain ⟨init, e⟩ := List.getLast?_eq_some_iff.1 hl
  subst e
  rcases List.mem_append.1 hx with hx | hx
  · exact (List.pairwise_append.1 hp).2.2 x hx m (by simp)
  · simp at hx; omega

theorem zip_tail_get (s : List ℕ) (p : ℕ) (hp : p + 1 < s.length) : (s.zip s.tail)[p]? = some (s.getD p 0, s.getD (p + 1) 0) := by
  rw [List.getElem?_zip_eq_some]
  simp only [List.getElem?_tail, List.getD_eq_getElem?_getD]
  rw [List.getElem?_eq_getElem (by omega), List.getElem?_eq_getElem hp]
  simp

theorem groups_length {β : Type} (s : List ℕ) (items : List β) : (groups s items).length = s.length - 1 := by
  simp [groups]

theorem groups_get {β : Type} (s : List ℕ) (items : List β) (p : ℕ) (hp : p < s.length - 1) :
    (groups s items)[p]? = some ((items.drop (s.getD p 0)).take (s.getD (p + 1) 0 - s.getD p 0)) := by
  simp [groups, zip_tail_get s p (by omega)]

theorem group_length {β : Type} (s : List ℕ) (items : List β) (h : splitsOk s items.length = true) (p : ℕ) (hp : p < s.length - 1) :
    ((items.drop (s.getD p 0)).take (s.getD (p + 1) 0 - s.getD p 0)).length = s.getD (p + 1) 0 - s.getD p 0 := by
  have : s.getD (p + 1) 0 ≤ items.length := by
    apply splits_le s _ h
    rw [List.getD_eq_getElem?_getD, List.getElem?_eq_getElem (by omega)]
    simp
  simp only [List.length_take, List.length_drop]
  omega

theorem scatter_length (shape : List ℕ) (es : List (List ℕ × α)) (data : List α) : (scatter shape es data).length = data.length := by
  induction es generalizing data with
  | nil => rfl
  | cons e es ih => simp [scatter, ih]

/-- A position none of the entries is written to keeps its value. -/
theorem scatter_other (shape : List ℕ) (es : List (List ℕ × α)) (data : List α) (n : ℕ) (h : ∀ e ∈ es, flat shape e.1 ≠ n) :
    (scatter shape es data)[n]? = data[n]? := by
  induction es generalizing data with
  | nil => rfl
  | cons e es ih =>
    simp only [scatter]
    rw [ih _ (fun x hx => h x (by simp [hx])), List.getElem?_set_ne (h e (by simp))]

/-- Each entry is at its position. -/
theorem scatter_entry (shape : List ℕ) (es : List (List ℕ × α)) (data : List α) (hd : data.length = shape.prod)
    (hb : ∀ e ∈ es, List.Forall₂ (· < ·) e.1 shape) (hn : (es.map Prod.fst).Nodup) (e : List ℕ × α) (he : e ∈ es) :
    (scatter shape es data)[flat shape e.1]? = some e.2 := by
  induction es generalizing data with
  | nil => simp at he
  | cons x es ih =>
    simp only [List.map_cons, List.nodup_cons] at hn
    simp only [scatter]
    rcases List.mem_cons.1 he with h | h
    · subst h
      rw [scatter_other]
      · rw [List.getElem?_set_self]
        rw [hd]
        exact flat_lt _ _ (hb e (by simp))
      · intro y hy hf
        have := flat_inj shape _ _ (hb y (by simp [hy])) (hb e (by simp)) hf
        exact hn.1 (List.mem_map.2 ⟨y, hy, this⟩)
    · exact ih _ (by simpa using hd) (fun y hy => hb y (by simp [hy])) hn.2 h

theorem lexLe_antisymm (a b : List ℕ) (h : lexLe a b = true) (h' : lexLe b a = true) : a = b := by
  induction a generalizing b with
  | nil => cases b <;> simp_all [lexLe]
  | cons x a ih =>
    cases b with
    | nil => simp [lexLe] at h
    | cons y b =>
      simp only [lexLe, Bool.or_eq_true, Bool.and_eq_true, decide_eq_true_eq] at h h'
      rcases h with h | ⟨e, h⟩
      · rcases h' with h' | ⟨e, _⟩ <;> omega
      · subst e
        rcases h' with h' | ⟨_, h'⟩
        · omega
        · rw [ih b h h']

theorem increasing_iff (l : List (List ℕ)) :
    increasing l = true ↔ l.Pairwise (List.Lex (· < ·)) := by
  have hiff : ∀ a b : List ℕ, (lexLe a b = true ∧ a ≠ b) ↔ List.Lex (· < ·) a b := by
    intro a b
    rw [lexLe_iff]
    constructor
    · rintro ⟨h | h, hn⟩
      · exact absurd h hn
      · exact h
    · intro h
      refine ⟨.inr h, ?_⟩
      rintro rfl
      exact (List.lex_irrefl (fun n => Nat.lt_irrefl n) a) h
  induction l with
  | nil => simp [increasing]
  | cons a l ih =>
    cases l with
    | nil => simp [increasing]
    | cons b l =>
      simp only [increasing, Bool.and_eq_true, decide_eq_true_eq]
      rw [hiff, List.pairwise_cons (a := a)]
      constructor
      · rintro ⟨h1, h2⟩
        replace h2 := ih.1 h2
        refine ⟨?_, h2⟩
        intro x hx
        rcases List.mem_cons.1 hx with e | hx
        · subst e; exact h1
        · have h3 := (List.pairwise_cons.1 h2).1 x hx
          have a1 := (hiff a b).2 h1
          have a2 := (hiff b x).2 h3
          refine (hiff a x).1 ⟨lexLe_trans _ _ _ a1.1 a2.1, ?_⟩
          rintro rfl
          exact a1.2 (lexLe_antisymm _ _ a1.1 a2.1)
      · rintro ⟨h1, h2⟩
        exact ⟨h1 b (by simp), ih.2 h2⟩

theorem find?_forestOf (l : Dict String (Tree (Arr α))) (k : String) : (forestOf l).find? k = Dict.get? l k := by
  induction l with
  | nil => rfl
  | cons p l ih =>
    obtain ⟨k', t⟩ := p
    simp [forestOf, Forest.find?, Dict.get?_cons, ih]

theorem get?_map {β γ : Type} (f : β → γ) (d : Dict String β) (k : String) :
    Dict.get? (d.map fun p => (p.1, f p.2)) k = (Dict.get? d k).map f := by
  induction d with
  | nil => rfl
  | cons p d ih =>
    obtain ⟨k', v⟩ := p
    simp only [List.map_cons, Dict.get?_cons, ih]
    split_ifs <;> rfl

end ModelOutputs
end TFMA
