import Verif.Model.ConfusionMatrices
import Verif.Props.Rebin
import Mathlib.Tactic.NormNum

/-!
# C20, C54: confusion matrices derived from a calibration histogram
-/

namespace TFMA
namespace Bcm

open Histogram (Bucket)

/-! ### Specification -/

/-- Total positive and negative weight of a histogram. -/
def totalPos (h : List Bucket) : ℚ := (h.map fun b => b.labels).sum
def totalNeg (h : List Bucket) : ℚ := (h.map fun b => b.examples - b.labels).sum

/-- A threshold above the range of predictions. -/
def AboveRange (t : Fl) : Prop := Fl.le (.fin (1 + 1 / 10000000)) t = true

/-- The full claim of C20 for one threshold list and histogram. -/
def Consistent (ts : List Fl) (h : List Bucket) : Prop :=
  ∃ c, histogramResult ts h = .ok c ∧
    c.tp.length = ts.length ∧ c.fp.length = ts.length ∧ c.tn.length = ts.length ∧ c.fn.length = ts.length ∧
    ∀ (i : ℕ) (tp fp tn fn : ℚ), c.tp[i]? = some tp → c.fp[i]? = some fp → c.tn[i]? = some tn → c.fn[i]? = some fn →
      tp + fn = totalPos h ∧ fp + tn = totalNeg h

/-! ### Helpers -/

private theorem suffix_length (f : Bucket → ℚ) (h : List Bucket) : (suffixSums f h).length = h.length := by
  induction h with
  | nil => rfl
  | cons b bs ih =>
    simp only [suffixSums]
    cases hs : suffixSums f bs with
    | nil => rw [hs] at ih; simp at ih; simp [← ih]
    | cons s ss => rw [hs] at ih; simp at ih; simp [ih]

private theorem suffix_get (f : Bucket → ℚ) (h : List Bucket) (i : ℕ) (hi : i < h.length) :
    (suffixSums f h)[i]? = some ((h.drop i).map f).sum := by
  induction h generalizing i with
  | nil => simp at hi
  | cons b bs ih =>
    simp only [suffixSums]
    cases hs : suffixSums f bs with
    | nil =>
      have := suffix_length f bs
      rw [hs] at this
      have hb : bs = [] := by simpa [eq_comm] using this
      subst hb
      have : i = 0 := by simpa using hi
      subst this; simp
    | cons s ss =>
      cases i with
      | zero =>
        have h0 := ih 0 (by
          have := suffix_length f bs
          rw [hs] at this; simp at this; omega)
        rw [hs] at h0
        simp at h0
        simp [h0, add_comm]
      | succ i =>
        rw [List.getElem?_cons_succ, ← hs, ih i (by simpa using hi)]; simp

private theorem prefix_length (f : Bucket → ℚ) (s : ℚ) (h : List Bucket) : (prefixSums f s h).length = h.length := by
  induction h generalizing s with
  | nil => rfl
  | cons b bs ih => simp [prefixSums, ih]

private theorem prefix_get (f : Bucket → ℚ) (s : ℚ) (h : List Bucket) (i : ℕ) (hi : i < h.length) :
    (prefixSums f s h)[i]? = some (s + ((h.take i).map f).sum) := by
  induction h generalizing i s with
  | nil => simp at hi
  | cons b bs ih =>
    cases i with
    | zero => simp [prefixSums]
    | succ i =>
      simp only [prefixSums, List.getElem?_cons_succ]
      rw [ih _ i (by simpa using hi)]
      simp [add_assoc]

/-- The columns before thresholds above the range are treated. -/
private def raw (ts : List Fl) (off : ℕ) (h : List Bucket) : Cols :=
  let cut := fun l : List ℚ => (l.drop off).take ts.length
  ⟨cut (suffixSums pos h), cut (suffixSums neg h), cut (prefixSums neg 0 h), cut (prefixSums pos 0 h)⟩

private theorem cut_get {α : Type} (l : List α) (off n i : ℕ) (hi : i < n) : ((l.drop off).take n)[i]? = l[off + i]? := by
  rw [List.getElem?_take_of_lt hi, List.getElem?_drop]

private theorem cut_length {α : Type} (l : List α) (off n : ℕ) (h : off + n ≤ l.length) :
    ((l.drop off).take n).length = n := by
  simp; omega

private theorem raw_get (ts : List Fl) (off : ℕ) (h : List Bucket) (hl : off + ts.length ≤ h.length) (i : ℕ)
    (hi : i < ts.length) :
    (raw ts off h).tp[i]? = some ((h.drop (off + i)).map pos).sum ∧
    (raw ts off h).fp[i]? = some ((h.drop (off + i)).map neg).sum ∧
    (raw ts off h).tn[i]? = some ((h.take (off + i)).map neg).sum ∧
    (raw ts off h).fn[i]? = some ((h.take (off + i)).map pos).sum := by
  have hlt : off + i < h.length := by omega
  refine ⟨?_, ?_, ?_, ?_⟩
  · exact (cut_get _ off ts.length i hi).trans (suffix_get pos h _ hlt)
  · exact (cut_get _ off ts.length i hi).trans (suffix_get neg h _ hlt)
  · exact (cut_get _ off ts.length i hi).trans ((prefix_get neg 0 h _ hlt).trans (by rw [zero_add]))
  · exact (cut_get _ off ts.length i hi).trans ((prefix_get pos 0 h _ hlt).trans (by rw [zero_add]))

private structure Lens (n : ℕ) (c : Cols) : Prop where
  tp : c.tp.length = n
  fp : c.fp.length = n
  tn : c.tn.length = n
  fn : c.fn.length = n

private theorem raw_lens (ts : List Fl) (off : ℕ) (h : List Bucket) (hl : off + ts.length ≤ h.length) :
    Lens ts.length (raw ts off h) :=
  ⟨cut_length _ _ _ (by rw [suffix_length]; exact hl), cut_length _ _ _ (by rw [suffix_length]; exact hl),
    cut_length _ _ _ (by rw [prefix_length]; exact hl), cut_length _ _ _ (by rw [prefix_length]; exact hl)⟩

/-- All cells add up to the two totals. -/
private def Sums (P N : ℚ) (c : Cols) : Prop :=
  ∀ (i : ℕ) (tp fp tn fn : ℚ), c.tp[i]? = some tp → c.fp[i]? = some fp → c.tn[i]? = some tn → c.fn[i]? = some fn →
      tp + fn = P ∧ fp + tn = N

private theorem raw_sums (ts : List Fl) (off : ℕ) (h : List Bucket) (hl : off + ts.length ≤ h.length) :
    Sums (totalPos h) (totalNeg h) (raw ts off h) := by
  intro i tp fp tn fn h1 h2 h3 h4
  have hi : i < ts.length := by
    have := (List.getElem?_eq_some_iff.1 h1).1
    rw [(raw_lens ts off h hl).tp] at this; exact this
  obtain ⟨e1, e2, e3, e4⟩ := raw_get ts off h hl i hi
  rw [h1] at e1; rw [h2] at e2; rw [h3] at e3; rw [h4] at e4
  cases e1; cases e2; cases e3; cases e4
  have key : ∀ f : Bucket → ℚ, ((h.drop (off + i)).map f).sum + ((h.take (off + i)).map f).sum = (h.map f).sum := by
    intro f
    conv_rhs => rw [← List.take_append_drop (off + i) h, List.map_append, List.sum_append]
    rw [add_comm]
  exact ⟨key pos, key neg⟩

private theorem fix_none (i : ℕ) (ts : List Fl) (c : Cols) (h : ∀ t ∈ ts, ¬ AboveRange t) : fixAbove i ts c = .ok c := by
  induction ts generalizing i with
  | nil => rfl
  | cons t ts ih =>
    have : ¬ Fl.le (.fin (1 + eps)) t = true := h t (by simp)
    simp only [fixAbove, if_neg this]
    exact ih _ fun t' ht' => h t' (by simp [ht'])

/-- `R` holds of the four cells at every index. -/
private def Cellwise (R : ℕ → ℚ → ℚ → ℚ → ℚ → Prop) (c : Cols) : Prop :=
  ∀ (i : ℕ) (tp fp tn fn : ℚ), c.tp[i]? = some tp → c.fp[i]? = some fp → c.tn[i]? = some tn → c.fn[i]? = some fn →
      R i tp fp tn fn

private theorem fix_rel (R : ℕ → ℚ → ℚ → ℚ → ℚ → Prop) (P N : ℚ) (n i : ℕ) (ts : List Fl) (c : Cols) (hi : 1 ≤ i)
    (hn : i + ts.length = n) (hl : Lens n c) (hp : c.tp[0]? = some P) (hq : c.fp[0]? = some N)
    (hA : ∀ (k : ℕ) (t : Fl), ts[k]? = some t → AboveRange t → R (i + k) 0 0 N P)
    (hB : Cellwise (fun k tp fp tn fn => (k < i ∨ ∃ t, ts[k - i]? = some t ∧ ¬ AboveRange t) → R k tp fp tn fn) c) :
    ∃ c', fixAbove i ts c = .ok c' ∧ Lens n c' ∧ Cellwise R c' := by
  induction ts generalizing i c with
  | nil =>
    refine ⟨c, rfl, hl, ?_⟩
    intro k tp fp tn fn h1 h2 h3 h4
    refine hB k tp fp tn fn h1 h2 h3 h4 (.inl ?_)
    have := (List.getElem?_eq_some_iff.1 h1).1
    rw [hl.tp, ← hn] at this; simpa using this
  | cons t ts ih =>
    simp only [List.length_cons] at hn
    have hA' : ∀ (k : ℕ) (t : Fl), ts[k]? = some t → AboveRange t → R (i + 1 + k) 0 0 N P := by
      intro k t' h1 h2
      have := hA (k + 1) t' (by simpa using h1) h2
      rwa [show i + (k + 1) = i + 1 + k by omega] at this
    simp only [fixAbove]
    split
    · rename_i habove
      have hin : i < n := by omega
      have hne : i ≠ 0 := by omega
      have g1 : ((c.tp.set i 0))[0]? = some P := by rw [List.getElem?_set_ne hne]; exact hp
      have g2 : ((c.fp.set i 0))[0]? = some N := by rw [List.getElem?_set_ne hne]; exact hq
      have f1 : first (c.tp.set i 0) = .ok P := by
        cases hc : c.tp.set i 0 with
        | nil => rw [hc] at g1; cases g1
        | cons x xs => rw [hc] at g1; cases g1; rfl
      have f2 : first (c.fp.set i 0) = .ok N := by
        cases hc : c.fp.set i 0 with
        | nil => rw [hc] at g2; cases g2
        | cons x xs => rw [hc] at g2; cases g2; rfl
      simp only [setAt, hl.tp, hl.fp, hl.tn, hl.fn, hin, if_true, bind, Except.bind, f1, f2]
      refine ih (i + 1) _ (by omega) (by omega) ⟨?_, ?_, ?_, ?_⟩ g1 g2 hA' ?_
      · simp [hl.tp]
      · simp [hl.fp]
      · simp [hl.tn]
      · simp [hl.fn]
      · intro k tp fp tn fn h1 h2 h3 h4 hk'
        by_cases hk : i = k
        · subst hk
          rw [List.getElem?_set_self (by rw [hl.tp]; exact hin)] at h1
          rw [List.getElem?_set_self (by rw [hl.fp]; exact hin)] at h2
          rw [List.getElem?_set_self (by rw [hl.tn]; exact hin)] at h3
          rw [List.getElem?_set_self (by rw [hl.fn]; exact hin)] at h4
          cases h1; cases h2; cases h3; cases h4
          exact hA 0 t (by simp) habove
        · rw [List.getElem?_set_ne hk] at h1 h2 h3 h4
          refine hB k tp fp tn fn h1 h2 h3 h4 ?_
          rcases hk' with h | ⟨t', h, h'⟩
          · exact .inl (by omega)
          · by_cases hlt : k < i
            · exact .inl hlt
            · refine .inr ⟨t', ?_, h'⟩
              rw [show k - i = (k - (i + 1)) + 1 by omega, List.getElem?_cons_succ]; exact h
    · rename_i habove
      refine ih (i + 1) c (by omega) (by omega) hl hp hq hA' ?_
      intro k tp fp tn fn h1 h2 h3 h4 hk'
      refine hB k tp fp tn fn h1 h2 h3 h4 ?_
      by_cases hlt : k < i
      · exact .inl hlt
      · rcases hk' with h | ⟨t', h, h'⟩
        · have : k = i := by omega
          subst this
          exact .inr ⟨t, by simp, habove⟩
        · by_cases hki : k = i
          · subst hki; exact .inr ⟨t, by simp, habove⟩
          · refine .inr ⟨t', ?_, h'⟩
            rw [show k - i = (k - (i + 1)) + 1 by omega, List.getElem?_cons_succ]; exact h

/-- The cells at every index, for both shapes of threshold lists. -/
private theorem toMatrices_cells (t0 : Fl) (rest : List Fl) (h : List Bucket) (off : ℕ)
    (hoff : (if (Fl.le (.fin 0) t0 || (t0 :: rest).length == 1) && decide (1 < h.length) then 1 else 0) = off)
    (hl : off + (t0 :: rest).length ≤ h.length)
    (hc : (∀ t ∈ t0 :: rest, ¬ AboveRange t) ∨ (off = 0 ∧ ¬ AboveRange t0)) :
    ∃ c, histogramToMatrices (t0 :: rest) h = .ok c ∧ Lens (t0 :: rest).length c ∧
      Cellwise (fun k tp fp tn fn => ∃ t, (t0 :: rest)[k]? = some t ∧
        (AboveRange t → tp = 0 ∧ fp = 0 ∧ tn = totalNeg h ∧ fn = totalPos h) ∧
        (¬ AboveRange t → tp = ((h.drop (off + k)).map pos).sum ∧ fp = ((h.drop (off + k)).map neg).sum ∧
          tn = ((h.take (off + k)).map neg).sum ∧ fn = ((h.take (off + k)).map pos).sum)) c := by
  have e : histogramToMatrices (t0 :: rest) h = fixAbove 0 (t0 :: rest) (raw (t0 :: rest) off h) := by
    simp only [histogramToMatrices, raw, ← hoff]
  rw [e]
  have hlens := raw_lens (t0 :: rest) off h hl
  have hraw : Cellwise (fun k tp fp tn fn => k < (t0 :: rest).length ∧
      tp = ((h.drop (off + k)).map pos).sum ∧ fp = ((h.drop (off + k)).map neg).sum ∧
          tn = ((h.take (off + k)).map neg).sum ∧ fn = ((h.take (off + k)).map pos).sum) (raw (t0 :: rest) off h) := by
    intro i tp fp tn fn h1 h2 h3 h4
    have hi : i < (t0 :: rest).length := by
      have := (List.getElem?_eq_some_iff.1 h1).1
      rw [hlens.tp] at this; exact this
    obtain ⟨e1, e2, e3, e4⟩ := raw_get (t0 :: rest) off h hl i hi
    rw [h1] at e1; rw [h2] at e2; rw [h3] at e3; rw [h4] at e4
    cases e1; cases e2; cases e3; cases e4
    exact ⟨hi, rfl, rfl, rfl, rfl⟩
  rcases hc with hc | ⟨rfl, hc⟩
  · rw [fix_none _ _ _ hc]
    refine ⟨_, rfl, hlens, ?_⟩
    intro i tp fp tn fn h1 h2 h3 h4
    obtain ⟨hi, h5⟩ := hraw i tp fp tn fn h1 h2 h3 h4
    refine ⟨_, List.getElem?_eq_getElem hi, fun ha => absurd ha (hc _ (List.getElem_mem hi)), fun _ => h5⟩
  · simp only [fixAbove]
    rw [if_neg (by exact hc)]
    obtain ⟨g1, g2, _, _⟩ := raw_get (t0 :: rest) 0 h hl 0 (by simp)
    refine fix_rel _ (totalPos h) (totalNeg h) (t0 :: rest).length 1 rest _ (le_refl _)
      (by simp [Nat.add_comm]) hlens (by rw [g1]; rfl) (by rw [g2]; rfl) ?_ ?_
    · intro k t hk ha
      refine ⟨t, by rw [Nat.add_comm]; simpa using hk, fun _ => ⟨rfl, rfl, rfl, rfl⟩, fun hna => absurd ha hna⟩
    · intro k tp fp tn fn h1 h2 h3 h4 hk
      obtain ⟨hi, h5⟩ := hraw k tp fp tn fn h1 h2 h3 h4
      have hna : ¬ AboveRange (t0 :: rest)[k] := by
        rcases hk with hk | ⟨t', hk, hna⟩
        · have : k = 0 := by omega
          subst this; exact hc
        · cases k with
          | zero => exact hc
          | succ k =>
            obtain ⟨hk1, hk2⟩ := List.getElem?_eq_some_iff.1 hk
            simp only [Nat.add_sub_cancel] at hk2
            simpa [hk2] using hna
      exact ⟨_, List.getElem?_eq_getElem hi, fun ha => absurd ha hna, fun _ => h5⟩

private theorem rebinThresholds_cons (t0 : Fl) (rest : List Fl) :
    ∃ tail, (tail = [] ∨ (tail = [.fin (1 + eps)] ∧
        ∃ init tl, t0 :: rest = init ++ [tl] ∧ Fl.lt tl (.fin 1) = true)) ∧ rebinThresholds (t0 :: rest) =
      (if Fl.le (.fin 0) t0 then [.fin (-eps)] else []) ++
        ((t0 :: rest).map fun t => if t = .fin 0 then t else Fl.add t (.fin eps)) ++ tail := by
  unfold rebinThresholds
  cases hl : (t0 :: rest).getLast? with
  | none => simp at hl
  | some tl =>
    have hsplit : ∃ init, t0 :: rest = init ++ [tl] := by
      obtain ⟨init, hi⟩ := List.getLast?_eq_some_iff.1 hl
      exact ⟨init, hi⟩
    obtain ⟨init, hi⟩ := hsplit
    by_cases h1 : Fl.lt tl (.fin 1) = true <;> by_cases h2 : Fl.le (.fin 0) t0 = true
    · exact ⟨_, .inr ⟨rfl, init, tl, hi, h1⟩, by simp [h1, h2]⟩
    · exact ⟨_, .inr ⟨rfl, init, tl, hi, h1⟩, by simp [h1, h2]⟩
    · exact ⟨_, .inl rfl, by simp [h1, h2]⟩
    · exact ⟨_, .inl rfl, by simp [h1, h2]⟩

/-- Index of the first column in the rebinned histogram. -/
private def offset (t0 : Fl) : ℕ := if Fl.le (.fin 0) t0 then 1 else 0

private theorem rebin_offset (t0 : Fl) (rest : List Fl) (hs : ¬ (rest = [] ∧ Fl.lt t0 (.fin 0) = true)) (h : List Bucket)
    (hlen : h.length = (rebinThresholds (t0 :: rest)).length) :
    (if (Fl.le (.fin 0) t0 || (t0 :: rest).length == 1) && decide (1 < h.length) then 1 else 0) = offset t0 ∧
      offset t0 + (t0 :: rest).length ≤ h.length := by
  obtain ⟨tail, ht, e⟩ := rebinThresholds_cons t0 rest
  unfold offset
  by_cases h0 : Fl.le (.fin 0) t0 = true
  · rw [e] at hlen
    simp only [h0, if_true, List.length_append, List.length_cons, List.length_nil, List.length_map] at hlen ⊢
    have : 1 < h.length := by omega
    simp only [this, Bool.true_or, decide_true, Bool.and_self, if_true, true_and]
    omega
  · have h0' : Fl.le (.fin 0) t0 = false := by simpa using h0
    have hlen' : (t0 :: rest).length ≤ h.length := by
      rw [e] at hlen
      simp only [h0', List.length_append, List.length_cons, List.length_nil, List.length_map] at hlen ⊢
      omega
    refine ⟨?_, by simpa [h0'] using hlen'⟩
    by_cases hr : rest = []
    · subst hr
      have hnan : t0 = .nan := by
        have : ¬ Fl.lt t0 (.fin 0) = true := fun hh => hs ⟨rfl, hh⟩
        unfold Fl.lt at this
        cases t0 with
        | nan => rfl
        | ninf => simp [Fl.le] at this
        | pinf => simp [Fl.le] at h0
        | fin q => simp [Fl.le] at this h0; linarith [this h0.le]
      subst hnan
      have : (rebinThresholds [.nan]).length = 1 := by decide +kernel
      rw [this] at hlen
      simp [hlen, Fl.le]
    · have _ : ((t0 :: rest).length == 1) = false := by
        cases rest with
        | nil => exact absurd rfl hr
        | cons a as => simp
      simp [h0', hr]

private theorem lt_imp_not_le {t : Fl} (h : Fl.lt t (.fin 0) = true) : Fl.le (.fin 0) t = false := by
  unfold Fl.lt at h
  cases t <;> simp [Fl.le] at h ⊢
  exact h.2

private theorem lt_imp_not_above {t : Fl} (h : Fl.lt t (.fin 0) = true) : ¬ AboveRange t := by
  unfold Fl.lt at h
  unfold AboveRange
  cases t <;> simp [Fl.le] at h ⊢
  linarith [h.1]

private theorem totals_rebin (ts : List Fl) (h : List Bucket) (hh : h.Pairwise fun a b => a.id < b.id) :
    totalPos (Histogram.rebin ts 10000 0 1 h) = totalPos h ∧ totalNeg (Histogram.rebin ts 10000 0 1 h) = totalNeg h := by
  obtain ⟨h1, h2⟩ := Histogram.C19_conserves 10000 0 1 (by norm_num) ts h hh
  refine ⟨h2, ?_⟩
  have key : ∀ l : List Bucket, totalNeg l = (l.map Bucket.examples).sum - (l.map Bucket.labels).sum := by
    intro l
    induction l with
    | nil => simp [totalNeg]
    | cons b bs ih => simp only [totalNeg, List.map_cons, List.sum_cons] at ih ⊢; rw [ih]; ring
  rw [key, key, h1, h2]

private theorem cells_sum (h : List Bucket) (k : ℕ) (f : Bucket → ℚ) :
    ((h.drop k).map f).sum + ((h.take k).map f).sum = (h.map f).sum := by
  conv_rhs => rw [← List.take_append_drop k h, List.map_append, List.sum_append]
  rw [add_comm]

/-! ### Theorems -/

/-- C20: at every threshold true positives plus false negatives are the total positive weight, false positives plus true
negatives the total negative weight, provided no threshold lies above the range of predictions, or the first of several
thresholds is negative (as in the default threshold lists).  Missing from the full claim: thresholds above the range
after a non-negative first threshold (`C20_above_range_loses_weight`). -/
theorem C20_consistent_partial (t0 : Fl) (rest : List Fl) (h : List Bucket) (hh : h.Pairwise fun a b => a.id < b.id)
    (hne : h ≠ [])
    (hc : (∀ t ∈ t0 :: rest, ¬ AboveRange t) ∨ (rest ≠ [] ∧ Fl.lt t0 (.fin 0) = true)) :
    Consistent (t0 :: rest) h := by
  have fin : ∀ (h' : List Bucket) (off : ℕ) (c : Cols), totalPos h' = totalPos h → totalNeg h' = totalNeg h →
      Lens (t0 :: rest).length c →
      Cellwise (fun k tp fp tn fn => ∃ t, (t0 :: rest)[k]? = some t ∧
        (AboveRange t → tp = 0 ∧ fp = 0 ∧ tn = totalNeg h' ∧ fn = totalPos h') ∧
        (¬ AboveRange t → tp = ((h'.drop (off + k)).map pos).sum ∧ fp = ((h'.drop (off + k)).map neg).sum ∧
          tn = ((h'.take (off + k)).map neg).sum ∧ fn = ((h'.take (off + k)).map pos).sum)) c →
      histogramResult (t0 :: rest) h = .ok c → Consistent (t0 :: rest) h := by
    intro h' off c e1 e2 hl hcell hr
    refine ⟨c, hr, hl.tp, hl.fp, hl.tn, hl.fn, ?_⟩
    intro i tp fp tn fn g1 g2 g3 g4
    obtain ⟨t, _, ha, hna⟩ := hcell i tp fp tn fn g1 g2 g3 g4
    by_cases hat : AboveRange t
    · obtain ⟨rfl, rfl, rfl, rfl⟩ := ha hat
      rw [e1, e2]; simp
    · obtain ⟨rfl, rfl, rfl, rfl⟩ := hna hat
      rw [← e1, ← e2]
      exact ⟨cells_sum h' _ pos, cells_sum h' _ neg⟩
  by_cases hs : rest = [] ∧ Fl.lt t0 (.fin 0) = true
  · have hr : histogramResult (t0 :: rest) h = histogramToMatrices (t0 :: rest) h := by
      simp only [histogramResult, if_pos hs]
    obtain ⟨rfl, hlt⟩ := hs
    obtain ⟨c, h1, h2, h3⟩ := toMatrices_cells t0 [] h _ rfl (by
        have : 0 < h.length := List.length_pos_iff.2 hne
        by_cases h1 : 1 < h.length
        · simp [h1]; omega
        · simp [h1]; omega) (.inl (by
          rintro t ht
          have : t = t0 := by simpa using ht
          subst this
          exact lt_imp_not_above hlt))
    exact fin h _ c rfl rfl h2 h3 (hr.trans h1)
  · have hr : histogramResult (t0 :: rest) h =
        histogramToMatrices (t0 :: rest) (Histogram.rebin (rebinThresholds (t0 :: rest)) 10000 0 1 h) := by
      simp only [histogramResult, if_neg hs]
    have hlen := Histogram.C19_length 10000 0 1 (by norm_num) (rebinThresholds (t0 :: rest)) (by
      obtain ⟨tail, _, e⟩ := rebinThresholds_cons t0 rest
      rw [e]; simp) h hh
    obtain ⟨ho, hl⟩ := rebin_offset t0 rest hs _ hlen
    obtain ⟨c, h1, h2, h3⟩ := toMatrices_cells t0 rest _ _ ho hl (by
      rcases hc with hc | ⟨_, hc⟩
      · exact .inl hc
      · exact .inr ⟨by simp [offset, lt_imp_not_le hc], lt_imp_not_above hc⟩)
    obtain ⟨e1, e2⟩ := totals_rebin (rebinThresholds (t0 :: rest)) h hh
    exact fin _ _ c e1 e2 h2 h3 (hr.trans h1)

/-- Non-vacuous: the default shape of threshold lists, first below and last above the range. -/
example : Consistent [.fin (-1 / 10000000), .fin (1 / 2), .fin (1 + 1 / 10000000)]
    [⟨0, 1, .fin 0, 1⟩, ⟨2001, 1, .fin 1, 3⟩, ⟨10001, 2, .fin 1, 2⟩] :=
  C20_consistent_partial _ _ _ (by decide) (by decide) (.inr ⟨by decide, by decide +kernel⟩)

/-- C20 is false for thresholds above the range after a non-negative first threshold: with thresholds [0.5, 2] the
positive example predicted at 0.2 is in no cell of the second threshold. -/
theorem C20_above_range_loses_weight :
    histogramResult [.fin (1 / 2), .fin 2] [⟨2001, 1, .fin (1 / 5), 1⟩] = .ok ⟨[0, 0], [0, 0], [0, 0], [1, 0]⟩ ∧
    ¬ Consistent [.fin (1 / 2), .fin 2] [⟨2001, 1, .fin (1 / 5), 1⟩] := by
  have e : histogramResult [.fin (1 / 2), .fin 2] [⟨2001, 1, .fin (1 / 5), 1⟩] =
      .ok ⟨[0, 0], [0, 0], [0, 0], [1, 0]⟩ := by decide +kernel
  refine ⟨e, ?_⟩
  rintro ⟨c, hc, _, _, _, _, h⟩
  rw [e] at hc
  cases hc
  have := (h 1 0 0 0 0 rfl rfl rfl rfl).1
  simp [totalPos] at this

/-- The same happens for a single threshold above the range. -/
theorem C20_single_above_range : ¬ Consistent [.fin 2] [⟨2001, 1, .fin (1 / 5), 1⟩] := by
  have e : histogramResult [.fin 2] [⟨2001, 1, .fin (1 / 5), 1⟩] = .ok ⟨[0], [0], [0], [0]⟩ := by decide +kernel
  rintro ⟨c, hc, _, _, _, _, h⟩
  rw [e] at hc
  cases hc
  have := (h 0 0 0 0 0 rfl rfl rfl rfl).1
  simp [totalPos] at this

/-! ### C54: agreement with exact counting -/

/-- The histogram the matrices are derived from by default. -/
def defaultConfig : Histogram.Config := ⟨10000, 0, 1, true⟩

/-- Thresholds in ascending order, none NaN, none in the gap just below zero (there the epsilon correction would
reorder them). -/
structure Usable (ts : List Fl) : Prop where
  ascending : ts.Pairwise fun a b => Fl.lt a b = true
  notNan : ∀ t ∈ ts, t ≠ .nan
  gap : ∀ q, .fin q ∈ ts → q < 0 → q ≤ -(1 / 10000000)

/-- A threshold after the epsilon correction. -/
def corrected (t : Fl) : Fl := if t = .fin 0 then t else Fl.add t (.fin (1 / 10000000))

/-- `v` counts as predicted positive at the `i`-th threshold `t` of a list starting with `t0`. -/
def countsPositive (t0 : Fl) (i : ℕ) (t v : Fl) : Bool :=
  !Fl.le (.fin (1 + 1 / 10000000)) t && ((i == 0 && Fl.lt t0 (.fin 0)) || Fl.le (corrected t) v)

/-- The claim about the four cells at one threshold: they are the sums over the examples for which `sel` holds or fails,
a label `l` of weight `w` counting as `l * w` positive and `w - l * w` negative. -/
def CellsBy (c : Cols) (i : ℕ) (data : List Histogram.HExample) (sel : Histogram.HExample → Bool) : Prop :=
  c.tp[i]? = some (((data.filter sel).map fun e => e.label * e.weight).sum) ∧
  c.fp[i]? = some (((data.filter sel).map fun e => e.weight - e.label * e.weight).sum) ∧
  c.tn[i]? = some (((data.filter fun e => !sel e).map fun e => e.weight - e.label * e.weight).sum) ∧
  c.fn[i]? = some (((data.filter fun e => !sel e).map fun e => e.label * e.weight).sum)

theorem corrected_mono {a b : Fl} (h : Fl.lt a b = true) (hg : ∀ q, a = .fin q → q < 0 → q ≤ -(1 / 10000000)) :
    Fl.le (corrected a) (corrected b) = true := by
  unfold Fl.lt at h
  unfold corrected
  cases a <;> cases b <;> simp [Fl.le, Fl.add] at h ⊢
  · rename_i q; by_cases hq : q = 0 <;> simp [hq]
  · rename_i q q'
    by_cases h1 : q = 0
    · subst h1
      have h2 : ¬ q' = 0 := by rintro rfl; simp at h
      simp only [h2, if_true, if_false, decide_eq_true_eq]; linarith [h.1]
    · by_cases h2 : q' = 0
      · subst h2
        have := hg q rfl h.2
        simp only [h1, if_true, if_false, decide_eq_true_eq]; linarith
      · simp only [h1, h2, if_false, decide_eq_true_eq]; linarith [h.1]
  · rename_i q; by_cases hq : q = 0 <;> simp [hq]

private theorem rebin_sorted {t0 : Fl} {rest : List Fl} (hu : Usable (t0 :: rest)) :
    (rebinThresholds (t0 :: rest)).Pairwise fun a b => Fl.le a b = true := by
  obtain ⟨tail, ht, e⟩ := rebinThresholds_cons t0 rest
  rw [e, List.append_assoc, List.pairwise_append, List.pairwise_append]
  have hmap : ((t0 :: rest).map fun t => if t = .fin 0 then t else Fl.add t (.fin eps)) = (t0 :: rest).map corrected := rfl
  rw [hmap]
  have hnn : ∀ t ∈ t0 :: rest, Fl.le (.fin 0) t0 = true → Fl.le (.fin 0) t = true := by
    intro t ht h0
    rcases List.mem_cons.1 ht with rfl | ht
    · exact h0
    · have := (List.pairwise_cons.1 hu.ascending).1 t ht
      unfold Fl.lt at this
      simp only [Bool.and_eq_true] at this
      exact Histogram.le_trans' h0 this.1
  have htail : ∀ t ∈ t0 :: rest, tail = [.fin (1 + eps)] → Fl.le (corrected t) (.fin (1 + eps)) = true := by
    intro t htm htl
    rcases ht with ht | ⟨_, init, tl, hi, hlt⟩
    · rw [ht] at htl; cases htl
    · have ht1 : Fl.lt t (.fin 1) = true := by
        rw [hi] at htm
        rcases List.mem_append.1 htm with hm | hm
        · have hp := hu.ascending
          rw [hi, List.pairwise_append] at hp
          have := hp.2.2 t hm tl (by simp)
          unfold Fl.lt at this hlt ⊢
          cases t <;> cases tl <;> simp [Fl.le] at this hlt ⊢
          exact ⟨by linarith [this.1, hlt.1], by linarith [this.1, hlt.2]⟩
        · rw [List.mem_singleton] at hm; rw [hm]; exact hlt
      unfold Fl.lt at ht1
      unfold corrected
      cases t with
      | nan => simp [Fl.le] at ht1
      | pinf => simp [Fl.le] at ht1
      | ninf => simp [Fl.le, Fl.add]
      | fin q =>
        simp only [Fl.le, Bool.and_eq_true, decide_eq_true_eq] at ht1
        split
        · rename_i hq
          rw [hq]; norm_num [Fl.le, eps]
        · simp only [Fl.add, Fl.le, eps, decide_eq_true_eq]; linarith [ht1.1]
  refine ⟨?_, ⟨?_, ?_, ?_⟩, ?_⟩
  · split <;> simp
  · rw [List.pairwise_map]
    have hg := hu.gap
    have hp := hu.ascending
    generalize t0 :: rest = l at hg hp
    clear hmap hnn htail e
    induction l with
    | nil => exact List.Pairwise.nil
    | cons x l ih =>
      rw [List.pairwise_cons] at hp ⊢
      refine ⟨fun y hy => corrected_mono (hp.1 y hy) ?_, ih (fun q hq => hg q (by simp [hq])) hp.2⟩
      rintro q rfl
      exact hg q (by simp)
  · rcases ht with ht | ⟨ht, _⟩ <;> rw [ht] <;> simp
  · intro a ha b hb
    obtain ⟨t, htm, rfl⟩ := List.mem_map.1 ha
    rcases ht with ht | ⟨ht, _⟩
    · rw [ht] at hb; cases hb
    · have := htail t htm ht
      rw [ht, List.mem_singleton] at hb
      rw [hb]; exact this
  · intro a ha b hb
    split at ha
    · rename_i h0
      rw [List.mem_singleton] at ha
      subst ha
      rcases List.mem_append.1 hb with hb | hb
      · obtain ⟨t, htm, rfl⟩ := List.mem_map.1 hb
        have := hnn t htm h0
        unfold corrected
        cases t with
        | nan => simp [Fl.le] at this
        | ninf => simp [Fl.le] at this
        | pinf => simp [Fl.le, Fl.add]
        | fin q =>
          simp only [Fl.le, decide_eq_true_eq] at this
          split
          · rename_i hq
            rw [hq]; norm_num [Fl.le, eps]
          · simp only [Fl.add, Fl.le, eps, decide_eq_true_eq]; linarith
      · rcases ht with ht | ⟨ht, _⟩
        · rw [ht] at hb; cases hb
        · rw [ht, List.mem_singleton] at hb
          rw [hb]; norm_num [Fl.le, eps]
    · cases ha

private theorem filter_split {α : Type} (l : List α) (p : α → Bool) (f : α → ℚ) :
    ((l.filter p).map f).sum + ((l.filter fun x => !p x).map f).sum = (l.map f).sum := by
  induction l with
  | nil => simp
  | cons x l ih =>
    rw [List.map_cons, List.sum_cons, ← ih]
    cases h : p x
    · simp only [List.filter_cons, h, Bool.not_false, if_true, Bool.false_eq_true, if_false, List.map_cons, List.sum_cons]
      ring
    · simp only [List.filter_cons, h, Bool.not_true, if_true, Bool.false_eq_true, if_false, List.map_cons, List.sum_cons]
      ring

private theorem drop_rebin (rts : List Fl) (hne : rts ≠ []) (hs : rts.Pairwise fun a b => Fl.le a b = true)
    (h : List Bucket) (hh : h.Pairwise fun a b => a.id < b.id) (f : Bucket → ℚ)
    (hf : ∀ j l, f (Histogram.sumBuckets j l) = (l.map f).sum) (k : ℕ) (u : Fl) (hk : rts[k]? = some u) :
    (((Histogram.rebin rts 10000 0 1 h).drop k).map f).sum =
      ((h.filter fun b => k == 0 || Fl.le u (Histogram.bucketStart 10000 0 1 b.id)).map f).sum := by
  have hkl := (List.getElem?_eq_some_iff.1 hk).1
  rw [Histogram.C19_rebin 10000 0 1 (by norm_num) rts hne hs h hh]
  obtain ⟨d, hd⟩ : ∃ d, k + d + 1 = rts.length := ⟨rts.length - k - 1, by omega⟩
  induction d generalizing k u with
  | zero =>
    have e : ((List.range rts.length).map fun j => Histogram.sumBuckets j (h.filter fun b =>
        Histogram.inSlot rts j (Histogram.bucketStart 10000 0 1 b.id))).drop k =
        [Histogram.sumBuckets k (h.filter fun b => Histogram.inSlot rts k (Histogram.bucketStart 10000 0 1 b.id))] := by
      rw [List.drop_eq_getElem_cons (by simpa using hkl)]
      rw [List.drop_eq_nil_of_le (by simp; omega)]
      simp
    rw [e, List.map_cons, List.map_nil, List.sum_cons, List.sum_nil, add_zero, hf]
    congr 2
    apply List.filter_congr
    intro b _
    have : rts[k + 1]? = none := List.getElem?_eq_none_iff.2 (by omega)
    simp [Histogram.inSlot, hk, this]
  | succ d ih =>
    obtain ⟨u', hu'⟩ : ∃ u', rts[k + 1]? = some u' := ⟨_, List.getElem?_eq_getElem (by omega)⟩
    rw [List.drop_eq_getElem_cons (by simpa using hkl), List.map_cons, List.sum_cons,
      ih (k + 1) u' hu' (by omega) (by omega)]
    simp only [List.getElem_map, List.getElem_range, hf]
    have huu : Fl.le u u' = true := by
      obtain ⟨h1, rfl⟩ := List.getElem?_eq_some_iff.1 hk
      obtain ⟨h2, rfl⟩ := List.getElem?_eq_some_iff.1 hu'
      exact List.pairwise_iff_getElem.1 hs _ _ h1 h2 (by omega)
    rw [← filter_split (h.filter fun b => k == 0 || Fl.le u (Histogram.bucketStart 10000 0 1 b.id))
      (fun b => Fl.le u' (Histogram.bucketStart 10000 0 1 b.id)), List.filter_filter, List.filter_filter, add_comm]
    congr 3
    · apply List.filter_congr
      intro b _
      by_cases hb : Fl.le u' (Histogram.bucketStart 10000 0 1 b.id) = true
      · simp [hb, Histogram.le_trans' huu hb]
      · simp [hb]
    · apply List.filter_congr
      intro b _
      simp only [Histogram.inSlot, hk, hu']
      rw [Bool.and_comm]

/-- A prediction rounded down to the resolution of the histogram: below the range, at or above one, or a multiple of
1/10000. -/
def gridBelow : Fl → Fl
  | .nan => .nan
  | .ninf => .ninf
  | .pinf => .pinf
  | .fin q => if q < 0 then .ninf else if 1 ≤ q then .pinf else .fin (⌊q * 10000⌋ / 10000)

private theorem start_eq (i : ℕ) (v : Fl) (h : Histogram.InBucket defaultConfig i v) :
    Histogram.bucketStart 10000 0 1 i = gridBelow v := by
  cases v with
  | nan => exact h.elim
  | ninf => simp only [Histogram.InBucket] at h; subst h; rfl
  | pinf => simp only [Histogram.InBucket, defaultConfig] at h; subst h; simp [Histogram.bucketStart, gridBelow]
  | fin q =>
    simp only [Histogram.InBucket, defaultConfig] at h
    rcases h with ⟨rfl, h⟩ | ⟨h1, h2, h3, h4⟩ | ⟨rfl, h⟩
    · simp [Histogram.bucketStart, gridBelow, h]
    · have h0 : i ≠ 0 := by omega
      have hN : ¬ 10000 + 1 ≤ i := by omega
      have h1' : (1 : ℚ) ≤ i := by exact_mod_cast h1
      have h2' : (i : ℚ) ≤ 10000 := by exact_mod_cast h2
      have hq : ¬ q < 0 := by push_cast at h3; push Not; linarith
      have hq1 : ¬ 1 ≤ q := by push_cast at h4; push Not; linarith
      have hfl : ⌊q * 10000⌋ = (i : ℤ) - 1 := by
        rw [Int.floor_eq_iff]
        push_cast at h3 h4 ⊢
        constructor <;> linarith
      simp only [Histogram.bucketStart, h0, hN, if_false, gridBelow, hq, hq1, hfl]
      push_cast
      congr 1
      ring
    · have hq : ¬ q < 0 := by push Not; linarith
      simp [Histogram.bucketStart, gridBelow, hq, h]

private theorem default_valid : defaultConfig.Valid := ⟨by decide, by norm_num [defaultConfig]⟩

section
variable (cfg : Histogram.Config) (hcfg : cfg.Valid) (hv : ∀ e, Histogram.bucketValue cfg e = e.pred)
variable (start : ℕ → Fl) (grid : Fl → Fl) (hg : ∀ i v, Histogram.InBucket cfg i v → start i = grid v)
include hv hg

theorem histogram_filter (data : List Histogram.HExample) (P : Fl → Bool) :
    (Histogram.histogramOf cfg data).filter (fun b => P (start b.id)) =
      Histogram.histogramOf cfg (data.filter fun e => P (grid e.pred)) := by
  unfold Histogram.histogramOf
  simp only [hv]
  rw [List.filter_map, List.filter_filter]
  have e1 : (List.range (cfg.num + 2)).filter (fun i =>
      ((fun b : Bucket => P (start b.id)) ∘ fun i => Histogram.bucketOf i
        (data.filter fun t => decide (Histogram.InBucket cfg i t.pred))) i &&
      data.any fun t => decide (Histogram.InBucket cfg i t.pred)) =
      (List.range (cfg.num + 2)).filter (fun i =>
        (data.filter fun e => P (grid e.pred)).any fun t => decide (Histogram.InBucket cfg i t.pred)) := by
    apply List.filter_congr
    intro i _
    rw [Bool.eq_iff_iff]
    simp only [Function.comp, Histogram.bucketOf, Bool.and_eq_true, List.any_eq_true, List.mem_filter, decide_eq_true_eq]
    constructor
    · rintro ⟨h1, t, h2, h3⟩
      exact ⟨t, ⟨h2, by rw [← hg i _ h3]; exact h1⟩, h3⟩
    · rintro ⟨t, ⟨h1, h2⟩, h3⟩
      exact ⟨by rw [hg i _ h3]; exact h2, t, h1, h3⟩
  rw [e1]
  apply List.map_congr_left
  intro i hi
  rw [List.mem_filter, List.any_eq_true] at hi
  obtain ⟨_, t, ht, hti⟩ := hi
  rw [List.mem_filter] at ht
  rw [decide_eq_true_eq] at hti
  congr 1
  rw [List.filter_filter]
  apply List.filter_congr
  intro e _
  rw [Bool.eq_iff_iff]
  simp only [Bool.and_eq_true, decide_eq_true_eq]
  constructor
  · intro h
    refine ⟨h, ?_⟩
    rw [← hg i _ h, hg i _ hti]; exact ht.2
  · exact fun h => h.1

omit hv hg in
theorem histogram_sorted (data : List Histogram.HExample) :
    (Histogram.histogramOf cfg data).Pairwise fun a b => a.id < b.id := by
  unfold Histogram.histogramOf
  rw [List.pairwise_map]
  exact (List.pairwise_lt_range.sublist List.filter_sublist)

include hcfg in
private theorem histogram_sums (data : List Histogram.HExample) (hn : ∀ e ∈ data, e.pred ≠ .nan) (P : Fl → Bool) :
    (((Histogram.histogramOf cfg data).filter fun b => P (start b.id)).map pos).sum =
      ((data.filter fun e => P (grid e.pred)).map fun e => e.label * e.weight).sum ∧
    (((Histogram.histogramOf cfg data).filter fun b => P (start b.id)).map neg).sum =
      ((data.filter fun e => P (grid e.pred)).map fun e => e.weight - e.label * e.weight).sum := by
  rw [histogram_filter cfg hv start grid hg data P]
  obtain ⟨h1, h2⟩ := Histogram.C18_totals cfg hcfg (data.filter fun e => P (grid e.pred))
    (fun e he => hv e ▸ hn e (List.mem_of_mem_filter he))
  refine ⟨h2, ?_⟩
  have key : ∀ l : List Bucket, (l.map neg).sum = (l.map Bucket.examples).sum - (l.map Bucket.labels).sum := by
    intro l
    induction l with
    | nil => simp
    | cons b bs ih => simp only [List.map_cons, List.sum_cons, neg, ih]; ring
  have key' : ∀ l : List Histogram.HExample, (l.map fun e => e.weight - e.label * e.weight).sum =
      (l.map fun e => e.weight).sum - (l.map fun e => e.label * e.weight).sum := by
    intro l
    induction l with
    | nil => simp
    | cons b bs ih => simp only [List.map_cons, List.sum_cons, ih]; ring
  rw [key, key', h1, h2]

end

/-- C54: the matrices derived from the default calibration histogram count the examples by their prediction rounded down
to the resolution of the histogram, for every usable threshold list (conditions as in C20, more than a single negative
threshold). -/
theorem C54_cells (t0 : Fl) (rest : List Fl) (hu : Usable (t0 :: rest))
    (hs : ¬ (rest = [] ∧ Fl.lt t0 (.fin 0) = true))
    (hc : (∀ t ∈ t0 :: rest, ¬ AboveRange t) ∨ Fl.lt t0 (.fin 0) = true)
    (data : List Histogram.HExample) (hn : ∀ e ∈ data, e.pred ≠ .nan) :
    ∃ c, histogramResult (t0 :: rest) (Histogram.histogramOf defaultConfig data) = .ok c ∧
      ∀ (i : ℕ) (t : Fl), (t0 :: rest)[i]? = some t →
        CellsBy c i data fun e => countsPositive t0 i t (gridBelow e.pred) := by
  have hh := histogram_sorted defaultConfig data
  generalize hgen : Histogram.histogramOf defaultConfig data = h at hh
  have hrne : rebinThresholds (t0 :: rest) ≠ [] := by
    obtain ⟨tail, _, e⟩ := rebinThresholds_cons t0 rest
    rw [e]; simp
  have hr : histogramResult (t0 :: rest) h =
      histogramToMatrices (t0 :: rest) (Histogram.rebin (rebinThresholds (t0 :: rest)) 10000 0 1 h) := by
    simp only [histogramResult, if_neg hs]
  have hlen := Histogram.C19_length 10000 0 1 (by norm_num) (rebinThresholds (t0 :: rest)) hrne h hh
  obtain ⟨ho, hl⟩ := rebin_offset t0 rest hs _ hlen
  obtain ⟨c, h1, h2, h3⟩ := toMatrices_cells t0 rest _ _ ho hl (by
    rcases hc with hc | hc
    · exact .inl hc
    · exact .inr ⟨by simp [offset, lt_imp_not_le hc], lt_imp_not_above hc⟩)
  obtain ⟨e1, e2⟩ := totals_rebin (rebinThresholds (t0 :: rest)) h hh
  refine ⟨c, hr.trans h1, ?_⟩
  intro i t hit
  have hi := (List.getElem?_eq_some_iff.1 hit).1
  obtain ⟨t', g, ha, hna⟩ := h3 i _ _ _ _ (List.getElem?_eq_getElem (by rw [h2.tp]; exact hi))
    (List.getElem?_eq_getElem (by rw [h2.fp]; exact hi)) (List.getElem?_eq_getElem (by rw [h2.tn]; exact hi))
    (List.getElem?_eq_getElem (by rw [h2.fn]; exact hi))
  have : t = t' := by rw [hit] at g; exact Option.some.inj g
  subst this
  have hsum := histogram_sums defaultConfig default_valid (fun _ => rfl) (Histogram.bucketStart 10000 0 1) gridBelow start_eq
    data hn fun v => countsPositive t0 i t v
  have hsumT := histogram_sums defaultConfig default_valid (fun _ => rfl) (Histogram.bucketStart 10000 0 1) gridBelow start_eq
    data hn fun _ => true
  rw [hgen] at hsum hsumT
  simp only [List.filter_true] at hsumT
  -- what is to be shown follows from the two positive sums
  have finish : ∀ (tp fp tn fn : ℚ), tp = ((h.filter fun b => countsPositive t0 i t
        (Histogram.bucketStart 10000 0 1 b.id)).map pos).sum →
      fp = ((h.filter fun b => countsPositive t0 i t (Histogram.bucketStart 10000 0 1 b.id)).map neg).sum →
      tp + fn = totalPos h → fp + tn = totalNeg h →
      c.tp[i]? = some tp → c.fp[i]? = some fp → c.tn[i]? = some tn → c.fn[i]? = some fn →
      CellsBy c i data fun e => countsPositive t0 i t (gridBelow e.pred) := by
    intro tp fp tn fn q1 q2 q3 q4 q5 q6 q7 q8
    have p1 := filter_split data (fun e => countsPositive t0 i t (gridBelow e.pred)) fun e => e.label * e.weight
    have p2 := filter_split data (fun e => countsPositive t0 i t (gridBelow e.pred)) fun e =>
      e.weight - e.label * e.weight
    have q3' : tp + fn = (h.map pos).sum := q3
    have q4' : fp + tn = (h.map neg).sum := q4
    refine ⟨?_, ?_, ?_, ?_⟩
    · rw [q5, q1, hsum.1]
    · rw [q6, q2, hsum.2]
    · rw [q7]; apply congrArg; linarith [hsum.2, hsumT.2]
    · rw [q8]; apply congrArg; linarith [hsum.1, hsumT.1]
  have hempty : AboveRange t → (h.filter fun b => countsPositive t0 i t (Histogram.bucketStart 10000 0 1 b.id)) = [] := by
    intro hat
    rw [List.filter_eq_nil_iff]
    intro b _
    have hat' : Fl.le (.fin (1 + 1 / 10000000)) t = true := hat
    simp only [countsPositive, hat', Bool.not_true, Bool.false_and]
    exact Bool.false_ne_true
  have hidx : (rebinThresholds (t0 :: rest))[offset t0 + i]? = some (corrected t) := by
    obtain ⟨tail, _, e⟩ := rebinThresholds_cons t0 rest
    have hmap : ((t0 :: rest).map fun t => if t = .fin 0 then t else Fl.add t (.fin eps)) =
      (t0 :: rest).map corrected := rfl
    have hm : ((t0 :: rest).map corrected)[i]? = some (corrected t) := by rw [List.getElem?_map, hit]; rfl
    rw [e, hmap]
    unfold offset
    have hlt : i < ((t0 :: rest).map corrected).length := by rw [List.length_map]; exact hi
    by_cases h0 : Fl.le (.fin 0) t0 = true
    · simp only [h0, if_true, List.append_assoc]
      rw [List.getElem?_append_right (by simp)]
      simp only [List.length_cons, List.length_nil, Nat.zero_add, Nat.add_sub_cancel_left]
      rw [List.getElem?_append_left hlt, hm]
    · simp only [h0, Bool.false_eq_true, if_false, List.nil_append, Nat.zero_add]
      rw [List.getElem?_append_left hlt, hm]
  have hoffz : (offset t0 + i == 0) = (i == 0 && Fl.lt t0 (.fin 0)) := by
    have hnn := hu.notNan t0 (by simp)
    unfold offset
    cases t0 with
    | nan => exact absurd rfl hnn
    | ninf => cases i <;> simp [Fl.le, Fl.lt]
    | pinf => simp [Fl.le, Fl.lt]
    | fin q =>
      by_cases hq : 0 ≤ q
      · simp [Fl.le, Fl.lt, hq]
      · have : q ≤ 0 := by linarith
        have h' : q < 0 := by push Not at hq; exact hq
        cases i <;> simp [Fl.le, Fl.lt, hq, this, h']
  have hdrop : ¬ AboveRange t → ∀ f : Bucket → ℚ, (∀ j l, f (Histogram.sumBuckets j l) = (l.map f).sum) →
      (((Histogram.rebin (rebinThresholds (t0 :: rest)) 10000 0 1 h).drop (offset t0 + i)).map f).sum =
      ((h.filter fun b => countsPositive t0 i t (Histogram.bucketStart 10000 0 1 b.id)).map f).sum := by
    intro hat f hf
    rw [drop_rebin _ hrne (rebin_sorted hu) h hh f hf _ _ hidx, hoffz]
    have hat' : Fl.le (.fin (1 + 1 / 10000000)) t = false := by
      cases hb : Fl.le (.fin (1 + 1 / 10000000)) t
      · rfl
      · exact absurd hb hat
    simp only [countsPositive, hat', Bool.not_false, Bool.true_and]
  have neg_sum : ∀ j l, neg (Histogram.sumBuckets j l) = (l.map neg).sum := by
    intro j l
    unfold Histogram.sumBuckets neg
    induction l with
    | nil => simp
    | cons b bs ih => simp only [List.map_cons, List.sum_cons] at ih ⊢; rw [← ih]; ring
  refine finish _ _ _ _ ?_ ?_ ?_ ?_ (List.getElem?_eq_getElem (by rw [h2.tp]; exact hi))
    (List.getElem?_eq_getElem (by rw [h2.fp]; exact hi)) (List.getElem?_eq_getElem (by rw [h2.tn]; exact hi))
    (List.getElem?_eq_getElem (by rw [h2.fn]; exact hi))
  · by_cases hat : AboveRange t
    · rw [(ha hat).1, hempty hat]; rfl
    · rw [(hna hat).1, hdrop hat pos fun j l => rfl]
  · by_cases hat : AboveRange t
    · rw [(ha hat).2.1, hempty hat]; rfl
    · rw [(hna hat).2.1, hdrop hat neg neg_sum]
  · by_cases hat : AboveRange t
    · rw [(ha hat).1, (ha hat).2.2.2, e1, zero_add]
    · rw [(hna hat).1, (hna hat).2.2.2, ← e1]; exact cells_sum _ _ pos
  · by_cases hat : AboveRange t
    · rw [(ha hat).2.1, (ha hat).2.2.1, e2, zero_add]
    · rw [(hna hat).2.1, (hna hat).2.2.1, ← e2]; exact cells_sum _ _ neg

/-- Exact counting: the prediction exceeds the threshold. -/
def exceeds (t : Fl) (e : Histogram.HExample) : Bool := Fl.lt t e.pred

/-- A threshold for which the histogram gives exact counts: inside the range and on the grid, negative, or above the
range. -/
def GridThreshold (t : Fl) : Prop :=
  (∃ m : ℕ, 0 < m ∧ m < 10000 ∧ t = .fin (m / 10000)) ∨ Fl.lt t (.fin 0) = true ∨ AboveRange t

private theorem lt_le_of_cond {t0 t : Fl} (i : ℕ) (hgap : ∀ q, t = .fin q → q < 0 → q ≤ -(1 / 10000000))
    (hi : t0 = t ∨ i ≠ 0) (ht : GridThreshold t) (k : ℕ) (hk : k ≤ 10000) :
    countsPositive t0 i t (gridBelow (.fin (k / 10000))) = Fl.lt t (.fin (k / 10000)) := by
  have hk0 : (0 : ℚ) ≤ k := by positivity
  have hk1 : (k : ℚ) ≤ 10000 := by exact_mod_cast hk
  have hg : gridBelow (.fin (k / 10000)) = if k = 10000 then .pinf else .fin (k / 10000) := by
    have h1 : ¬ ((k : ℚ) / 10000 < 0) := by push Not; positivity
    simp only [gridBelow, if_neg h1]
    by_cases h : k = 10000
    · subst h; norm_num
    · have hlt : (k : ℚ) < 10000 := by exact_mod_cast lt_of_le_of_ne hk h
      have h2 : ¬ (1 ≤ (k : ℚ) / 10000) := by push Not; rw [div_lt_one (by norm_num)]; exact hlt
      rw [if_neg h2, if_neg h]
      congr 1
      have : (k : ℚ) / 10000 * 10000 = ((k : ℤ) : ℚ) := by push_cast; field_simp
      rw [this, Int.floor_intCast]; push_cast; rfl
  rw [hg]
  have hcase : ∀ v, v = (if k = 10000 then Fl.pinf else .fin (k / 10000)) →
      (v = .pinf ∧ k = 10000) ∨ (v = .fin (k / 10000) ∧ k < 10000) := by
    rintro v rfl
    by_cases h : k = 10000
    · exact .inl ⟨by simp [h], h⟩
    · exact .inr ⟨by simp [h], lt_of_le_of_ne hk h⟩
  generalize hv : (if k = 10000 then Fl.pinf else .fin (k / 10000)) = v
  rw [hv] at hcase
  unfold countsPositive
  rcases ht with ⟨m, hm0, hm1, rfl⟩ | hlt | hab
  · have hm0' : (0 : ℚ) < m := by exact_mod_cast hm0
    have hm1' : (m : ℚ) < 10000 := by exact_mod_cast hm1
    have hna : Fl.le (.fin (1 + 1 / 10000000)) (.fin ((m : ℚ) / 10000)) = false := by
      simp only [Fl.le, decide_eq_false_iff_not]; push Not
      have : (m : ℚ) / 10000 < 1 := by rw [div_lt_one (by norm_num)]; exact hm1'
      linarith
    have hneg : (i == 0 && Fl.lt t0 (.fin 0)) = false := by
      rcases hi with rfl | hi
      · have : Fl.lt (.fin ((m : ℚ) / 10000)) (.fin 0) = false := by
          unfold Fl.lt
          have : ¬ ((m : ℚ) / 10000 ≤ 0) := by push Not; positivity
          simp [Fl.le, this]
        rw [this, Bool.and_false]
      · simp [hi]
    rw [hna, hneg]
    simp only [Bool.not_false, Bool.true_and, Bool.false_or]
    have hne : ¬ ((Fl.fin ((m : ℚ) / 10000)) = .fin 0) := by
      simp only [Fl.fin.injEq]; positivity
    unfold corrected
    rw [if_neg hne]
    rcases hcase v rfl with ⟨rfl, h⟩ | ⟨rfl, h⟩
    · have h1 : (m : ℚ) / 10000 ≤ (k : ℚ) / 10000 := by rw [h]; push_cast; linarith
      have h2 : (m : ℚ) / 10000 < (k : ℚ) / 10000 := by rw [h]; push_cast; linarith
      simp [Fl.add, Fl.le, Fl.lt, h1, h2]
    · rw [Bool.eq_iff_iff]
      unfold Fl.lt
      simp only [Fl.add, Fl.le, Bool.and_eq_true, decide_eq_true_eq, Bool.not_eq_true', decide_eq_false_iff_not, not_le]
      constructor
      · intro h'
        have : (m : ℚ) / 10000 < k / 10000 := by linarith
        exact ⟨this.le, this⟩
      · rintro ⟨_, h'⟩
        have h3 : (m : ℚ) < k := by
          have := (div_lt_div_iff_of_pos_right (by norm_num : (0 : ℚ) < 10000)).1 h'
          exact this
        have h4 : (m : ℚ) + 1 ≤ k := by exact_mod_cast h3
        linarith
  · have hna : Fl.le (.fin (1 + 1 / 10000000)) t = false := by
      cases hb : Fl.le (.fin (1 + 1 / 10000000)) t
      · rfl
      · exact absurd hb (lt_imp_not_above hlt)
    have hr : Fl.lt t (.fin ((k : ℚ) / 10000)) = true := by
      have hkk : (0 : ℚ) ≤ k / 10000 := by positivity
      unfold Fl.lt at hlt ⊢
      cases t <;> simp [Fl.le] at hlt ⊢
      exact ⟨by linarith [hlt.1], by linarith [hlt.2]⟩
    rw [hna, hr]
    simp only [Bool.not_false, Bool.true_and, Bool.or_eq_true, Bool.and_eq_true]
    right
    have hkk : (0 : ℚ) ≤ k / 10000 := by positivity
    unfold Fl.lt at hlt
    unfold corrected
    cases t with
    | nan => simp [Fl.le] at hlt
    | pinf => simp [Fl.le] at hlt
    | ninf =>
      rcases hcase v rfl with ⟨rfl, h⟩ | ⟨rfl, h⟩ <;> simp [Fl.add, Fl.le]
    | fin q =>
      simp only [Fl.le, Bool.and_eq_true, decide_eq_true_eq, Bool.not_eq_true', decide_eq_false_iff_not, not_le] at hlt
      have := hgap q rfl hlt.2
      have hq : ¬ (Fl.fin q = .fin 0) := by simp only [Fl.fin.injEq]; exact ne_of_lt hlt.2
      rw [if_neg hq]
      rcases hcase v rfl with ⟨rfl, h⟩ | ⟨rfl, h⟩
      · simp [Fl.add, Fl.le]
      · simp only [Fl.add, Fl.le, decide_eq_true_eq]; linarith
  · have hab' : Fl.le (.fin (1 + 1 / 10000000)) t = true := hab
    have hr : Fl.lt t (.fin ((k : ℚ) / 10000)) = false := by
      have hkk : (k : ℚ) / 10000 ≤ 1 := by rw [div_le_one (by norm_num)]; exact hk1
      cases t with
      | nan => rfl
      | ninf => simp [Fl.le] at hab'
      | pinf => simp [Fl.le, Fl.lt]
      | fin q =>
        simp only [Fl.le, decide_eq_true_eq] at hab'
        have : ¬ q ≤ k / 10000 := by push Not; linarith
        simp [Fl.le, Fl.lt, this]
    rw [hab', hr]; rfl

/-- C54 for predictions and thresholds on the grid: the matrices derived from the histogram are the exact counts, an
example being predicted positive when its prediction exceeds the threshold.  Missing from the full claim: the thresholds
0 and 1 (`C54_threshold_zero`, `C54_threshold_one`), a single negative threshold (`C54_single_negative`), and values
between grid points, which are rounded down (`C54_cells`). -/
theorem C54_exact_partial (t0 : Fl) (rest : List Fl) (hu : Usable (t0 :: rest))
    (hg : ∀ t ∈ t0 :: rest, GridThreshold t)
    (hs : ¬ (rest = [] ∧ Fl.lt t0 (.fin 0) = true))
    (hc : (∀ t ∈ t0 :: rest, ¬ AboveRange t) ∨ Fl.lt t0 (.fin 0) = true)
    (data : List Histogram.HExample) (hd : ∀ e ∈ data, ∃ k : ℕ, k ≤ 10000 ∧ e.pred = .fin (k / 10000)) :
    ∃ c, histogramResult (t0 :: rest) (Histogram.histogramOf defaultConfig data) = .ok c ∧
      ∀ (i : ℕ) (t : Fl), (t0 :: rest)[i]? = some t → CellsBy c i data (exceeds t) := by
  obtain ⟨c, h1, h2⟩ := C54_cells t0 rest hu hs hc data (by
    intro e he
    obtain ⟨k, _, h⟩ := hd e he
    rw [h]; exact fun h => nomatch h)
  refine ⟨c, h1, ?_⟩
  intro i t hit
  have hm := List.mem_of_getElem? hit
  have heq : ∀ e ∈ data, countsPositive t0 i t (gridBelow e.pred) = exceeds t e := by
    intro e he
    obtain ⟨k, hk, h⟩ := hd e he
    unfold exceeds
    rw [h]
    refine lt_le_of_cond i (fun q hq => hu.gap q (hq ▸ hm)) ?_ (hg t hm) k hk
    by_cases hi : i = 0
    · left; subst hi; simpa using hit
    · exact .inr hi
  have e1 : data.filter (fun e => countsPositive t0 i t (gridBelow e.pred)) = data.filter (exceeds t) :=
    List.filter_congr heq
  have e2 : data.filter (fun e => !countsPositive t0 i t (gridBelow e.pred)) = data.filter (fun e => !exceeds t e) :=
    List.filter_congr fun e he => by rw [heq e he]
  have := h2 i t hit
  unfold CellsBy at this ⊢
  rw [e1, e2] at this
  exact this

/-- Non-vacuous: the default shape of threshold lists. -/
example : Usable [.fin (-1 / 10000000), .fin (1 / 2), .fin (1 + 1 / 10000000)] ∧
    (∀ t ∈ [Fl.fin (-1 / 10000000), .fin (1 / 2), .fin (1 + 1 / 10000000)], GridThreshold t) := by
  refine ⟨⟨by norm_num [Fl.lt, Fl.le], by simp, ?_⟩, ?_⟩
  · intro q hq hn
    simp only [List.mem_cons, Fl.fin.injEq, List.not_mem_nil, or_false] at hq
    rcases hq with rfl | rfl | rfl <;> norm_num at hn
    norm_num
  · intro t ht
    simp only [List.mem_cons, List.not_mem_nil, or_false] at ht
    rcases ht with rfl | rfl | rfl
    · exact .inr (.inl (by norm_num [Fl.lt, Fl.le]))
    · exact .inl ⟨5000, by norm_num, by norm_num, by norm_num⟩
    · exact .inr (.inr (by norm_num [AboveRange, Fl.le]))

/-- At threshold 0 a prediction of 0 counts as predicted positive, although it does not exceed the threshold. -/
theorem C54_threshold_zero :
    histogramResult [.fin 0, .fin (1 / 2)] [⟨1, 0, .fin 0, 1⟩] = .ok ⟨[0, 0], [1, 0], [0, 1], [0, 0]⟩ ∧
    Histogram.bucketIndex defaultConfig (.fin 0) = .ok 1 ∧ exceeds (.fin 0) ⟨0, .fin 0, 1⟩ = false := by
  refine ⟨by decide +kernel, by decide +kernel, by decide +kernel⟩

/-- At threshold 1 a prediction of 1 counts as predicted positive, although it does not exceed the threshold. -/
theorem C54_threshold_one :
    histogramResult [.fin (1 / 2), .fin 1] [⟨10001, 0, .fin 1, 1⟩] = .ok ⟨[0, 0], [1, 1], [0, 0], [0, 0]⟩ ∧
    Histogram.bucketIndex defaultConfig (.fin 1) = .ok 10001 ∧ exceeds (.fin 1) ⟨0, .fin 1, 1⟩ = false := by
  refine ⟨by decide +kernel, by decide +kernel, by decide +kernel⟩

/-- A single negative threshold (used for precision and recall at the top k, with a histogram of one bucket): when no
prediction was masked to -inf but one of them is 1, all predictions below 1 count as predicted negative; when all were
masked, all count as predicted positive. -/
theorem C54_single_negative :
    histogramResult [.fin (-1)] [⟨1, 1, .fin (1 / 2), 1⟩, ⟨2, 1, .fin 1, 1⟩] = .ok ⟨[1], [0], [0], [1]⟩ ∧
    Histogram.bucketIndex ⟨1, 0, 1, true⟩ (.fin (1 / 2)) = .ok 1 ∧
    Histogram.bucketIndex ⟨1, 0, 1, true⟩ (.fin 1) = .ok 2 ∧
    histogramResult [.fin (-1)] [⟨0, 1, .ninf, 1⟩] = .ok ⟨[1], [0], [0], [0]⟩ ∧
    Histogram.bucketIndex ⟨1, 0, 1, true⟩ .ninf = .ok 0 := by
  refine ⟨by decide +kernel, by decide +kernel, by decide +kernel, by decide +kernel, by decide +kernel⟩

/-! ### A single negative threshold -/

/-- The histogram used for a single negative threshold: one bucket over [0, 1), one for the values below and one for the
values above. -/
def oneBucket : Histogram.Config := ⟨1, 0, 1, true⟩

/-- The three classes a prediction falls into: below 0, from 0 to below 1, and the rest. -/
def band (v : Fl) : ℕ := if Fl.lt v (.fin 0) then 0 else if Fl.lt v (.fin 1) then 1 else 2

private theorem lt_fins (a b : ℚ) : Fl.lt (.fin a) (.fin b) = decide (a < b) := by
  rw [Bool.eq_iff_iff]
  simp only [Fl.lt, Fl.le, Bool.and_eq_true, decide_eq_true_eq, Bool.not_eq_true', decide_eq_false_iff_not, not_le]
  exact ⟨fun h => h.2, fun h => ⟨h.le, h⟩⟩

private theorem band_eq (i : ℕ) (v : Fl) (h : Histogram.InBucket oneBucket i v) : i = band v := by
  unfold band
  cases v with
  | nan => exact h.elim
  | ninf => simpa [Histogram.InBucket, Fl.lt, Fl.le] using h
  | pinf => simpa [Histogram.InBucket, Fl.lt, Fl.le, oneBucket] using h
  | fin q =>
    simp only [Histogram.InBucket, oneBucket] at h
    rcases h with ⟨h, h'⟩ | ⟨h1, h2, h3, h4⟩ | ⟨h, h'⟩
    · simp [lt_fins, h, h']
    · have : i = 1 := by omega
      subst this
      norm_num at h3 h4
      simp [lt_fins, h4, not_lt.2 h3]
    · subst h
      have : ¬ q < 0 := by linarith
      simp [lt_fins, this, not_lt.2 h']

private theorem band_mem (v : Fl) (h : v ≠ .nan) : band v < 3 ∧ Histogram.InBucket oneBucket (band v) v := by
  unfold band
  cases v with
  | nan => exact absurd rfl h
  | ninf => simp [Histogram.InBucket, Fl.lt, Fl.le]
  | pinf => simp [Histogram.InBucket, Fl.lt, Fl.le, oneBucket]
  | fin q =>
    by_cases h0 : q < 0
    · simp [Histogram.InBucket, lt_fins, oneBucket, h0]
    · by_cases h1 : q < 1
      · simp [Histogram.InBucket, lt_fins, oneBucket, h0, h1]; linarith
      · simp [Histogram.InBucket, lt_fins, oneBucket, h0, h1]; linarith

private theorem one_valid : oneBucket.Valid := ⟨by decide, by norm_num [oneBucket]⟩

private theorem prefix_one (f : Bucket → ℚ) (s : ℚ) (b b' : Bucket) (bs : List Bucket) :
    ((prefixSums f s (b :: b' :: bs)).drop 1).take 1 = [s + f b] := by
  simp [prefixSums]

private theorem suffix_head (f : Bucket → ℚ) (b : Bucket) (bs : List Bucket) :
    ∃ l, suffixSums f (b :: bs) = ((b :: bs).map f).sum :: l := by
  induction bs generalizing b with
  | nil => exact ⟨[], by simp [suffixSums]⟩
  | cons b' bs ih =>
    obtain ⟨l, h⟩ := ih b'
    refine ⟨((b' :: bs).map f).sum :: l, ?_⟩
    rw [suffixSums, h]
    simp only [List.map_cons, List.sum_cons]
    congr 1
    ring

/-- The predicate by which a single negative threshold separates the examples: all are predicted positive when all the
predictions fall into the same band, otherwise those which are not in the lowest band present. -/
def aboveLowest (data : List Histogram.HExample) (e : Histogram.HExample) : Bool :=
  decide ((∀ x ∈ data, ∀ y ∈ data, band x.pred = band y.pred) ∨ ∃ x ∈ data, band x.pred < band e.pred)

/-- C54: what the single negative threshold used for precision and recall at the top k counts. -/
theorem C54_single (t : Fl) (ht : Fl.lt t (.fin 0) = true) (data : List Histogram.HExample) (hd : data ≠ [])
    (hn : ∀ e ∈ data, e.pred ≠ .nan) :
    ∃ c, histogramResult [t] (Histogram.histogramOf oneBucket data) = .ok c ∧ CellsBy c 0 data (aboveLowest data) := by
  have hs := histogram_sorted oneBucket data
  have hmem : ∀ b ∈ Histogram.histogramOf oneBucket data, ∃ e ∈ data, b.id = band e.pred := by
    intro b hb
    simp only [Histogram.histogramOf, List.mem_map, List.mem_filter, List.any_eq_true, decide_eq_true_eq] at hb
    obtain ⟨i, ⟨_, e, he, hi⟩, rfl⟩ := hb
    exact ⟨e, he, band_eq _ _ hi⟩
  have hall : ∀ e ∈ data, ∃ b ∈ Histogram.histogramOf oneBucket data, b.id = band e.pred := by
    intro e he
    obtain ⟨h1, h2⟩ := band_mem e.pred (hn e he)
    simp only [Histogram.histogramOf, List.mem_map, List.mem_filter, List.any_eq_true, decide_eq_true_eq]
    exact ⟨_, ⟨band e.pred, ⟨List.mem_range.2 h1, e, he, h2⟩, rfl⟩, rfl⟩
  have hsum := histogram_sums oneBucket one_valid (fun _ => rfl) (fun i => .fin i) (fun v => .fin (band v))
    (fun i v h => by rw [band_eq i v h]) data hn
  generalize hh : Histogram.histogramOf oneBucket data = h at *
  have hab : ∀ c : Cols, fixAbove 0 [t] c = .ok c := by
    intro c
    have : Fl.le (.fin (1 + eps)) t = false := by
      cases t <;> simp_all [Fl.lt, Fl.le]
      norm_num [eps]; linarith
    simp [fixAbove, this]
  cases h with
  | nil =>
    obtain ⟨e, he⟩ := List.exists_mem_of_ne_nil _ hd
    obtain ⟨b, hb, _⟩ := hall e he
    exact absurd hb (List.not_mem_nil)
  | cons b rest =>
    have htot := hsum fun _ => true
    simp only [List.filter_true] at htot
    cases rest with
    | nil =>
      have hsel : ∀ e ∈ data, aboveLowest data e = true := by
        intro e _
        simp only [aboveLowest, decide_eq_true_eq]
        left
        intro x hx y hy
        obtain ⟨b1, h1, e1⟩ := hall x hx
        obtain ⟨b2, h2, e2⟩ := hall y hy
        rw [List.mem_singleton] at h1 h2
        rw [← e1, ← e2, h1, h2]
      refine ⟨_, by simp only [histogramResult, histogramToMatrices, ht]; simp; exact hab _, ?_⟩
      have f1 : data.filter (aboveLowest data) = data := List.filter_eq_self.2 hsel
      have f2 : (data.filter fun e => !aboveLowest data e) = [] := by
        rw [List.filter_eq_nil_iff]
        intro e he
        simp [hsel e he]
      unfold CellsBy
      rw [f1, f2, ← htot.1, ← htot.2]
      simp [suffixSums, prefixSums]
    | cons b' bs =>
      have hsel : ∀ e ∈ data, aboveLowest data e = Fl.lt (.fin b.id) (.fin (band e.pred)) := by
        intro e he
        rw [Bool.eq_iff_iff]
        simp only [aboveLowest, decide_eq_true_eq, lt_fins, Nat.cast_lt]
        obtain ⟨x0, hx0, ex0⟩ := hmem b (List.mem_cons_self)
        constructor
        · rintro (h1 | ⟨x, hx, h1⟩)
          · exfalso
            obtain ⟨x1, hx1, ex1⟩ := hmem b' (List.mem_cons_of_mem _ List.mem_cons_self)
            have := (List.pairwise_cons.1 hs).1 b' List.mem_cons_self
            have := h1 x0 hx0 x1 hx1
            omega
          · obtain ⟨b1, hb1, e1⟩ := hall x hx
            rcases List.mem_cons.1 hb1 with rfl | hb1
            · omega
            · have := (List.pairwise_cons.1 hs).1 b1 hb1
              omega
        · intro h1
          exact .inr ⟨x0, hx0, by omega⟩
      have hf : (b :: b' :: bs).filter (fun x => Fl.lt (.fin b.id) (.fin x.id)) = b' :: bs := by
        rw [List.filter_cons_of_neg (by simp [lt_fins]), List.filter_eq_self]
        intro x hx
        have := (List.pairwise_cons.1 hs).1 x hx
        simpa [lt_fins] using this
      have hp := hsum fun v => Fl.lt (.fin b.id) v
      have f1 : data.filter (aboveLowest data) = data.filter fun e => Fl.lt (.fin b.id) (.fin (band e.pred)) :=
        List.filter_congr hsel
      simp only [hf] at hp
      rw [← f1] at hp
      have p1 := filter_split data (aboveLowest data) fun e => e.label * e.weight
      have p2 := filter_split data (aboveLowest data) fun e => e.weight - e.label * e.weight
      obtain ⟨l1, s1⟩ := suffix_head pos b' bs
      obtain ⟨l2, s2⟩ := suffix_head neg b' bs
      refine ⟨_, by simp only [histogramResult, histogramToMatrices, ht]; simp; exact hab _, ?_⟩
      unfold CellsBy
      simp only [List.map_cons, List.sum_cons] at htot hp s1 s2
      refine ⟨?_, ?_, ?_, ?_⟩
      · simp only [suffixSums.eq_2 pos b, s1]; simp; linarith [hp.1]
      · simp only [suffixSums.eq_2 neg b, s2]; simp; linarith [hp.2]
      · simp [prefixSums]; linarith [hp.2, htot.2]
      · simp [prefixSums]; linarith [hp.1, htot.1]

/-- C54: with predictions between 0 and below 1 of which some were masked to -inf (not among the top k) and some were
not, the examples counted as predicted positive are those which were not masked. -/
theorem C54_top_k (t : Fl) (ht : Fl.lt t (.fin 0) = true) (data : List Histogram.HExample)
    (hp : ∀ e ∈ data, e.pred = .ninf ∨ ∃ q : ℚ, 0 ≤ q ∧ q < 1 ∧ e.pred = .fin q)
    (h0 : ∃ e ∈ data, e.pred = .ninf) (h1 : ∃ e ∈ data, e.pred ≠ .ninf) :
    ∃ c, histogramResult [t] (Histogram.histogramOf oneBucket data) = .ok c ∧
      CellsBy c 0 data fun e => e.pred ≠ .ninf := by
  obtain ⟨a, ha, ea⟩ := h0
  obtain ⟨b, hb, eb⟩ := h1
  have hband : ∀ e ∈ data, band e.pred = if e.pred = .ninf then 0 else 1 := by
    intro e he
    rcases hp e he with h | ⟨q, h1, h2, h⟩
    · simp [h, band, Fl.lt, Fl.le]
    · simp [h, band, lt_fins, not_lt.2 h1, h2]
  obtain ⟨c, h1, h2⟩ := C54_single t ht data (List.ne_nil_of_mem ha) (by
    intro e he
    rcases hp e he with h | ⟨q, _, _, h⟩ <;> rw [h] <;> exact fun h => nomatch h)
  have hsel : ∀ e ∈ data, aboveLowest data e = decide (e.pred ≠ .ninf) := by
    intro e he
    rw [Bool.eq_iff_iff]
    simp only [aboveLowest, decide_eq_true_eq]
    constructor
    · rintro (h | ⟨x, hx, h⟩) h'
      · have := h a ha b hb
        rw [hband a ha, hband b hb, if_pos ea, if_neg eb] at this
        cases this
      · rw [hband e he, if_pos h'] at h
        exact Nat.not_lt_zero _ h
    · intro h
      refine .inr ⟨a, ha, ?_⟩
      rw [hband a ha, hband e he, if_pos ea, if_neg h]
      decide
  refine ⟨c, h1, ?_⟩
  unfold CellsBy at h2 ⊢
  have f1 : data.filter (aboveLowest data) = data.filter fun e => decide (e.pred ≠ .ninf) := List.filter_congr hsel
  have f2 : (data.filter fun e => !aboveLowest data e) = data.filter fun e => !decide (e.pred ≠ .ninf) :=
    List.filter_congr fun e he => by rw [hsel e he]
  rw [f1, f2] at h2
  exact h2

example : (∀ e ∈ [(⟨1, .fin (1 / 2), 1⟩ : Histogram.HExample), ⟨0, .ninf, 1⟩],
    e.pred = .ninf ∨ ∃ q : ℚ, 0 ≤ q ∧ q < 1 ∧ e.pred = .fin q) := by
  intro e he
  simp only [List.mem_cons, List.not_mem_nil, or_false] at he
  rcases he with rfl | rfl
  · exact .inr ⟨1 / 2, by norm_num, by norm_num, rfl⟩
  · exact .inl rfl

end Bcm
end TFMA
