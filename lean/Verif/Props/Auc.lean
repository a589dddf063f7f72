import Verif.Props.ConfusionMetrics
import Verif.Props.HistogramMatrices

/-!
# C77, C78: values under a constraint and the area under the ROC curve
-/

namespace TFMA
namespace Bcm

open Beam Combiners

/-! ## C77 -/

/-- `res` is the best value of `dep` among the rows that are `ok`: 0 if there are none, NaN if it is undefined for all of them,
otherwise attained and not exceeded. -/
def BestUnder (ok : MRow → Prop) (dep : MRow → Fl) (ms : List MRow) (res : Fl) : Prop :=
  ((∀ x ∈ ms, ¬ ok x) ∧ res = .fin 0) ∨
  ((∃ x ∈ ms, ok x) ∧ (∀ x ∈ ms, ok x → dep x = .nan) ∧ res = .nan) ∨
  (res ≠ .nan ∧ (∃ x ∈ ms, ok x ∧ dep x = res) ∧ ∀ y ∈ ms, ok y → dep y ≠ .nan → Fl.le (dep y) res = true)

private theorem nanmax_spec (l : List Fl) :
    ((∀ x ∈ l, x = .nan) ∧ nanmax l = .nan) ∨
    (nanmax l ≠ .nan ∧ nanmax l ∈ l ∧ ∀ y ∈ l, y ≠ .nan → Fl.le y (nanmax l) = true) := by
  have le_refl' : ∀ a : Fl, a ≠ .nan → Fl.le a a = true := by intro a h; cases a <;> simp_all [Fl.le]
  have le_total' : ∀ a b : Fl, a ≠ .nan → b ≠ .nan → Fl.le a b ≠ true → Fl.le b a = true := by
    intro a b h1 h2; cases a <;> cases b <;> simp_all [Fl.le]; intro h; exact le_of_lt h
  have le_trans' : ∀ a b c : Fl, Fl.le a b = true → Fl.le b c = true → Fl.le a c = true := by
    intro a b c; cases a <;> cases b <;> cases c <;> simp [Fl.le]; exact le_trans
  induction l with
  | nil => left; exact ⟨by simp, rfl⟩
  | cons x xs ih =>
    by_cases hx : x = .nan
    · have e : nanmax (x :: xs) = nanmax xs := by simp [nanmax, hx]
      rw [e]
      rcases ih with ⟨h1, h2⟩ | ⟨h1, h2, h3⟩
      · left; exact ⟨by intro y hy; rcases List.mem_cons.1 hy with rfl | hy; exacts [hx, h1 y hy], h2⟩
      · right
        refine ⟨h1, List.mem_cons_of_mem _ h2, ?_⟩
        intro y hy hn
        rcases List.mem_cons.1 hy with rfl | hy
        · exact absurd hx hn
        · exact h3 y hy hn
    · right
      rcases ih with ⟨h1, h2⟩ | ⟨h1, h2, h3⟩
      · have e : nanmax (x :: xs) = x := by simp [nanmax, hx, h2]
        rw [e]
        refine ⟨hx, by simp, ?_⟩
        intro y hy hn
        rcases List.mem_cons.1 hy with rfl | hy
        · exact le_refl' _ hn
        · exact absurd (h1 y hy) hn
      · by_cases hl : Fl.le x (nanmax xs) = true
        · have e : nanmax (x :: xs) = nanmax xs := by simp [nanmax, hx, h1, hl]
          rw [e]
          refine ⟨h1, List.mem_cons_of_mem _ h2, ?_⟩
          intro y hy hn
          rcases List.mem_cons.1 hy with rfl | hy
          · exact hl
          · exact h3 y hy hn
        · have e : nanmax (x :: xs) = x := by simp [nanmax, hx, h1, hl]
          rw [e]
          refine ⟨hx, by simp, ?_⟩
          intro y hy hn
          rcases List.mem_cons.1 hy with rfl | hy
          · exact le_refl' _ hn
          · exact le_trans' _ _ _ (h3 y hy hn) (le_total' _ _ hx h1 hl)

private theorem findMax_spec (op : Fl → Fl → Bool) (c d : MRow → Fl) (v : Fl) (ms : List MRow) :
    BestUnder (fun x => op (c x) v = true) d ms (findMaxUnder op (ms.map c) (ms.map d) v) := by
  have e : (((ms.map c).zip (ms.map d)).filter fun p => op p.1 v).map Prod.snd = (ms.filter fun x => op (c x) v).map d := by
    induction ms with
    | nil => rfl
    | cons x xs ih =>
      simp only [List.map_cons, List.zip_cons_cons, List.filter_cons]
      by_cases h : op (c x) v = true <;> simp [h, ih]
  unfold findMaxUnder
  rw [e]
  simp only
  by_cases h0 : (ms.filter fun x => op (c x) v).map d = []
  · left
    refine ⟨?_, if_pos h0⟩
    rw [List.map_eq_nil_iff, List.filter_eq_nil_iff] at h0
    exact h0
  · rw [if_neg h0]
    right
    rcases nanmax_spec ((ms.filter fun x => op (c x) v).map d) with ⟨h1, h2⟩ | ⟨h1, h2, h3⟩
    · left
      refine ⟨?_, ?_, h2⟩
      · rw [List.map_eq_nil_iff, List.filter_eq_nil_iff] at h0
        push Not at h0
        exact h0
      · intro x hx hok
        exact h1 _ (List.mem_map_of_mem (List.mem_filter.2 ⟨hx, hok⟩))
    · right
      refine ⟨h1, ?_, ?_⟩
      · obtain ⟨x, hx, e⟩ := List.mem_map.1 h2
        exact ⟨x, (List.mem_filter.1 hx).1, (List.mem_filter.1 hx).2, e⟩
      · intro y hy hok hn
        exact h3 _ (List.mem_map_of_mem (List.mem_filter.2 ⟨hy, hok⟩)) hn

/-- All matrices hold weights. -/
def AllNonneg (ms : List MRow) : Prop := ∀ x ∈ ms, Nonneg x.2

private theorem div_ratio {a b : ℚ} (ha : 0 ≤ a) (hb : 0 ≤ b) : Fl.div (.fin a) (.fin (a + b)) = ratio a (a + b) := by
  unfold ratio
  by_cases h : 0 < a + b
  · simp [Fl.div, h, ne_of_gt h]
  · have h0 : a + b = 0 := by linarith
    have ha' : a = 0 := by linarith
    have hb' : b = 0 := by linarith
    simp [Fl.div, ha', hb']

private theorem share_eq {a b : Matrix → ℚ} {g : Matrix → Fl} {ms : List MRow}
    (h : ∀ x ∈ ms, Fl.div (.fin (a x.2)) (.fin (a x.2 + b x.2)) = g x.2) : share a b ms = ms.map fun x => g x.2 :=
  List.map_congr_left h

/-- **C77.**  Each of the metrics that fix one rate reports the best value of the other rate (or threshold) among the thresholds
that meet the constraint. -/
theorem C77_best (v : Fl) (ms : List MRow) (h : AllNonneg ms) :
    BestUnder (fun x => Fl.le v (specificity x.2) = true) (fun x => recall x.2) ms (sensitivityAtSpecificity v ms) ∧
    BestUnder (fun x => Fl.le v (recall x.2) = true) (fun x => specificity x.2) ms (specificityAtSensitivity v ms) ∧
    BestUnder (fun x => Fl.le v (recall x.2) = true) (fun x => precision x.2) ms (precisionAtRecall v ms) ∧
    BestUnder (fun x => Fl.le v (precision x.2) = true) (fun x => recall x.2) ms (recallAtPrecision v ms) ∧
    BestUnder (fun x => Fl.le (fallOut x.2) v = true) (fun x => recall x.2) ms (recallAtFalsePositiveRate v ms) ∧
    BestUnder (fun x => Fl.le v (recall x.2) = true) Prod.fst ms (thresholdAtRecall v ms) := by
  have e1 : share Matrix.tp Matrix.fn ms = ms.map fun x => recall x.2 :=
    share_eq fun x hx => div_ratio (h x hx).tp (h x hx).fn
  have e2 : share Matrix.tn Matrix.fp ms = ms.map fun x => specificity x.2 :=
    share_eq fun x hx => div_ratio (h x hx).tn (h x hx).fp
  have e3 : share Matrix.tp Matrix.fp ms = ms.map fun x => precision x.2 :=
    share_eq fun x hx => div_ratio (h x hx).tp (h x hx).fp
  have e4 : share Matrix.fp Matrix.tn ms = ms.map fun x => fallOut x.2 :=
    share_eq fun x hx => div_ratio (h x hx).fp (h x hx).tn
  unfold sensitivityAtSpecificity specificityAtSensitivity precisionAtRecall recallAtPrecision recallAtFalsePositiveRate
    thresholdAtRecall
  rw [e1, e2, e3, e4]
  refine ⟨?_, ?_, ?_, ?_, ?_, ?_⟩
  · exact findMax_spec greaterEqual (fun x => specificity x.2) (fun x => recall x.2) v ms
  · exact findMax_spec greaterEqual (fun x => recall x.2) (fun x => specificity x.2) v ms
  · exact findMax_spec greaterEqual (fun x => recall x.2) (fun x => precision x.2) v ms
  · exact findMax_spec greaterEqual (fun x => precision x.2) (fun x => recall x.2) v ms
  · exact findMax_spec Fl.le (fun x => fallOut x.2) (fun x => recall x.2) v ms
  · exact findMax_spec greaterEqual (fun x => recall x.2) Prod.fst v ms

/-- Non-vacuous: three thresholds; recall at least 1/2 is met by two of them; no threshold has precision 1. -/
example : let ms : List MRow := [(.fin (1 / 4), ⟨4, 1, 3, 0⟩), (.fin (1 / 2), ⟨2, 3, 1, 2⟩), (.fin (3 / 4), ⟨0, 4, 0, 4⟩)]
    precisionAtRecall (.fin (1 / 2)) ms = .fin (2 / 3) ∧ recallAtPrecision (.fin 1) ms = .fin 0 ∧
    thresholdAtRecall (.fin (1 / 2)) ms = .fin (1 / 2) ∧ AllNonneg ms := by
  refine ⟨by decide +kernel, by decide +kernel, by decide +kernel, ?_⟩
  intro x hx
  simp only [List.mem_cons, List.not_mem_nil, or_false] at hx
  rcases hx with rfl | rfl | rfl <;> constructor <;> norm_num

/-! ## C78 -/

/-! ### The sum over neighbouring thresholds -/

section
variable {τ ε : Type}

/-- Sum over neighbours of (decrease of F) times a mean of T. -/
def tsum (c : ℚ) (F T : τ → ℚ) : List τ → ℚ
  | t :: t' :: ts => (F t - F t') * (c * T t + (1 - c) * T t') + tsum c F T (t' :: ts)
  | _ => 0

private theorem tsum_cons2 (c : ℚ) (F T : τ → ℚ) (t t' : τ) (ts : List τ) :
    tsum c F T (t :: t' :: ts) = (F t - F t') * (c * T t + (1 - c) * T t') + tsum c F T (t' :: ts) := rfl

private theorem tsum_left (c a : ℚ) (F G T : τ → ℚ) (ts : List τ) :
    tsum c (fun t => a * F t + G t) T ts = a * tsum c F T ts + tsum c G T ts := by
  induction ts with
  | nil => simp [tsum]
  | cons t ts ih =>
    cases ts with
    | nil => simp [tsum]
    | cons t' ts => rw [tsum_cons2, tsum_cons2, tsum_cons2, ih]; ring

private theorem tsum_right (c a : ℚ) (F T U : τ → ℚ) (ts : List τ) :
    tsum c F (fun t => a * T t + U t) ts = a * tsum c F T ts + tsum c F U ts := by
  induction ts with
  | nil => simp [tsum]
  | cons t ts ih =>
    cases ts with
    | nil => simp [tsum]
    | cons t' ts => rw [tsum_cons2, tsum_cons2, tsum_cons2, ih]; ring

private theorem tsum_zero_left (c : ℚ) (T : τ → ℚ) (ts : List τ) : tsum c (fun _ => 0) T ts = 0 := by
  induction ts with
  | nil => rfl
  | cons t ts ih =>
    cases ts with
    | nil => rfl
    | cons t' ts => rw [tsum_cons2, ih]; ring

private theorem tsum_zero_right (c : ℚ) (F : τ → ℚ) (ts : List τ) : tsum c F (fun _ => 0) ts = 0 := by
  induction ts with
  | nil => rfl
  | cons t ts ih =>
    cases ts with
    | nil => rfl
    | cons t' ts => rw [tsum_cons2, ih]; ring

/-- Indicator. -/
def ind (b : Bool) : ℚ := if b then 1 else 0

variable (A : τ → ε → Bool)

/-- What the pair of a negative `j` and a positive `i` contributes: 1 if some threshold separates them in the right order, 0 if
one separates them in the wrong order, `c` if none separates them; 0 if `j` is on the same side of all thresholds. -/
def credit (c : ℚ) (ts : List τ) (j i : ε) : ℚ :=
  if (∃ t ∈ ts, A t j = true) ∧ (∃ t ∈ ts, A t j = false) then
    if ∃ t ∈ ts, A t j = false ∧ A t i = true then 1
    else if ∃ t ∈ ts, A t j = true ∧ A t i = false then 0
    else c
  else 0

private theorem tsum_flat (c : ℚ) (T : τ → ℚ) (j : ε) (ts : List τ) (h : ∀ t ∈ ts, A t j = false) :
    tsum c (fun t => ind (A t j)) T ts = 0 := by
  induction ts with
  | nil => rfl
  | cons t ts ih =>
    cases ts with
    | nil => rfl
    | cons t' ts =>
      rw [tsum_cons2, ih fun x hx => h x (by simp [hx]), h t (by simp), h t' (by simp)]
      simp

private theorem tsum_pair (c : ℚ) (j i : ε) (ts : List τ)
    (hA : ts.Pairwise fun t t' => ∀ e, A t' e = true → A t e = true) :
    tsum c (fun t => ind (A t j)) (fun t => ind (A t i)) ts = credit A c ts j i := by
  induction ts with
  | nil => simp [tsum, credit]
  | cons t ts ih =>
    cases ts with
    | nil =>
      simp only [tsum, credit, List.mem_singleton, exists_eq_left]
      cases A t j <;> simp
    | cons t' ts =>
      rw [List.pairwise_cons] at hA
      have hdown : ∀ x ∈ t' :: ts, ∀ e, A t e = false → A x e = false := by
        intro x hx e he
        by_contra hc
        have := hA.1 x hx e (by simpa using hc)
        rw [he] at this; cases this
      have hA2 := hA.2
      rw [List.pairwise_cons] at hA2
      have hdown2 : ∀ x ∈ ts, ∀ e, A t' e = false → A x e = false := by
        intro x hx e he
        by_contra hc
        have := hA2.1 x hx e (by simpa using hc)
        rw [he] at this; cases this
      rw [tsum_cons2]
      cases htj : A t j with
      | false =>
        have hall : ∀ x ∈ t' :: ts, A x j = false := fun x hx => hdown x hx j htj
        rw [tsum_flat A c _ j _ hall, hall t' (by simp)]
        unfold credit
        rw [if_neg]
        · simp
        · rintro ⟨⟨x, hx, hxj⟩, _⟩
          rcases List.mem_cons.1 hx with rfl | hx
          · rw [htj] at hxj; cases hxj
          · rw [hall x hx] at hxj; cases hxj
      | true =>
        cases htj' : A t' j with
        | true =>
          rw [ih hA.2]
          simp only [sub_self, zero_mul, zero_add]
          unfold credit
          have c1 : (∃ x ∈ t :: t' :: ts, A x j = true) ↔ ∃ x ∈ t' :: ts, A x j = true :=
            ⟨fun _ => ⟨t', by simp, htj'⟩, fun _ => ⟨t, by simp, htj⟩⟩
          have c2 : (∃ x ∈ t :: t' :: ts, A x j = false) ↔ ∃ x ∈ t' :: ts, A x j = false := by
            constructor
            · rintro ⟨x, hx, h⟩
              rcases List.mem_cons.1 hx with rfl | hx
              · rw [htj] at h; cases h
              · exact ⟨x, hx, h⟩
            · rintro ⟨x, hx, h⟩; exact ⟨x, List.mem_cons_of_mem _ hx, h⟩
          have c3 : (∃ x ∈ t :: t' :: ts, A x j = false ∧ A x i = true) ↔ ∃ x ∈ t' :: ts, A x j = false ∧ A x i = true := by
            constructor
            · rintro ⟨x, hx, h, h'⟩
              rcases List.mem_cons.1 hx with rfl | hx
              · rw [htj] at h; cases h
              · exact ⟨x, hx, h, h'⟩
            · rintro ⟨x, hx, h⟩; exact ⟨x, List.mem_cons_of_mem _ hx, h⟩
          have c4 : (∃ x ∈ t :: t' :: ts, A x j = true ∧ A x i = false) ↔ ∃ x ∈ t' :: ts, A x j = true ∧ A x i = false := by
            constructor
            · rintro ⟨x, hx, h, h'⟩
              rcases List.mem_cons.1 hx with rfl | hx
              · exact ⟨t', by simp, htj', hdown t' (by simp) i h'⟩
              · exact ⟨x, hx, h, h'⟩
            · rintro ⟨x, hx, h⟩; exact ⟨x, List.mem_cons_of_mem _ hx, h⟩
          simp only [c1, c2, c3, c4]
        | false =>
          have hall : ∀ x ∈ t' :: ts, A x j = false := by
            intro x hx
            rcases List.mem_cons.1 hx with rfl | hx
            · exact htj'
            · exact hdown2 x hx j htj'
          rw [tsum_flat A c _ j _ hall]
          unfold credit
          rw [if_pos ⟨⟨t, by simp, htj⟩, ⟨t', by simp, htj'⟩⟩]
          cases hi' : A t' i with
          | true =>
            have hi : A t i = true := hA.1 t' (by simp) i hi'
            rw [if_pos ⟨t', by simp, htj', hi'⟩, hi]
            simp [ind]
          | false =>
            rw [if_neg]
            · cases hi : A t i with
              | false =>
                rw [if_pos ⟨t, by simp, htj, hi⟩]
                simp [ind]
              | true =>
                rw [if_neg]
                · simp [ind]
                · rintro ⟨x, hx, h1, h2⟩
                  rcases List.mem_cons.1 hx with rfl | hx
                  · rw [hi] at h2; cases h2
                  · rw [hall x hx] at h1; cases h1
            · rintro ⟨x, hx, h1, h2⟩
              rcases List.mem_cons.1 hx with rfl | hx
              · rw [htj] at h1; cases h1
              · rcases List.mem_cons.1 hx with rfl | hx
                · rw [hi'] at h2; cases h2
                · rw [hdown2 x hx i hi'] at h2; cases h2

/-- The sum over neighbouring thresholds is a sum over pairs. -/
theorem tsum_pairs (c : ℚ) (ts : List τ) (hA : ts.Pairwise fun t t' => ∀ e, A t' e = true → A t e = true)
    (nw pw : ε → ℚ) (rows rows' : List ε) :
    tsum c (fun t => (rows.map fun e => nw e * ind (A t e)).sum) (fun t => (rows'.map fun e => pw e * ind (A t e)).sum) ts =
      (rows.map fun j => (rows'.map fun i => nw j * pw i * credit A c ts j i).sum).sum := by
  induction rows with
  | nil => simp [tsum_zero_left]
  | cons j rows ih =>
    simp only [List.map_cons, List.sum_cons]
    rw [tsum_left, ih]
    congr 1
    clear ih
    induction rows' with
    | nil => simp [tsum_zero_right]
    | cons i rows' ih =>
      simp only [List.map_cons, List.sum_cons]
      rw [tsum_right, mul_add, ih, tsum_pair A c j i ts hA]
      ring

theorem credit_range {c : ℚ} (h0 : 0 ≤ c) (h1 : c ≤ 1) (ts : List τ) (j i : ε) :
    0 ≤ credit A c ts j i ∧ credit A c ts j i ≤ 1 := by
  unfold credit
  split
  · split
    · norm_num
    · split
      · norm_num
      · exact ⟨h0, h1⟩
  · norm_num

theorem credit_mono {c d : ℚ} (h : c ≤ d) (ts : List τ) (j i : ε) : credit A c ts j i ≤ credit A d ts j i := by
  unfold credit
  split
  · split
    · exact le_refl _
    · split
      · exact le_refl _
      · exact h
  · exact le_refl _

/-! ### The area -/

private theorem nansum_fin (l : List ℚ) : nansum (l.map Fl.fin) = .fin l.sum := by
  have : ∀ (l : List ℚ) (s : ℚ), (l.map Fl.fin).foldl (fun s x => if x = .nan then s else Fl.add s x) (.fin s) =
      .fin (s + l.sum) := by
    intro l
    induction l with
    | nil => intro s; simp
    | cons x l ih =>
      intro s
      simp only [List.map_cons, List.foldl_cons]
      rw [if_neg (by exact fun h => nomatch h)]
      change List.foldl _ (Fl.fin (s + x)) _ = _
      rw [ih, List.sum_cons, add_assoc]
  have h := this l 0
  rw [zero_add] at h
  exact h

/-- The tie credit of a summation method. -/
def tieCredit : Summation → ℚ
  | .interpolation => 1 / 2
  | .minoring => 0
  | .majoring => 1

private theorem neighbours {α β : Type} (g : α → α → β) (a b : α) (l : List α) :
    List.zipWith g (a :: b :: l).dropLast (a :: b :: l).tail = g a b :: List.zipWith g (b :: l).dropLast (b :: l).tail := rfl

private theorem height_fin (m : Summation) (a b : ℚ) (h : b ≤ a) :
    height m (.fin a) (.fin b) = .fin (tieCredit m * a + (1 - tieCredit m) * b) := by
  cases m with
  | interpolation =>
    have : (2 : ℚ) ≠ 0 := by norm_num
    simp only [height, Fl.add, Fl.div, this, if_false, tieCredit, Fl.fin.injEq]
    ring
  | minoring =>
    simp only [height, npMin, Fl.le, tieCredit]
    by_cases h' : a ≤ b
    · have : a = b := le_antisymm h' h
      simp [this]
    · simp [h']
  | majoring =>
    simp only [height, npMax, Fl.le, tieCredit]
    by_cases h' : a ≤ b
    · have : a = b := le_antisymm h' h
      simp [this]
    · simp [h']

/-- The area for finite coordinates, the second one descending. -/
theorem area_fin (m : Summation) (x y : τ → ℚ) (ts : List τ) (hy : ts.Pairwise fun t t' => y t' ≤ y t) :
    area m (ts.map fun t => Fl.fin (x t)) (ts.map fun t => Fl.fin (y t)) = .fin (tsum (tieCredit m) x y ts) := by
  have key : ∃ l : List ℚ, List.zipWith Fl.mul
      (List.zipWith Fl.sub (ts.map fun t => Fl.fin (x t)).dropLast (ts.map fun t => Fl.fin (x t)).tail)
      (List.zipWith (height m) (ts.map fun t => Fl.fin (y t)).dropLast (ts.map fun t => Fl.fin (y t)).tail) =
      l.map Fl.fin ∧ l.sum = tsum (tieCredit m) x y ts := by
    induction ts with
    | nil => exact ⟨[], rfl, rfl⟩
    | cons t ts ih =>
      cases ts with
      | nil => exact ⟨[], rfl, rfl⟩
      | cons t' ts =>
        rw [List.pairwise_cons] at hy
        obtain ⟨l, e1, e2⟩ := ih hy.2
        refine ⟨(x t - x t') * (tieCredit m * y t + (1 - tieCredit m) * y t') :: l, ?_, ?_⟩
        · simp only [List.map_cons] at e1 ⊢
          rw [neighbours, neighbours, List.zipWith_cons_cons, e1, height_fin m _ _ (hy.1 t' (by simp))]
          simp only [Fl.sub, Fl.neg, Fl.add, Fl.mul]
          rw [← sub_eq_add_neg]
        · rw [tsum_cons2, List.sum_cons, e2]
  obtain ⟨l, e1, e2⟩ := key
  unfold area
  rw [e1, nansum_fin, e2]

/-- An undefined coordinate everywhere: the area is 0. -/
theorem area_nan (m : Summation) (x y : τ → Fl) (ts : List τ) (h : (∀ t ∈ ts, x t = .nan) ∨ ∀ t ∈ ts, y t = .nan) :
    area m (ts.map x) (ts.map y) = .fin 0 := by
  have key : ∀ z ∈ List.zipWith Fl.mul
      (List.zipWith Fl.sub (ts.map x).dropLast (ts.map x).tail)
      (List.zipWith (height m) (ts.map y).dropLast (ts.map y).tail), z = .nan := by
    induction ts with
    | nil => simp
    | cons t ts ih =>
      cases ts with
      | nil => simp
      | cons t' ts =>
        have ih' := ih (by
          rcases h with h | h
          · exact .inl fun z hz => h z (by simp [hz])
          · exact .inr fun z hz => h z (by simp [hz]))
        intro z hz
        simp only [List.map_cons] at hz ih'
        rw [neighbours, neighbours, List.zipWith_cons_cons] at hz
        rcases List.mem_cons.1 hz with rfl | hz
        · rcases h with h | h
          · rw [h t (by simp)]; rfl
          · rw [h t (by simp)]
            have : ∀ u, height m .nan u = .nan := by
              intro u
              cases m <;> simp [height, npMin, npMax, Fl.add, Fl.div]
            rw [this]
            generalize Fl.sub (x t) (x t') = u
            cases u <;> rfl
        · exact ih' z hz
  unfold area nansum
  generalize List.zipWith Fl.mul _ _ = l at key
  induction l with
  | nil => rfl
  | cons z l ih =>
    simp only [List.foldl_cons]
    rw [if_pos (key z (by simp))]
    exact ih fun z' hz' => key z' (by simp [hz'])

end

/-! ### Counting each example at one threshold after the other -/

section
variable {τ ε : Type} (A : τ → ε → Bool)

/-- Weighted number of well ordered pairs, relative to the weight of all pairs. -/
def rankStatistic (c : ℚ) (ts : List τ) (nw pw : ε → ℚ) (neg pos : List ε) : ℚ :=
  (neg.map fun j => (pos.map fun i => nw j * pw i * credit A c ts j i).sum).sum / ((neg.map nw).sum * (pos.map pw).sum)

private theorem sum_nonneg' (l : List ε) (f : ε → ℚ) (h : ∀ e ∈ l, 0 ≤ f e) : 0 ≤ (l.map f).sum := by
  induction l with
  | nil => simp
  | cons e l ih =>
    rw [List.map_cons, List.sum_cons]
    exact add_nonneg (h e (by simp)) (ih fun x hx => h x (by simp [hx]))

private theorem sum_le' (l : List ε) (f g : ε → ℚ) (h : ∀ e ∈ l, f e ≤ g e) : (l.map f).sum ≤ (l.map g).sum := by
  induction l with
  | nil => simp
  | cons e l ih =>
    rw [List.map_cons, List.sum_cons, List.map_cons, List.sum_cons]
    exact add_le_add (h e (by simp)) (ih fun x hx => h x (by simp [hx]))

private theorem sum_mul' (l : List ε) (f : ε → ℚ) (a : ℚ) : (l.map fun e => a * f e).sum = a * (l.map f).sum := by
  induction l with
  | nil => simp
  | cons e l ih => rw [List.map_cons, List.sum_cons, List.map_cons, List.sum_cons, ih]; ring

private theorem sum_div' (l : List ε) (f : ε → ℚ) (a : ℚ) : (l.map fun e => f e / a).sum = (l.map f).sum / a := by
  induction l with
  | nil => simp
  | cons e l ih => rw [List.map_cons, List.sum_cons, List.map_cons, List.sum_cons, ih]; ring

private theorem auc_core (m : Summation) (ts : List τ) (hA : ts.Pairwise fun t t' => ∀ e, A t' e = true → A t e = true)
    (nw pw : ε → ℚ) (neg pos : List ε) (hpw : ∀ e ∈ pos, 0 ≤ pw e) (hN : 0 < (neg.map nw).sum) (hP : 0 < (pos.map pw).sum)
    (thr : τ → Fl) (mat : τ → Matrix)
    (hfp : ∀ t ∈ ts, (mat t).fp = (neg.map fun e => nw e * ind (A t e)).sum)
    (hft : ∀ t ∈ ts, (mat t).fp + (mat t).tn = (neg.map nw).sum)
    (htp : ∀ t ∈ ts, (mat t).tp = (pos.map fun e => pw e * ind (A t e)).sum)
    (htf : ∀ t ∈ ts, (mat t).tp + (mat t).fn = (pos.map pw).sum) :
    aucRoc m (ts.map fun t => (thr t, mat t)) = .fin (rankStatistic A (tieCredit m) ts nw pw neg pos) := by
  have e1 : share Matrix.fp Matrix.tn (ts.map fun t => (thr t, mat t)) =
      ts.map fun t => Fl.fin ((neg.map fun e => nw e / (neg.map nw).sum * ind (A t e)).sum) := by
    unfold share
    rw [List.map_map]
    apply List.map_congr_left
    intro t ht
    simp only [Function.comp]
    rw [hft t ht, hfp t ht]
    simp only [Fl.div, ne_of_gt hN, if_false]
    rw [← sum_div']
    congr 3
    funext e
    ring
  have e2 : share Matrix.tp Matrix.fn (ts.map fun t => (thr t, mat t)) =
      ts.map fun t => Fl.fin ((pos.map fun e => pw e / (pos.map pw).sum * ind (A t e)).sum) := by
    unfold share
    rw [List.map_map]
    apply List.map_congr_left
    intro t ht
    simp only [Function.comp]
    rw [htf t ht, htp t ht]
    simp only [Fl.div, ne_of_gt hP, if_false]
    rw [← sum_div']
    congr 3
    funext e
    ring
  unfold aucRoc
  rw [e1, e2, area_fin, tsum_pairs A _ ts hA]
  · congr 1
    unfold rankStatistic
    rw [← sum_div']
    congr 2
    funext j
    rw [← sum_div']
    congr 2
    funext i
    field_simp
  · refine hA.imp ?_
    intro t t' h
    apply sum_le'
    intro e he
    have h0 : 0 ≤ pw e / (pos.map pw).sum := div_nonneg (hpw e he) (le_of_lt hP)
    apply mul_le_mul_of_nonneg_left _ h0
    unfold ind
    cases h' : A t' e with
    | false => simp; split <;> norm_num
    | true => simp [h e h']

private theorem rank_le {τ' : Type} {A' : τ' → ε → Bool} {c d : ℚ} {ts : List τ} {ts' : List τ'} {nw pw : ε → ℚ}
    {neg pos : List ε} (hn : ∀ e ∈ neg, 0 ≤ nw e) (hp : ∀ e ∈ pos, 0 ≤ pw e)
    (h : ∀ j ∈ neg, ∀ i ∈ pos, credit A c ts j i ≤ credit A' d ts' j i) :
    rankStatistic A c ts nw pw neg pos ≤ rankStatistic A' d ts' nw pw neg pos := by
  unfold rankStatistic
  apply div_le_div_of_nonneg_right
  · apply sum_le'
    intro j hj
    apply sum_le'
    intro i hi
    exact mul_le_mul_of_nonneg_left (h j hj i hi) (mul_nonneg (hn j hj) (hp i hi))
  · exact mul_nonneg (sum_nonneg' _ _ hn) (sum_nonneg' _ _ hp)

private theorem pairs_const (nw pw : ε → ℚ) (neg pos : List ε) :
    (neg.map fun j => (pos.map fun i => nw j * pw i).sum).sum = (neg.map nw).sum * (pos.map pw).sum := by
  rw [mul_comm, ← sum_mul']
  congr 2
  funext j
  rw [sum_mul']
  ring

end

/-! ### Exact matrices -/

/-- Labelled positive. -/
def IsPos (r : Row) : Prop := r.label = .fin 1
instance (r : Row) : Decidable (IsPos r) := by unfold IsPos; infer_instance

def positives (rows : List Row) : List Row := rows.filter fun r => decide (IsPos r)
def negatives (rows : List Row) : List Row := rows.filter fun r => !decide (IsPos r)

/-- AscendingThresholds thresholds. -/
def AscendingThresholds (ts : List Fl) : Prop := ts.Pairwise fun a b => Fl.lt a b = true

/-- Predicted positive at the threshold. -/
def above (t : Fl) (r : Row) : Bool := Fl.lt t r.pred

/-- Both classes have weight, and no weight is negative. -/
structure BothClasses (rows : List Row) : Prop where
  nonneg : NonnegWeights rows
  neg : 0 < ((negatives rows).map Row.weight).sum
  pos : 0 < ((positives rows).map Row.weight).sum

/-- The rows of the matrices at the thresholds. -/
def matricesOf (ts : List Fl) (rows : List Row) : List MRow := ts.map fun t => (t, matrixOf true t rows)

private theorem lt_trans_fl {a b c : Fl} (h1 : Fl.lt a b = true) (h2 : Fl.lt b c = true) : Fl.lt a c = true := by
  unfold Fl.lt at h1 h2 ⊢
  cases a <;> cases b <;> cases c <;> simp [Fl.le] at h1 h2 ⊢
  all_goals first | (constructor <;> linarith [h1.1, h1.2, h2.1, h2.2]) | skip

private theorem cell_sum (p q : Row → Prop) [DecidablePred p] [DecidablePred q] (rows : List Row) :
    weightWhere (fun r => p r ∧ q r) rows =
      ((rows.filter fun r => decide (p r)).map fun r => r.weight * ind (decide (q r))).sum := by
  unfold weightWhere
  induction rows with
  | nil => rfl
  | cons r rows ih =>
    by_cases h1 : p r <;> by_cases h2 : q r <;> simp_all [List.filter_cons, ind]

private theorem not_filter (rows : List Row) :
    negatives rows = rows.filter fun r => decide (¬ IsPos r) := by
  unfold negatives
  apply List.filter_congr
  intro r _
  by_cases h : IsPos r <;> simp [h]

private theorem ww_sum (p : Row → Prop) [DecidablePred p] (q : Row → Prop) [DecidablePred q] (rows : List Row) :
    weightWhere (fun r => p r ∧ q r) rows + weightWhere (fun r => p r ∧ ¬ q r) rows =
      ((rows.filter fun r => decide (p r)).map Row.weight).sum := by
  unfold weightWhere
  induction rows with
  | nil => simp
  | cons r rows ih =>
    by_cases h1 : p r <;> by_cases h2 : q r <;> simp_all [List.filter_cons] <;> linarith

/-- **C78.**  The area under the ROC curve of the matrices at ascending thresholds is a rank statistic: the weight of the pairs
of a negative and a positive example that some threshold separates in the right order, plus ½ (interpolation), 0 (minoring) or
1 (majoring) times the weight of the pairs no threshold separates, relative to the weight of all pairs. -/
theorem C78_roc (m : Summation) (ts : List Fl) (hs : AscendingThresholds ts) (rows : List Row) (h : BothClasses rows) :
    aucRoc m (matricesOf ts rows) =
      .fin (rankStatistic above (tieCredit m) ts Row.weight Row.weight (negatives rows) (positives rows)) := by
  apply auc_core above m ts _ Row.weight Row.weight _ _ _ h.neg h.pos (fun t => t) (fun t => matrixOf true t rows)
  · intro t _
    rw [not_filter]
    have := cell_sum (fun r => ¬ IsPos r) (fun r => Fl.lt t r.pred = true) rows
    simp only [Bool.decide_eq_true] at this
    exact this
  · intro t _
    rw [not_filter]
    exact ww_sum (fun r => ¬ IsPos r) (fun r => Fl.lt t r.pred = true) rows
  · intro t _
    have := cell_sum IsPos (fun r => Fl.lt t r.pred = true) rows
    simp only [Bool.decide_eq_true] at this
    exact this
  · intro t _
    exact ww_sum IsPos (fun r => Fl.lt t r.pred = true) rows
  · refine List.Pairwise.imp ?_ hs
    intro t t' htt e he
    exact lt_trans_fl htt he
  · intro e he
    exact h.nonneg e (List.mem_filter.1 he).1

/-- Over every execution: the area computed from the accumulated matrices is the rank statistic of all rows. -/
theorem C78_executions (m : Summation) (c : Config) (hf : c.fractional = true) (hs : AscendingThresholds c.thresholds)
    (data : List (Except Err Example)) (s : Sched _) (p : s.inputs.Perm data) :
    (((combiner c).run s).bind fun a => toMatrices (extract c a) c.thresholds).toOption.map (fun l => aucRoc m (l.map Prod.fst)) =
      (allOk data).map fun xs => aucRoc m (matricesOf c.thresholds (xs.map Example.rows).flatten) := by
  have hn : c.thresholds.Nodup := by
    refine List.Pairwise.imp ?_ hs
    intro a b hab e
    subst e
    unfold Fl.lt at hab
    cases a <;> simp [Fl.le] at hab
  have h := C17_matrices c hn data s p
  rw [hf] at h
  have := congrArg (Option.map (aucRoc m)) h
  rw [Option.map_map, Option.map_map] at this
  exact this

section
variable (ts : List Fl) (rows : List Row)

/-- **C78** (range): between 0 and 1. -/
theorem C78_range (m : Summation) (hs : AscendingThresholds ts) (h : BothClasses rows) :
    ∃ q, aucRoc m (matricesOf ts rows) = .fin q ∧ 0 ≤ q ∧ q ≤ 1 := by
  refine ⟨_, C78_roc m ts hs rows h, ?_⟩
  have hn : ∀ e ∈ negatives rows, 0 ≤ e.weight := fun e he => h.nonneg e (List.mem_filter.1 he).1
  have hp : ∀ e ∈ positives rows, 0 ≤ e.weight := fun e he => h.nonneg e (List.mem_filter.1 he).1
  have hc := fun j i => credit_range above (c := tieCredit m) (by cases m <;> norm_num [tieCredit])
    (by cases m <;> norm_num [tieCredit]) ts j i
  unfold rankStatistic
  have hd := mul_pos h.neg h.pos
  constructor
  · apply div_nonneg _ (le_of_lt hd)
    apply sum_nonneg'
    intro j hj
    apply sum_nonneg'
    intro i hi
    exact mul_nonneg (mul_nonneg (hn j hj) (hp i hi)) (hc j i).1
  · rw [div_le_one hd, ← pairs_const]
    apply sum_le'
    intro j hj
    apply sum_le'
    intro i hi
    exact mul_le_of_le_one_right (mul_nonneg (hn j hj) (hp i hi)) (hc j i).2

/-- The usual definition: the weighted share of pairs ranked in the right order, ties counting one half. -/
def trueAuc (rows : List Row) : ℚ :=
  ((negatives rows).map fun j => ((positives rows).map fun i => j.weight * i.weight *
    (if Fl.lt j.pred i.pred then 1 else if Fl.lt i.pred j.pred then 0 else 1 / 2)).sum).sum /
  (((negatives rows).map Row.weight).sum * ((positives rows).map Row.weight).sum)

/-- The thresholds reach below and above all predictions. -/
def Covers : Prop := ∀ r ∈ rows, (∃ t ∈ ts, Fl.lt t r.pred = true) ∧ ∃ t ∈ ts, Fl.lt t r.pred = false

private theorem sep {t p q : Fl} (hp : p ≠ .nan) (ht : t ≠ .nan) (h1 : Fl.lt t p = false) (h2 : Fl.lt t q = true) :
    Fl.lt p q = true ∧ Fl.lt q p = false := by
  unfold Fl.lt at *
  cases p <;> cases q <;> cases t <;> simp [Fl.le] at h1 h2 hp ht ⊢ <;>
    first | (constructor <;> intros <;> linarith [h2.1, h2.2]) | skip
  rename_i p q t
  have hpt : p ≤ t := by
    by_contra hc
    push Not at hc
    exact absurd (h1 (le_of_lt hc)) (by linarith)
  exact ⟨⟨by linarith [h2.1], by linarith [h2.2]⟩, fun h => by linarith [h2.2]⟩

private theorem asc_not_nan {ts : List Fl} (hs : AscendingThresholds ts) {t u : Fl} (ht : t ∈ ts) (hu : u ∈ ts) (hne : t ≠ u) : t ≠ .nan := by
  unfold AscendingThresholds at hs
  induction ts with
  | nil => cases ht
  | cons a ts ih =>
    rw [List.pairwise_cons] at hs
    rintro rfl
    rcases List.mem_cons.1 ht with e | ht'
    · subst e
      rcases List.mem_cons.1 hu with rfl | hu
      · exact hne rfl
      · have := hs.1 u hu
        simp [Fl.lt, Fl.le] at this
    · rcases List.mem_cons.1 hu with rfl | hu'
      · have := hs.1 _ ht'
        unfold Fl.lt at this
        cases u <;> simp [Fl.le] at this
      · exact ih hs.2 ht' hu' rfl

private theorem lt_not_nan {t p : Fl} (h : Fl.lt t p = true) : p ≠ .nan := by
  rintro rfl
  unfold Fl.lt at h
  cases t <;> simp [Fl.le] at h

/-- What a pair is worth in the usual definition. -/
def trueCredit (j i : Row) : ℚ := if Fl.lt j.pred i.pred then 1 else if Fl.lt i.pred j.pred then 0 else 1 / 2

private theorem credit_covered {ts : List Fl} {j i : Row} (hs : AscendingThresholds ts)
    (hj : (∃ t ∈ ts, Fl.lt t j.pred = true) ∧ ∃ t ∈ ts, Fl.lt t j.pred = false) (hi : i.pred ≠ .nan) (c : ℚ) :
    (credit above c ts j i = 1 ∧ Fl.lt j.pred i.pred = true) ∨
    (credit above c ts j i = 0 ∧ Fl.lt j.pred i.pred = false ∧ Fl.lt i.pred j.pred = true) ∨
    (credit above c ts j i = c ∧ (∀ t ∈ ts, Fl.lt t j.pred = Fl.lt t i.pred)) := by
  have hnan : ∀ t ∈ ts, t ≠ .nan := by
    intro t ht
    obtain ⟨⟨a, ha, ha'⟩, ⟨b, hb, hb'⟩⟩ := hj
    by_cases e : t = a
    · exact asc_not_nan hs ht hb (by rintro rfl; rw [e] at hb'; rw [ha'] at hb'; cases hb')
    · exact asc_not_nan hs ht ha e
  have hjn : j.pred ≠ .nan := by obtain ⟨⟨a, _, ha'⟩, _⟩ := hj; exact lt_not_nan ha'
  have e : credit above c ts j i = if ∃ t ∈ ts, above t j = false ∧ above t i = true then 1
      else if ∃ t ∈ ts, above t j = true ∧ above t i = false then 0 else c := if_pos hj
  rw [e]
  by_cases c1 : ∃ t ∈ ts, above t j = false ∧ above t i = true
  · obtain ⟨t, ht, ha, hb⟩ := id c1
    exact .inl ⟨if_pos c1, (sep hjn (hnan t ht) ha hb).1⟩
  · rw [if_neg c1]
    right
    by_cases c2 : ∃ t ∈ ts, above t j = true ∧ above t i = false
    · obtain ⟨t, ht, ha, hb⟩ := id c2
      obtain ⟨e1, e2⟩ := sep hi (hnan t ht) hb ha
      exact .inl ⟨if_pos c2, e2, e1⟩
    · refine .inr ⟨if_neg c2, ?_⟩
      intro t ht
      push Not at c1 c2
      have a1 := c1 t ht
      have a2 := c2 t ht
      change Fl.lt t j.pred = false → Fl.lt t i.pred ≠ true at a1
      change Fl.lt t j.pred = true → Fl.lt t i.pred ≠ false at a2
      cases hx : Fl.lt t j.pred <;> cases hy : Fl.lt t i.pred <;> simp_all

private theorem true_range (j i : Row) : 0 ≤ trueCredit j i ∧ trueCredit j i ≤ 1 := by
  unfold trueCredit
  split
  · norm_num
  · split <;> norm_num

private theorem rank_le_true {ts : List Fl} {rows : List Row} (h : BothClasses rows) {c : ℚ}
    (hc : ∀ j ∈ rows, ∀ i ∈ rows, credit above c ts j i ≤ trueCredit j i) :
    rankStatistic above c ts Row.weight Row.weight (negatives rows) (positives rows) ≤ trueAuc rows := by
  unfold rankStatistic trueAuc
  apply div_le_div_of_nonneg_right _ (le_of_lt (mul_pos h.neg h.pos))
  apply sum_le'
  intro j hj
  apply sum_le'
  intro i hi
  have hj := (List.mem_filter.1 hj).1
  have hi := (List.mem_filter.1 hi).1
  exact mul_le_mul_of_nonneg_left (hc j hj i hi) (mul_nonneg (h.nonneg j hj) (h.nonneg i hi))

private theorem true_le_rank {ts : List Fl} {rows : List Row} (h : BothClasses rows) {c : ℚ}
    (hc : ∀ j ∈ rows, ∀ i ∈ rows, trueCredit j i ≤ credit above c ts j i) :
    trueAuc rows ≤ rankStatistic above c ts Row.weight Row.weight (negatives rows) (positives rows) := by
  unfold rankStatistic trueAuc
  apply div_le_div_of_nonneg_right _ (le_of_lt (mul_pos h.neg h.pos))
  apply sum_le'
  intro j hj
  apply sum_le'
  intro i hi
  have hj := (List.mem_filter.1 hj).1
  have hi := (List.mem_filter.1 hi).1
  exact mul_le_mul_of_nonneg_left (hc j hj i hi) (mul_nonneg (h.nonneg j hj) (h.nonneg i hi))

/-- **C78** (bounds): when the thresholds reach below and above all predictions, minoring gives a lower and majoring an upper
bound of the area under the exact ROC curve, and interpolation lies between the two. -/
theorem C78_bounds (hs : AscendingThresholds ts) (h : BothClasses rows) (hc : Covers ts rows) :
    ∃ lo mid hi, aucRoc .minoring (matricesOf ts rows) = .fin lo ∧ aucRoc .interpolation (matricesOf ts rows) = .fin mid ∧
      aucRoc .majoring (matricesOf ts rows) = .fin hi ∧ lo ≤ trueAuc rows ∧ trueAuc rows ≤ hi ∧ lo ≤ mid ∧ mid ≤ hi := by
  have hn : ∀ e ∈ negatives rows, 0 ≤ e.weight := fun e he => h.nonneg e (List.mem_filter.1 he).1
  have hp : ∀ e ∈ positives rows, 0 ≤ e.weight := fun e he => h.nonneg e (List.mem_filter.1 he).1
  refine ⟨_, _, _, C78_roc _ ts hs rows h, C78_roc _ ts hs rows h, C78_roc _ ts hs rows h, ?_, ?_, ?_, ?_⟩
  · apply rank_le_true h
    intro j hj i hi
    obtain ⟨⟨a, _, ha⟩, _⟩ := hc i hi
    rcases credit_covered hs (hc j hj) (lt_not_nan ha) (tieCredit .minoring) with ⟨e, h1⟩ | ⟨e, _⟩ | ⟨e, _⟩
    · rw [e]; simp [trueCredit, h1]
    · rw [e]; exact (true_range j i).1
    · rw [e]; exact (true_range j i).1
  · apply true_le_rank h
    intro j hj i hi
    obtain ⟨⟨a, _, ha⟩, _⟩ := hc i hi
    rcases credit_covered hs (hc j hj) (lt_not_nan ha) (tieCredit .majoring) with ⟨e, _⟩ | ⟨e, h1, h2⟩ | ⟨e, _⟩
    · rw [e]; exact (true_range j i).2
    · rw [e]; simp [trueCredit, h1, h2]
    · rw [e]; exact (true_range j i).2
  · exact rank_le above hn hp fun j _ i _ => credit_mono above (by norm_num [tieCredit]) ts j i
  · exact rank_le above hn hp fun j _ i _ => credit_mono above (by norm_num [tieCredit]) ts j i

/-- **C78** (exactness): when moreover some threshold lies between any two different predictions, the interpolated area is the
area under the exact ROC curve. -/
theorem C78_exact (hs : AscendingThresholds ts) (h : BothClasses rows) (hc : Covers ts rows)
    (hsep : ∀ r ∈ rows, ∀ r' ∈ rows, Fl.lt r.pred r'.pred = true → ∃ t ∈ ts, Fl.lt t r.pred = false ∧ Fl.lt t r'.pred = true) :
    aucRoc .interpolation (matricesOf ts rows) = .fin (trueAuc rows) := by
  rw [C78_roc _ ts hs rows h]
  have key : ∀ j ∈ rows, ∀ i ∈ rows, credit above (tieCredit .interpolation) ts j i = trueCredit j i := by
    intro j hj i hi
    obtain ⟨⟨a, _, ha⟩, _⟩ := hc i hi
    rcases credit_covered hs (hc j hj) (lt_not_nan ha) (tieCredit .interpolation) with ⟨e, h1⟩ | ⟨e, h1, h2⟩ | ⟨e, h1⟩
    · rw [e]; simp [trueCredit, h1]
    · rw [e]; simp [trueCredit, h1, h2]
    · rw [e]
      have n1 : Fl.lt j.pred i.pred = false := by
        by_contra hcon
        obtain ⟨t, ht, a, b⟩ := hsep j hj i hi (by simpa using hcon)
        rw [h1 t ht, b] at a; cases a
      have n2 : Fl.lt i.pred j.pred = false := by
        by_contra hcon
        obtain ⟨t, ht, a, b⟩ := hsep i hi j hj (by simpa using hcon)
        rw [← h1 t ht, b] at a; cases a
      simp [trueCredit, n1, n2, tieCredit]
  congr 1
  exact le_antisymm (rank_le_true h fun j hj i hi => le_of_eq (key j hj i hi))
    (true_le_rank h fun j hj i hi => le_of_eq (key j hj i hi).symm)

/-- **C78** (perfect ranking): if a threshold separates every negative from every positive example, the area is 1 with every
method, provided the thresholds reach below the negatives. -/
theorem C78_perfect (m : Summation) (hs : AscendingThresholds ts) (h : BothClasses rows) (u : Fl) (hu : u ∈ ts)
    (hsep : ∀ r ∈ rows, Fl.lt u r.pred = decide (IsPos r))
    (hlow : ∀ r ∈ negatives rows, ∃ t ∈ ts, Fl.lt t r.pred = true) :
    aucRoc m (matricesOf ts rows) = .fin 1 := by
  rw [C78_roc m ts hs rows h]
  congr 1
  unfold rankStatistic
  rw [div_eq_one_iff_eq (ne_of_gt (mul_pos h.neg h.pos)), ← pairs_const]
  congr 1
  apply List.map_congr_left
  intro j hj
  congr 1
  apply List.map_congr_left
  intro i hi
  have hjn : Fl.lt u j.pred = false := by
    rw [hsep j (List.mem_filter.1 hj).1]
    simpa using (List.mem_filter.1 hj).2
  have hip : Fl.lt u i.pred = true := by
    rw [hsep i (List.mem_filter.1 hi).1]
    simpa using (List.mem_filter.1 hi).2
  have : credit above (tieCredit m) ts j i = 1 := by
    unfold credit
    rw [if_pos ⟨hlow j hj, ⟨u, hu, hjn⟩⟩]
    exact if_pos ⟨u, hu, hjn, hip⟩
  rw [this, mul_one]

/-- **C78** (one class): without weight in one of the classes the curve is undefined; the reported area is 0. -/
theorem C78_one_class (m : Summation) (hw : NonnegWeights rows)
    (h : ((negatives rows).map Row.weight).sum = 0 ∨ ((positives rows).map Row.weight).sum = 0) :
    aucRoc m (matricesOf ts rows) = .fin 0 := by
  have nn : ∀ (p : Row → Prop) [DecidablePred p], 0 ≤ weightWhere p rows := by
    intro p _
    unfold weightWhere
    apply sum_nonneg'
    intro e he
    exact hw e (List.mem_filter.1 he).1
  unfold aucRoc share matricesOf
  rw [List.map_map, List.map_map]
  apply area_nan
  rcases h with h | h
  · left
    intro t _
    have e := ww_sum (fun r => ¬ IsPos r) (fun r => Fl.lt t r.pred = true) rows
    rw [not_filter] at h
    rw [h] at e
    have a := nn (fun r => ¬ IsPos r ∧ Fl.lt t r.pred = true)
    have b := nn (fun r => ¬ IsPos r ∧ ¬ Fl.lt t r.pred = true)
    have e0 : weightWhere (fun r => ¬ IsPos r ∧ Fl.lt t r.pred = true) rows = 0 := by linarith
    have e1 : weightWhere (fun r => ¬ IsPos r ∧ ¬ Fl.lt t r.pred = true) rows = 0 := by linarith
    change Fl.div (.fin (weightWhere (fun r => ¬ IsPos r ∧ Fl.lt t r.pred = true) rows)) (.fin (weightWhere (fun r => ¬ IsPos r ∧ Fl.lt t r.pred = true) rows +
      weightWhere (fun r => ¬ IsPos r ∧ ¬ Fl.lt t r.pred = true) rows)) = _
    rw [e0, e1]
    simp [Fl.div]
  · right
    intro t _
    have e := ww_sum IsPos (fun r => Fl.lt t r.pred = true) rows
    change _ = ((positives rows).map Row.weight).sum at e
    rw [h] at e
    have a := nn (fun r => IsPos r ∧ Fl.lt t r.pred = true)
    have b := nn (fun r => IsPos r ∧ ¬ Fl.lt t r.pred = true)
    have e0 : weightWhere (fun r => IsPos r ∧ Fl.lt t r.pred = true) rows = 0 := by linarith
    have e1 : weightWhere (fun r => IsPos r ∧ ¬ Fl.lt t r.pred = true) rows = 0 := by linarith
    change Fl.div (.fin (weightWhere (fun r => IsPos r ∧ Fl.lt t r.pred = true) rows)) (.fin (weightWhere (fun r => IsPos r ∧ Fl.lt t r.pred = true) rows +
      weightWhere (fun r => IsPos r ∧ ¬ Fl.lt t r.pred = true) rows)) = _
    rw [e0, e1]
    simp [Fl.div]

end

/-- Non-vacuous: two positives and two negatives with a tie between the thresholds. -/
def rocRows : List Row :=
  [⟨.fin 1, .fin (9 / 10), 1⟩, ⟨.fin 1, .fin (1 / 2), 2⟩, ⟨.fin 0, .fin (1 / 2), 1⟩, ⟨.fin 0, .fin (1 / 10), 1⟩]

example : BothClasses rocRows ∧ AscendingThresholds [.fin (-1), .fin (1 / 4), .fin (3 / 4), .fin 2] ∧
    Covers [.fin (-1), .fin (1 / 4), .fin (3 / 4), .fin 2] rocRows ∧
    aucRoc .interpolation (matricesOf [.fin (-1), .fin (1 / 4), .fin (3 / 4), .fin 2] rocRows) = .fin (5 / 6) ∧
    aucRoc .minoring (matricesOf [.fin (-1), .fin (1 / 4), .fin (3 / 4), .fin 2] rocRows) = .fin (2 / 3) ∧
    aucRoc .majoring (matricesOf [.fin (-1), .fin (1 / 4), .fin (3 / 4), .fin 2] rocRows) = .fin 1 ∧
    trueAuc rocRows = 5 / 6 := by
  refine ⟨⟨by unfold NonnegWeights; decide +kernel, by decide +kernel, by decide +kernel⟩, ?_, ?_, by decide +kernel,
    by decide +kernel, by decide +kernel, by decide +kernel⟩
  · unfold AscendingThresholds; decide +kernel
  · unfold Covers; decide +kernel

/-- The documentation says that thresholds just below 0 and just above 1 are added to the given ones.  They are not, so with
thresholds [1/4, 3/4] a perfect classifier has area 0, also as an upper bound (majoring). -/
theorem C78_no_endpoints :
    aucRoc .interpolation (matricesOf [.fin (1 / 4), .fin (3 / 4)] [⟨.fin 1, .fin (9 / 10), 1⟩, ⟨.fin 0, .fin (1 / 10), 1⟩]) =
      .fin 0 ∧
    aucRoc .majoring (matricesOf [.fin (1 / 4), .fin (3 / 4)] [⟨.fin 1, .fin (9 / 10), 1⟩, ⟨.fin 0, .fin (1 / 10), 1⟩]) =
      .fin 0 ∧
    trueAuc [⟨.fin 1, .fin (9 / 10), 1⟩, ⟨.fin 0, .fin (1 / 10), 1⟩] = 1 := by
  refine ⟨by decide +kernel, by decide +kernel, by decide +kernel⟩

/-- Thresholds given in descending order give a negative area. -/
theorem C78_descending_negative :
    aucRoc .interpolation (matricesOf [.fin 2, .fin (1 / 2), .fin (-1)] [⟨.fin 1, .fin (9 / 10), 1⟩, ⟨.fin 0, .fin (1 / 10), 1⟩]) =
      .fin (-1) := by decide +kernel

/-! ### Matrices of the default histogram -/

/-- Counted as predicted positive at the `i`-th threshold when the matrices come from the default histogram (C54). -/
def histAbove (ts : List Fl) (i : ℕ) (e : Histogram.HExample) : Bool :=
  match ts, ts[i]? with
  | t0 :: _, some t => countsPositive t0 i t (gridBelow e.pred)
  | _, _ => false

/-- Weight counted as positive and as negative. -/
def posPart (e : Histogram.HExample) : ℚ := e.label * e.weight
def negPart (e : Histogram.HExample) : ℚ := e.weight - e.label * e.weight

private theorem le_trans_fl {a b c : Fl} (h1 : Fl.le a b = true) (h2 : Fl.le b c = true) : Fl.le a c = true := by
  cases a <;> cases b <;> cases c <;> simp [Fl.le] at h1 h2 ⊢
  exact le_trans h1 h2

private theorem le_of_lt_fl {a b : Fl} (h : Fl.lt a b = true) : Fl.le a b = true := by
  unfold Fl.lt at h
  cases a <;> cases b <;> simp [Fl.le] at h ⊢
  exact h.1

private theorem sum_sel {ε : Type} (l : List ε) (p : ε → Bool) (f : ε → ℚ) :
    ((l.filter p).map f).sum = (l.map fun e => f e * ind (p e)).sum := by
  induction l with
  | nil => rfl
  | cons e l ih =>
    rw [List.map_cons, List.sum_cons, ← ih]
    cases h : p e <;> simp [h, ind]

private theorem sum_split {ε : Type} (l : List ε) (p : ε → Bool) (f : ε → ℚ) :
    ((l.filter p).map f).sum + ((l.filter fun e => !p e).map f).sum = (l.map f).sum := by
  induction l with
  | nil => simp
  | cons e l ih => cases h : p e <;> simp [h, ← ih] <;> ring

/-- **C78** (default path): the area computed from the default histogram is the rank statistic in which two examples are told
apart only by the thresholds, their predictions rounded down to the grid. -/
theorem C78_histogram (m : Summation) (t0 : Fl) (rest : List Fl) (hu : Usable (t0 :: rest))
    (hs : ¬ (rest = [] ∧ Fl.lt t0 (.fin 0) = true))
    (hc : (∀ t ∈ t0 :: rest, ¬ AboveRange t) ∨ Fl.lt t0 (.fin 0) = true)
    (data : List Histogram.HExample) (hn : ∀ e ∈ data, e.pred ≠ .nan) (hp : ∀ e ∈ data, 0 ≤ posPart e)
    (hN : 0 < (data.map negPart).sum) (hP : 0 < (data.map posPart).sum) :
    ∃ c, histogramResult (t0 :: rest) (Histogram.histogramOf defaultConfig data) = .ok c ∧
      aucRoc m (c.rows (t0 :: rest)) =
        .fin (rankStatistic (histAbove (t0 :: rest)) (tieCredit m) (List.range (rest.length + 1)) negPart posPart data data) := by
  obtain ⟨c, h1, h2⟩ := C54_cells t0 rest hu hs hc data hn
  refine ⟨c, h1, ?_⟩
  have cells : ∀ i < rest.length + 1, CellsBy c i data (histAbove (t0 :: rest) i) := by
    intro i hi
    have hg : (t0 :: rest)[i]? = some (t0 :: rest)[i] := List.getElem?_eq_getElem hi
    have := h2 i _ hg
    have e : (fun e : Histogram.HExample => countsPositive t0 i (t0 :: rest)[i] (gridBelow e.pred)) =
        histAbove (t0 :: rest) i := by
      funext e
      unfold histAbove
      rw [hg]
    rwa [e] at this
  have hrows : c.rows (t0 :: rest) = (List.range (rest.length + 1)).map fun i => ((t0 :: rest).getD i .nan,
      (⟨c.tp.getD i 0, c.tn.getD i 0, c.fp.getD i 0, c.fn.getD i 0⟩ : Matrix)) := by
    apply List.ext_getElem?
    intro i
    unfold Cols.rows
    rw [List.getElem?_map, List.getElem?_map]
    by_cases hi : i < rest.length + 1
    · obtain ⟨a1, a2, a3, a4⟩ := cells i hi
      have hg : (t0 :: rest)[i]? = some (t0 :: rest)[i] := List.getElem?_eq_getElem hi
      rw [List.getElem?_range hi]
      have z1 := List.getElem?_zip_eq_some (l₁ := c.fp) (l₂ := c.fn) (i := i) (z := (_, _)) |>.2 ⟨a2, a4⟩
      have z2 := List.getElem?_zip_eq_some (l₁ := c.tn) (l₂ := c.fp.zip c.fn) (i := i) (z := (_, _)) |>.2 ⟨a3, z1⟩
      have z3 := List.getElem?_zip_eq_some (l₁ := c.tp) (l₂ := c.tn.zip (c.fp.zip c.fn)) (i := i) (z := (_, _)) |>.2 ⟨a1, z2⟩
      have z4 := List.getElem?_zip_eq_some (l₁ := t0 :: rest) (l₂ := c.tp.zip (c.tn.zip (c.fp.zip c.fn))) (i := i)
        (z := (_, _)) |>.2 ⟨hg, z3⟩
      rw [z4]
      simp only [Option.map_some, List.getD_eq_getElem?_getD, hg, a1, a2, a3, a4, Option.getD_some]
      rfl
    · have e1 : (List.range (rest.length + 1))[i]? = none := by
        rw [List.getElem?_eq_none]; simpa using hi
      have e2 : ((t0 :: rest).zip (c.tp.zip (c.tn.zip (c.fp.zip c.fn))))[i]? = none := by
        rw [List.getElem?_eq_none]
        rw [List.length_zip]
        have : (t0 :: rest).length ≤ i := by simpa using hi
        omega
      rw [e1, e2]; rfl
  rw [hrows]
  apply auc_core (histAbove (t0 :: rest)) m _ _ negPart posPart data data hp hN hP
  · intro i hi
    obtain ⟨a1, a2, a3, a4⟩ := cells i (by simpa using hi)
    simp only [List.getD_eq_getElem?_getD, a2, Option.getD_some]
    exact sum_sel _ _ _
  · intro i hi
    obtain ⟨a1, a2, a3, a4⟩ := cells i (by simpa using hi)
    simp only [List.getD_eq_getElem?_getD, a2, a3, Option.getD_some]
    exact sum_split _ _ _
  · intro i hi
    obtain ⟨a1, a2, a3, a4⟩ := cells i (by simpa using hi)
    simp only [List.getD_eq_getElem?_getD, a1, Option.getD_some]
    exact sum_sel _ _ _
  · intro i hi
    obtain ⟨a1, a2, a3, a4⟩ := cells i (by simpa using hi)
    simp only [List.getD_eq_getElem?_getD, a1, a4, Option.getD_some]
    exact sum_split _ _ _
  · rw [List.pairwise_iff_forall_sublist]
    intro i i' hsub e he
    have hlt : i < i' := List.pairwise_iff_forall_sublist.1 List.pairwise_lt_range hsub
    have hi' : i' < rest.length + 1 := by
      have : i' ∈ List.range (rest.length + 1) := hsub.subset (by simp)
      simpa using this
    have hi : i < rest.length + 1 := by omega
    have g : (t0 :: rest)[i]? = some (t0 :: rest)[i] := List.getElem?_eq_getElem hi
    have g' : (t0 :: rest)[i']? = some (t0 :: rest)[i'] := List.getElem?_eq_getElem hi'
    unfold histAbove at he ⊢
    rw [g'] at he
    rw [g]
    simp only at he ⊢
    have hlt' : Fl.lt (t0 :: rest)[i] (t0 :: rest)[i'] = true := List.pairwise_iff_getElem.1 hu.ascending i i' hi hi' hlt
    unfold countsPositive at he ⊢
    have h0 : (i' == 0) = false := by simp; omega
    rw [h0] at he
    simp only [Bool.false_and, Bool.false_or, Bool.and_eq_true, Bool.not_eq_true'] at he
    rw [Bool.and_eq_true]
    constructor
    · rw [Bool.not_eq_true']
      by_contra hcon
      rw [le_trans_fl (by simpa using hcon) (le_of_lt_fl hlt')] at he
      cases he.1
    · have := le_trans_fl (corrected_mono hlt' (fun q hq hneg => hu.gap q (by rw [← hq]; exact List.getElem_mem hi) hneg)) he.2
      rw [this, Bool.or_true]

/-- Non-vacuous: the thresholds used for `num_thresholds = 4` meet the hypotheses. -/
example : let ts : List Fl := [.fin (-1 / 10000000), .fin (1 / 3), .fin (2 / 3), .fin (1 + 1 / 10000000)]
    let data : List Histogram.HExample := [⟨1, .fin (9 / 10), 1⟩, ⟨1, .fin (1 / 2), 2⟩, ⟨0, .fin (2 / 5), 1⟩, ⟨0, .fin (1 / 10), 1⟩]
    Usable ts ∧ (∀ e ∈ data, 0 ≤ posPart e) ∧ 0 < (data.map negPart).sum ∧ 0 < (data.map posPart).sum ∧
    rankStatistic (histAbove ts) (1 / 2) (List.range 4) negPart posPart data data = 5 / 6 := by
  refine ⟨⟨by decide +kernel, by decide +kernel, ?_⟩, by decide +kernel, by decide +kernel, by decide +kernel, by decide +kernel⟩
  intro q hq h0
  simp only [List.mem_cons, List.not_mem_nil, or_false, Fl.fin.injEq] at hq
  rcases hq with rfl | rfl | rfl | rfl <;> norm_num at h0
  norm_num

end Bcm
end TFMA
