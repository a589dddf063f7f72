import Verif.Model.KerasMatrices
import Verif.Props.MatrixSetup
import Verif.Props.HistogramMatrices
import Verif.Props.ConfusionMatrices

/-!
# C136: Keras metrics computed from confusion matrices have the value Keras gives them
-/

namespace TFMA
namespace KerasMatrices

open Beam MetricKeys MatrixSetup

variable {V : Type}

/-! ### Specification -/

/-- A label, a prediction and its weight. -/
structure Ex where
  label : Bool
  pred : Fl
  weight : ℚ
  deriving DecidableEq

/-- The weight of the examples with the label which are predicted positive, i.e. exceed the threshold (or are not). -/
def counter (label predicted : Bool) (exs : List Ex) (t : Fl) : ℚ :=
  ((exs.filter fun e => e.label == label && Fl.lt t e.pred == predicted).map Ex.weight).sum

/-- The variables of a Keras metric with these thresholds after it was updated with the examples. -/
def kerasState (c : Cls) (ts : List Fl) (exs : List Ex) : Variables :=
  let tp := ts.map (counter true true exs)
  let fp := ts.map (counter false true exs)
  let fn := ts.map (counter true false exs)
  let tn := ts.map (counter false false exs)
  match c with
  | .auc | .specificityAtSensitivity | .sensitivityAtSpecificity => .four tp tn fp fn
  | .precision => .precision tp fp
  | .recall => .recall tp fn
  | .truePositives => .one tp
  | .falsePositives => .one fp
  | .trueNegatives => .one tn
  | .falseNegatives => .one fn

/-- How the histogram combiner gets an example. -/
def Ex.forHistogram (e : Ex) : Histogram.HExample := ⟨if e.label then 1 else 0, e.pred, e.weight⟩

/-- How the counting combiner gets it. -/
def Ex.forCounts (e : Ex) : Bcm.Row := ⟨.fin (if e.label then 1 else 0), e.pred, e.weight⟩

/-- The data are these examples, in some order and bundled in any way. -/
structure Holds (d : Data) (data : List (List Ex)) : Prop where
  histogram : d.histogram.inputs.Perm (data.map fun x => .ok (x.map Ex.forHistogram))
  counts : d.counts.inputs.Perm (data.map fun x => .ok ⟨x.map Ex.forCounts, none⟩)

/-- The example with its prediction rounded down to a multiple of 1/10000. -/
def Ex.rounded (e : Ex) : Ex :=
  { e with pred := match e.pred with
      | .fin q => .fin (⌊q * 10000⌋ / 10000)
      | p => p }

/-- The prediction is a probability. -/
def Probability (e : Ex) : Prop := ∃ q : ℚ, 0 ≤ q ∧ q ≤ 1 ∧ e.pred = .fin q

/-- The sub key of the metric: the class it names, which must be the one asked for, or what was asked for. -/
inductive SubKeyIs : Option SubKey → Option ℤ → Option SubKey → Prop where
  | asked (s : Option SubKey) : SubKeyIs s none s
  | named (i : ℤ) : SubKeyIs none (some i) (some ⟨some i, none, none⟩)
  | both (i : ℤ) (k t : Option ℤ) : SubKeyIs (some ⟨some i, k, t⟩) (some i) (some ⟨some i, none, none⟩)

/-- The key of the value. -/
def keyFor (c : Call) (m : Metric) (sub : Option SubKey) : MetricKey :=
  ⟨m.name, c.modelName, c.outputName, sub, c.aggregationType, some c.exampleWeighted, false⟩

/-- Settings of AUC the evaluation refuses: weights in two places, and multi label mode. -/
def Refused (c : Call) (m : Metric) : Prop :=
  m.cls = .auc ∧ (m.multiLabel = true ∨ ((∃ w, m.labelWeights = some w ∧ w ≠ []) ∧ ∃ w, c.classWeights = some w ∧ w ≠ []))

/-! ### Helpers -/

private theorem ok_toOption {α : Type} {x : Except Err α} {v : α} (h : x.toOption = some v) : x = .ok v := by
  cases x with
  | error e => cases h
  | ok a => exact congrArg _ (Option.some.inj h)

private theorem subKeyOf_iff (sub : Option SubKey) (i : Option ℤ) (s : Option SubKey) :
    subKeyOf sub i = .ok s ↔ SubKeyIs sub i s := by
  constructor
  · intro h
    cases i with
    | none =>
      cases sub <;> (cases h; exact .asked _)
    | some i =>
      cases sub with
      | none => cases h; exact .named i
      | some k =>
        obtain ⟨c, k, t⟩ := k
        simp only [subKeyOf] at h
        by_cases hc : c = some i
        · subst hc
          rw [if_neg (by simp)] at h
          cases h
          exact .both i k t
        · rw [if_pos hc] at h
          cases h
  · rintro (_ | _ | _)
    · cases sub <;> rfl
    · rfl
    · simp [subKeyOf, SubKey.new, Except.map]

private theorem weights_ok (c : Call) (m : Metric) (h : ¬ Refused c m) : ∃ w, classWeightsOf c m = .ok w := by
  unfold classWeightsOf
  by_cases ha : m.cls = .auc
  · have hm : m.multiLabel = false := by
      by_contra hm
      exact h ⟨ha, .inl (by simpa using hm)⟩
    rw [if_pos ha]
    rcases hl : m.labelWeights with _ | _ | ⟨w, ws⟩
    · exact ⟨_, by simp [hm]; rfl⟩
    · exact ⟨_, by simp [hm]; rfl⟩
    · have : (keepWeights c.classWeights).isSome = false := by
        rcases hc : c.classWeights with _ | _ | ⟨x, xs⟩
        · rfl
        · rfl
        · exact (h ⟨ha, .inr ⟨⟨_, hl, by simp⟩, ⟨_, hc, by simp⟩⟩⟩).elim
      exact ⟨_, by simp [hm, this]; rfl⟩
  · exact ⟨_, if_neg ha⟩

private theorem filter_sum_map {α β : Type} (l : List α) (f : α → β) (p : β → Bool) (g : β → ℚ) :
    ((l.map f).filter p |>.map g).sum = ((l.filter fun x => p (f x)).map fun x => g (f x)).sum := by
  rw [List.filter_map, List.map_map]; rfl

private theorem matrixOf_counts (t : Fl) (exs : List Ex) :
    Bcm.matrixOf true t (exs.map Ex.forCounts) =
      ⟨counter true true exs t, counter false false exs t, counter false true exs t, counter true false exs t⟩ := by
  have hl : ∀ e : Ex, Bcm.LabelPos true t e.forCounts.label ↔ e.label = true := by
    intro e
    unfold Bcm.LabelPos Ex.forCounts
    cases e.label <;> simp
  unfold Bcm.matrixOf Bcm.weightWhere
  simp only [filter_sum_map]
  congr 1 <;>
    · unfold counter
      refine congrArg List.sum ?_
      refine congrArg₂ _ rfl (List.filter_congr fun e _ => ?_)
      rw [Bool.eq_iff_iff]
      simp only [decide_eq_true_eq, hl]
      have : e.forCounts.pred = e.pred := rfl
      rw [this]
      cases e.label <;> cases Fl.lt t e.pred <;> simp

private theorem flat_counts (data : List (List Ex)) :
    ((data.map fun x : List Ex => (⟨x.map Ex.forCounts, none⟩ : Bcm.Example)).map Bcm.Example.rows).flatten =
      data.flatten.map Ex.forCounts := by
  induction data with
  | nil => rfl
  | cons x xs ih => simp only [List.map_cons, List.flatten_cons, List.map_append, ih]

private theorem allOk_ok {α : Type} (l : List α) : Bcm.allOk (l.map (Except.ok : α → Except Err α)) = some l := by
  unfold Bcm.allOk
  induction l with
  | nil => rfl
  | cons a l ih =>
    rw [List.map_cons]
    simp only [Combiners.collect, Except.toOption] at ih ⊢
    simp [ih]

/-- The counting branch yields the exact counts. -/
private theorem counted (r : Request) (ts : List Fl) (hc : choose r.num r.thresholds = .ok (none, ts))
    (hn : ts.Nodup) (hs : ¬ ∃ t, ts = [t] ∧ Fl.lt t (.fin 0) = true)
    (hr : r.useHistogram = none ∧ r.examplesName = none ∧ r.idKey = none ∧ r.idsCount = none ∧ r.fractional = true)
    (d : Data) (data : List (List Ex)) (hd : Holds d data) :
    ∃ cs, computations r = .ok cs ∧
      matrices cs d = .ok ⟨ts.map (counter true true data.flatten), ts.map (counter false true data.flatten),
        ts.map (counter false false data.flatten), ts.map (counter true false data.flatten)⟩ := by
  obtain ⟨h1, h2, h3, h4, h5⟩ := hr
  have hh : histogramDefault none ts = false := by
    unfold histogramDefault
    rcases ts with _ | ⟨t, _ | ⟨t', l⟩⟩
    · rfl
    · simp only [Option.isSome_none, Bool.false_or]
      by_contra h
      exact hs ⟨t, rfl, by simpa using h⟩
    · rfl
  refine ⟨[countsComp r (names r none ts).1 ts, fromCountsComp r (names r none ts) ts], ?_, ?_⟩
  · simp [computations, hc, build, h1, h2, h3, h4, hh, truthyText, truthyInt]
  · have h := Bcm.C17_matrices ⟨ts, 100, true⟩ hn
      ((data.map fun x : List Ex => (⟨x.map Ex.forCounts, none⟩ : Bcm.Example)).map .ok) d.counts
      (by rw [List.map_map]; exact hd.counts)
    rw [allOk_ok, Option.map_some, flat_counts] at h
    simp only [matrices, countsComp, fromCountsComp, List.map_cons, List.map_nil, h4, h5, Option.getD_none]
    have e100 : (100 : ℤ).toNat = 100 := rfl
    rw [e100]
    cases hrun : (Bcm.combiner ⟨ts, 100, true⟩).run d.counts with
    | error e => rw [hrun] at h; cases h
    | ok a =>
      rw [hrun] at h
      simp only [Except.bind] at h
      cases hm : Bcm.toMatrices (Bcm.extract ⟨ts, 100, true⟩ a) ts with
      | error e => rw [hm] at h; cases h
      | ok rows =>
        rw [hm] at h
        have h' := Option.some.inj h
        simp only [bind, Except.bind, hm, pure, Except.pure, columns, Except.ok.injEq]
        have : (rows.map fun r => r.1.2) = ts.map fun t => Bcm.matrixOf true t (data.flatten.map Ex.forCounts) := by
          have := congrArg (List.map Prod.snd) h'
          simpa [List.map_map, Function.comp_def] using this
        rw [this]
        simp only [List.map_map, Function.comp_def, matrixOf_counts]

/-! ### Helpers: the histogram -/

private theorem fixAbove_lengths (ts : List Fl) (i : ℕ) (c c' : Bcm.Cols) (h : Bcm.fixAbove i ts c = .ok c') :
    c'.tp.length = c.tp.length ∧ c'.fp.length = c.fp.length ∧ c'.tn.length = c.tn.length ∧ c'.fn.length = c.fn.length := by
  induction ts generalizing i c with
  | nil => cases h; exact ⟨rfl, rfl, rfl, rfl⟩
  | cons t ts ih =>
    have hset : ∀ (l : List ℚ) (i : ℕ) (v : ℚ) (l' : List ℚ), Bcm.setAt l i v = .ok l' → l'.length = l.length := by
      intro l i v l' h
      unfold Bcm.setAt at h
      split at h
      · cases h; simp
      · cases h
    simp only [Bcm.fixAbove] at h
    split at h
    · simp only [bind, Except.bind] at h
      repeat (split at h; · cases h)
      have := ih _ _ h
      simp only at this
      refine ⟨this.1.trans (hset _ _ _ _ (by assumption)), this.2.1.trans (hset _ _ _ _ (by assumption)),
        this.2.2.1.trans (hset _ _ _ _ (by assumption)), this.2.2.2.trans (hset _ _ _ _ (by assumption))⟩
    · exact ih _ _ h

private theorem result_lengths (t0 : Fl) (rest : List Fl) (h : List Histogram.Bucket) (c : Bcm.Cols)
    (hc : Bcm.histogramResult (t0 :: rest) h = .ok c) :
    c.tp.length ≤ (t0 :: rest).length ∧ c.fp.length ≤ (t0 :: rest).length ∧ c.tn.length ≤ (t0 :: rest).length ∧
      c.fn.length ≤ (t0 :: rest).length := by
  have key : ∀ h, Bcm.histogramToMatrices (t0 :: rest) h = .ok c → c.tp.length ≤ (t0 :: rest).length ∧
      c.fp.length ≤ (t0 :: rest).length ∧ c.tn.length ≤ (t0 :: rest).length ∧ c.fn.length ≤ (t0 :: rest).length := by
    intro h hc
    have := fixAbove_lengths _ _ _ _ hc
    simp only [List.length_take] at this
    omega
  simp only [Bcm.histogramResult] at hc
  split at hc
  · exact key _ hc
  · exact key _ hc

private theorem list_eq (ts : List Fl) (l : List ℚ) (f : Fl → ℚ) (hl : l.length ≤ ts.length)
    (h : ∀ (i : ℕ) (t : Fl), ts[i]? = some t → l[i]? = some (f t)) : l = ts.map f := by
  refine List.ext_getElem? fun i => ?_
  rw [List.getElem?_map]
  cases ht : ts[i]? with
  | none =>
    rw [Option.map_none]
    exact List.getElem?_eq_none (le_trans hl (List.getElem?_eq_none_iff.1 ht))
  | some t => exact h i t ht

private theorem hist_counter (t : Fl) (sel : Histogram.HExample → Bool) (g : Ex → Ex)
    (hg : ∀ e, (g e).label = e.label ∧ (g e).weight = e.weight) (exs : List Ex)
    (hsel : ∀ e ∈ exs, sel e.forHistogram = Fl.lt t (g e).pred) :
    ((((exs.map Ex.forHistogram).filter sel).map fun e => e.label * e.weight).sum = counter true true (exs.map g) t) ∧
    ((((exs.map Ex.forHistogram).filter sel).map fun e => e.weight - e.label * e.weight).sum =
      counter false true (exs.map g) t) ∧
    ((((exs.map Ex.forHistogram).filter fun e => !sel e).map fun e => e.weight - e.label * e.weight).sum =
      counter false false (exs.map g) t) ∧
    ((((exs.map Ex.forHistogram).filter fun e => !sel e).map fun e => e.label * e.weight).sum =
      counter true false (exs.map g) t) := by
  induction exs with
  | nil => exact ⟨rfl, rfl, rfl, rfl⟩
  | cons e exs ih =>
    obtain ⟨i1, i2, i3, i4⟩ := ih fun x hx => hsel x (List.mem_cons_of_mem _ hx)
    have he := hsel e List.mem_cons_self
    have hcons : ∀ a b, counter a b ((e :: exs).map g) t =
        (if e.label == a && Fl.lt t (g e).pred == b then e.weight else 0) + counter a b (exs.map g) t := by
      intro a b
      unfold counter
      rw [List.map_cons, List.filter_cons, (hg e).1]
      split <;> simp [(hg e).2]
    rw [hcons, hcons, hcons, hcons, ← i1, ← i2, ← i3, ← i4]
    simp only [List.map_cons, List.filter_cons, he]
    cases hl : e.label <;> cases Fl.lt t (g e).pred <;> simp [Ex.forHistogram, hl]

private theorem spaced_two (n : ℕ) (l : List Fl) (h : EvenlySpaced n l) : 2 ≤ n := by
  rcases n with _ | _ | n
  · have h1 := h.length
    have h2 := h.first
    rw [List.length_eq_zero_iff.1 h1] at h2
    cases h2
  · have h1 := h.first
    have h2 := h.last
    rw [h1] at h2
    norm_num at h2
  · omega

private theorem spaced_get (n : ℕ) (l : List Fl) (h : EvenlySpaced n l) (i : ℕ) (t : Fl) (ht : l[i]? = some t) :
    (i = 0 ∧ t = .fin (-(1 / 10000000))) ∨ (0 < i ∧ i < n - 1 ∧ t = .fin ((i : ℚ) / ((n : ℚ) - 1))) ∨
      (i = n - 1 ∧ 0 < i ∧ t = .fin (1 + 1 / 10000000)) := by
  have hn := spaced_two n l h
  have hi : i < n := h.length ▸ (List.getElem?_eq_some_iff.1 ht).1
  rcases Nat.eq_zero_or_pos i with rfl | h0
  · rw [h.first] at ht; exact .inl ⟨rfl, (Option.some.inj ht).symm⟩
  · rcases Nat.lt_or_ge i (n - 1) with h1 | h1
    · rw [h.inner i h0 h1] at ht; exact .inr (.inl ⟨h0, h1, (Option.some.inj ht).symm⟩)
    · have : i = n - 1 := by omega
      subst this
      rw [h.last] at ht; exact .inr (.inr ⟨rfl, h0, (Option.some.inj ht).symm⟩)

private theorem spaced_usable (n : ℕ) (l : List Fl) (h : EvenlySpaced n l) : Bcm.Usable l := by
  have hn := spaced_two n l h
  have hq : (0 : ℚ) < (n : ℚ) - 1 := by
    have : (2 : ℚ) ≤ n := by exact_mod_cast hn
    linarith
  refine ⟨?_, ?_, ?_⟩
  · rw [List.pairwise_iff_getElem]
    intro i j hi hj hij
    exact C88_ascending n l h i j hij _ _ (List.getElem?_eq_getElem hi) (List.getElem?_eq_getElem hj)
  · intro t ht
    obtain ⟨i, hi⟩ := List.getElem?_of_mem ht
    rcases spaced_get n l h i t hi with ⟨_, rfl⟩ | ⟨_, _, rfl⟩ | ⟨_, _, rfl⟩ <;> simp
  · intro q ht h0
    obtain ⟨i, hi⟩ := List.getElem?_of_mem ht
    rcases spaced_get n l h i _ hi with ⟨_, e⟩ | ⟨_, _, e⟩ | ⟨_, _, e⟩
    · cases e; exact le_refl _
    · cases e
      exfalso
      have : (0 : ℚ) ≤ (i : ℚ) / ((n : ℚ) - 1) := div_nonneg (by positivity) hq.le
      linarith
    · cases e; norm_num at h0

private theorem lt_fin (a b : ℚ) : Fl.lt (.fin a) (.fin b) = decide (a < b) := by
  rw [Bool.eq_iff_iff]
  simp only [Fl.lt, Fl.le, Bool.and_eq_true, decide_eq_true_eq, Bool.not_eq_true', decide_eq_false_iff_not, not_le]
  exact ⟨fun h => h.2, fun h => ⟨h.le, h⟩⟩

private theorem spaced_counts (n : ℕ) (hn1 : n ≤ 1001) (l : List Fl) (h : EvenlySpaced n l) (i : ℕ) (t : Fl)
    (ht : l[i]? = some t) (q : ℚ) (h0 : 0 ≤ q) (h1 : q ≤ 1) :
    Bcm.countsPositive (.fin (-(1 / 10000000))) i t (Bcm.gridBelow (.fin q)) = Fl.lt t (.fin (⌊q * 10000⌋ / 10000)) := by
  have hn := spaced_two n l h
  have hq : (0 : ℚ) < (n : ℚ) - 1 := by
    have : (2 : ℚ) ≤ n := by exact_mod_cast hn
    linarith
  have hf0 : (0 : ℚ) ≤ (⌊q * 10000⌋ : ℚ) := by
    have : (0 : ℤ) ≤ ⌊q * 10000⌋ := Int.floor_nonneg.2 (by linarith)
    exact_mod_cast this
  have hf1 : (⌊q * 10000⌋ : ℚ) ≤ 10000 := le_trans (Int.floor_le _) (by linarith)
  rcases spaced_get n l h i t ht with ⟨rfl, rfl⟩ | ⟨hi, hi', rfl⟩ | ⟨_, hi, rfl⟩
  · rw [lt_fin]
    have : (-(1 / 10000000) : ℚ) < ⌊q * 10000⌋ / 10000 := by
      have : (0 : ℚ) ≤ ⌊q * 10000⌋ / 10000 := by positivity
      linarith
    rw [decide_eq_true this]
    simp only [Bcm.countsPositive, lt_fin, Fl.le]
    norm_num
  · have hi0 : (0 : ℚ) < i := by exact_mod_cast hi
    have hin : (i : ℚ) < (n : ℚ) - 1 := by
      have : ((i + 1 : ℕ) : ℚ) < (n : ℚ) := by exact_mod_cast (by omega)
      push_cast at this
      linarith
    have hx0 : 0 < (i : ℚ) / ((n : ℚ) - 1) := div_pos hi0 hq
    have hx1 : (i : ℚ) / ((n : ℚ) - 1) < 1 := (div_lt_one hq).2 hin
    have hne : (i == 0) = false := by simp; omega
    have hab : Fl.le (.fin (1 + 1 / 10000000)) (.fin ((i : ℚ) / ((n : ℚ) - 1))) = false := by
      simp only [Fl.le, decide_eq_false_iff_not, not_le]
      linarith
    have hcor : Bcm.corrected (.fin ((i : ℚ) / ((n : ℚ) - 1))) = .fin ((i : ℚ) / ((n : ℚ) - 1) + 1 / 10000000) := by
      unfold Bcm.corrected
      rw [if_neg (by simp only [Fl.fin.injEq]; exact hx0.ne')]
      rfl
    simp only [Bcm.countsPositive, hab, hne, Bool.false_and, Bool.not_false, Bool.true_and, Bool.false_or, hcor]
    have hg : Bcm.gridBelow (.fin q) = if 1 ≤ q then .pinf else .fin (⌊q * 10000⌋ / 10000) := by
      simp only [Bcm.gridBelow, if_neg (not_lt.2 h0)]
    rw [hg]
    by_cases hq1 : 1 ≤ q
    · have : q = 1 := le_antisymm h1 hq1
      subst this
      rw [if_pos (le_refl _), lt_fin]
      have : ⌊(1 : ℚ) * 10000⌋ = 10000 := by
        rw [one_mul]; exact_mod_cast Int.floor_natCast 10000
      rw [this]
      norm_num [Fl.le]
      linarith
    · rw [if_neg hq1, lt_fin]
      simp only [Fl.le]
      congr 1
      rw [eq_iff_iff]
      refine ⟨fun hle => by linarith, fun hlt => ?_⟩
      rw [div_lt_div_iff₀ hq (by norm_num)] at hlt
      have hz : (i : ℤ) * 10000 < ⌊q * 10000⌋ * ((n : ℤ) - 1) := by exact_mod_cast hlt
      have hz' : (i : ℚ) * 10000 + 1 ≤ ⌊q * 10000⌋ * ((n : ℚ) - 1) := by exact_mod_cast hz
      have hn' : (n : ℚ) ≤ 1001 := by exact_mod_cast hn1
      have e : (i : ℚ) / ((n : ℚ) - 1) + 1 / 10000000 ≤ (i : ℚ) / ((n : ℚ) - 1) + 1 / (10000 * ((n : ℚ) - 1)) := by
        have : (1 : ℚ) / 10000000 ≤ 1 / (10000 * ((n : ℚ) - 1)) :=
          one_div_le_one_div_of_le (by positivity) (by nlinarith)
        linarith
      refine le_trans e ?_
      have : (i : ℚ) / ((n : ℚ) - 1) + 1 / (10000 * ((n : ℚ) - 1)) = (i * 10000 + 1) / (10000 * ((n : ℚ) - 1)) := by
        field_simp
      rw [this, div_le_div_iff₀ (by positivity) (by norm_num)]
      nlinarith
  · rw [lt_fin]
    have : ¬ (1 + 1 / 10000000 : ℚ) < ⌊q * 10000⌋ / 10000 := by
      rw [not_lt, div_le_iff₀ (by norm_num)]
      linarith
    rw [decide_eq_false this]
    simp [Bcm.countsPositive, Fl.le]

private theorem flat_hist (data : List (List Ex)) :
    (data.map fun x => x.map Ex.forHistogram).flatten = data.flatten.map Ex.forHistogram := by
  induction data with
  | nil => rfl
  | cons x xs ih => simp only [List.map_cons, List.flatten_cons, List.map_append, ih]

private theorem allFlat_ok {T : Type} (data : List (List T)) :
    Beam.allFlat (data.map (Except.ok : List T → Except Err (List T))) = some data.flatten := by
  induction data with
  | nil => rfl
  | cons x xs ih => simp [allFlat, ih]

private theorem histogram_run (n : ℕ) (hn : 0 < n) (d : Data) (data : List (List Ex)) (hd : Holds d data)
    (hnan : ∀ e ∈ data.flatten, e.pred ≠ .nan) :
    ∃ a, (Histogram.combiner ⟨n, 0, 1, true⟩).run d.histogram = .ok a ∧
      Histogram.extract a = Histogram.histogramOf ⟨n, 0, 1, true⟩ (data.flatten.map Ex.forHistogram) := by
  have hist := Histogram.C18_histogram ⟨n, 0, 1, true⟩ ⟨hn, by norm_num⟩
    ((data.map fun x => x.map Ex.forHistogram).map .ok) d.histogram (by rw [List.map_map]; exact hd.histogram)
  have hall : Beam.allFlat ((data.map fun x => x.map Ex.forHistogram).map
      (Except.ok : List Histogram.HExample → Except Err (List Histogram.HExample))) =
      some (data.map fun x => x.map Ex.forHistogram).flatten := by
    exact allFlat_ok _
  rw [hall, flat_hist, Option.bind_some, if_neg (by
    rintro ⟨t, ht, h⟩
    obtain ⟨e, he, rfl⟩ := List.mem_map.1 ht
    exact hnan e he h)] at hist
  cases hr : (Histogram.combiner ⟨n, 0, 1, true⟩).run d.histogram with
  | error e => rw [hr] at hist; cases hist
  | ok a =>
    rw [hr] at hist
    exact ⟨a, rfl, Option.some.inj hist⟩

/-- The histogram branch counts the rounded predictions. -/
private theorem spaced (r : Request) (n : ℕ) (hn1 : n ≤ 1001) (ts : List Fl) (m : ℤ)
    (hc : choose r.num r.thresholds = .ok (some m, ts)) (hts : EvenlySpaced n ts)
    (hr : r.useHistogram = none ∧ r.examplesName = none ∧ r.idKey = none ∧ r.idsCount = none)
    (d : Data) (data : List (List Ex)) (hd : Holds d data) (hp : ∀ e ∈ data.flatten, Probability e) :
    ∃ cs, computations r = .ok cs ∧
      matrices cs d = .ok ⟨ts.map (counter true true (data.flatten.map Ex.rounded)),
        ts.map (counter false true (data.flatten.map Ex.rounded)),
        ts.map (counter false false (data.flatten.map Ex.rounded)),
        ts.map (counter true false (data.flatten.map Ex.rounded))⟩ := by
  obtain ⟨h1, h2, h3, h4⟩ := hr
  have hn := spaced_two n ts hts
  rcases ts with _ | ⟨t0, _ | ⟨t1, rest⟩⟩
  · have := hts.length; simp at this; omega
  · have := hts.length; simp at this; omega
  have ht0 : t0 = .fin (-(1 / 10000000)) := Option.some.inj hts.first
  have hlt : Fl.lt t0 (.fin 0) = true := by rw [ht0]; norm_num [lt_fin]
  obtain ⟨a, ha, hx⟩ := histogram_run 10000 (by norm_num) d data hd (by
    intro e he
    obtain ⟨q, _, _, h⟩ := hp e he
    rw [h]; simp)
  obtain ⟨c, hc1, hc2⟩ := Bcm.C54_cells t0 (t1 :: rest) (spaced_usable n _ hts) (by simp) (.inr hlt)
    (data.flatten.map Ex.forHistogram) (by
      intro e he
      obtain ⟨x, hx, rfl⟩ := List.mem_map.1 he
      obtain ⟨q, _, _, h⟩ := hp x hx
      simp [Ex.forHistogram, h])
  have hl := result_lengths _ _ _ _ hc1
  have hcell : ∀ (i : ℕ) (t : Fl), (t0 :: t1 :: rest)[i]? = some t →
      c.tp[i]? = some (counter true true (data.flatten.map Ex.rounded) t) ∧
      c.fp[i]? = some (counter false true (data.flatten.map Ex.rounded) t) ∧
      c.tn[i]? = some (counter false false (data.flatten.map Ex.rounded) t) ∧
      c.fn[i]? = some (counter true false (data.flatten.map Ex.rounded) t) := by
    intro i t hit
    obtain ⟨k1, k2, k3, k4⟩ := hc2 i t hit
    obtain ⟨e1, e2, e3, e4⟩ := hist_counter t (fun e => Bcm.countsPositive t0 i t (Bcm.gridBelow e.pred)) Ex.rounded
      (fun e => ⟨rfl, rfl⟩) data.flatten (by
        intro e he
        obtain ⟨q, q0, q1, h⟩ := hp e he
        simp only [Ex.forHistogram, Ex.rounded, h, ht0]
        exact spaced_counts n hn1 _ hts i t hit q q0 q1)
    rw [k1, k2, k3, k4, e1, e2, e3, e4]
    exact ⟨rfl, rfl, rfl, rfl⟩
  have hcols : c = ⟨(t0 :: t1 :: rest).map (counter true true (data.flatten.map Ex.rounded)),
        (t0 :: t1 :: rest).map (counter false true (data.flatten.map Ex.rounded)),
        (t0 :: t1 :: rest).map (counter false false (data.flatten.map Ex.rounded)),
        (t0 :: t1 :: rest).map (counter true false (data.flatten.map Ex.rounded))⟩ := by
    obtain ⟨tp, fp, tn, fn⟩ := c
    simp only [Bcm.Cols.mk.injEq]
    exact ⟨list_eq _ _ _ hl.1 fun i t h => (hcell i t h).1, list_eq _ _ _ hl.2.1 fun i t h => (hcell i t h).2.1,
      list_eq _ _ _ hl.2.2.1 fun i t h => (hcell i t h).2.2.1, list_eq _ _ _ hl.2.2.2 fun i t h => (hcell i t h).2.2.2⟩
  refine ⟨_, by
    simp only [computations, hc, build, h1, h2, h3, h4, histogramDefault, truthyText, truthyInt, Option.getD_none,
      Option.isSome_some, Bool.true_or, Bool.or_self, Bool.and_false, Bool.false_and, Bool.false_eq_true, if_false, if_true]
    rfl, ?_⟩
  rw [← hcols]
  simp only [matrices, histogramComp, List.map_cons, List.map_nil, numBuckets, ha, bind, Except.bind, hx]
  exact hc1

private theorem choose_given (ts : List Fl) (h : ¬ ∃ n, EvenlySpaced n ts) : choose none (some ts) = .ok (none, ts) := by
  cases ts with
  | nil => rfl
  | cons t l =>
    have hne : ¬ (t :: l = interpolated (t :: l).length) := by
      intro e
      have h2 : 2 ≤ (t :: l).length := by
        have := congrArg List.length e
        simp only [interpolated, List.length_append, List.length_cons, List.length_map, List.length_range,
          List.length_nil] at this
        simp only [List.length_cons]
        omega
      have := C88_interpolated ((t :: l).length : ℤ) (by exact_mod_cast h2)
      rw [← e] at this
      exact h ⟨_, this⟩
    simp only [choose, reset]
    rw [if_neg (fun h => hne h.2), if_neg (by simp [defaultNum, kerasNum])]
    rfl

private theorem spaced_interpolated (n : ℕ) (l : List Fl) (h : EvenlySpaced n l) : l = interpolated l.length := by
  have hn := spaced_two n l h
  have h' := C88_interpolated (n : ℤ) (by exact_mod_cast hn)
  rw [h.length]
  refine List.ext_getElem? fun i => ?_
  cases hi : l[i]? with
  | none =>
    have : n ≤ i := h.length ▸ List.getElem?_eq_none_iff.1 hi
    symm
    rw [List.getElem?_eq_none_iff, h'.length]
    simpa using this
  | some t =>
    symm
    simp only [Int.toNat_natCast] at h'
    rcases spaced_get n l h i t hi with ⟨rfl, rfl⟩ | ⟨a, b, rfl⟩ | ⟨rfl, _, rfl⟩
    · exact h'.first
    · exact h'.inner i a b
    · exact h'.last

private theorem choose_spaced (n : ℕ) (ts : List Fl) (h : EvenlySpaced n ts) :
    choose none (some ts) = .ok (some (n : ℤ), ts) := by
  have hn := spaced_two n ts h
  have hl := h.length
  have e := spaced_interpolated n ts h
  cases ts with
  | nil => simp at hl; omega
  | cons t l =>
    simp only [choose, reset]
    rw [if_pos ⟨.inl trivial, e⟩, hl]
    simp only [resolve]
    rw [if_neg (by omega)]
    rw [hl] at e
    rw [← e]

private theorem choose_ninf : choose none (some [.ninf]) = .ok (none, [.ninf]) := by
  refine choose_given _ ?_
  rintro ⟨n, h⟩
  have := h.first
  cases this

/-- The single threshold -inf counts the predictions which are not masked. -/
private theorem unmasked (r : Request) (hc : choose r.num r.thresholds = .ok (none, [.ninf]))
    (hr : r.useHistogram = none ∧ r.examplesName = none ∧ r.idKey = none ∧ r.idsCount = none)
    (d : Data) (data : List (List Ex)) (hd : Holds d data)
    (hp : ∀ e ∈ data.flatten, e.pred = .ninf ∨ ∃ q : ℚ, 0 ≤ q ∧ q < 1 ∧ e.pred = .fin q)
    (h0 : ∃ e ∈ data.flatten, e.pred = .ninf) (h1 : ∃ e ∈ data.flatten, e.pred ≠ .ninf) :
    ∃ cs, computations r = .ok cs ∧
      matrices cs d = .ok ⟨[Fl.ninf].map (counter true true data.flatten), [Fl.ninf].map (counter false true data.flatten),
        [Fl.ninf].map (counter false false data.flatten), [Fl.ninf].map (counter true false data.flatten)⟩ := by
  obtain ⟨g1, g2, g3, g4⟩ := hr
  obtain ⟨a, ha, hx⟩ := histogram_run 1 (by norm_num) d data hd (by
    intro e he
    rcases hp e he with h | ⟨q, _, _, h⟩ <;> rw [h] <;> simp)
  obtain ⟨x0, hx0, e0⟩ := h0
  obtain ⟨x1, hx1, e1⟩ := h1
  obtain ⟨cols, hc1, k1, k2, k3, k4⟩ := Bcm.C54_top_k .ninf rfl (data.flatten.map Ex.forHistogram) (by
      intro e he
      obtain ⟨x, hx, rfl⟩ := List.mem_map.1 he
      exact hp x hx) ⟨_, List.mem_map_of_mem hx0, e0⟩ ⟨_, List.mem_map_of_mem hx1, e1⟩
  have hl := result_lengths _ _ _ _ hc1
  obtain ⟨e1, e2, e3, e4⟩ := hist_counter .ninf (fun e => e.pred ≠ .ninf) id (fun e => ⟨rfl, rfl⟩) data.flatten (by
    intro e he
    rcases hp e he with h | ⟨q, _, _, h⟩ <;> simp [Ex.forHistogram, h, Fl.lt, Fl.le])
  rw [List.map_id] at e1 e2 e3 e4
  have hcols : cols = ⟨[Fl.ninf].map (counter true true data.flatten), [Fl.ninf].map (counter false true data.flatten),
      [Fl.ninf].map (counter false false data.flatten), [Fl.ninf].map (counter true false data.flatten)⟩ := by
    have one : ∀ (l : List ℚ) (v : ℚ), l.length ≤ 1 → l[0]? = some v → l = [v] := by
      intro l v h1 h2
      match l, h1, h2 with
      | [x], _, h => exact congrArg (fun y => [y]) (Option.some.inj h)
    obtain ⟨tp, fp, tn, fn⟩ := cols
    simp only [Bcm.Cols.mk.injEq, List.map_cons, List.map_nil]
    exact ⟨one _ _ hl.1 (k1.trans (congrArg some e1)), one _ _ hl.2.1 (k2.trans (congrArg some e2)),
      one _ _ hl.2.2.1 (k3.trans (congrArg some e3)), one _ _ hl.2.2.2 (k4.trans (congrArg some e4))⟩
  refine ⟨_, by
    simp only [computations, hc, build, g1, g2, g3, g4, histogramDefault, truthyText, truthyInt, Option.getD_none,
      Option.isSome_none, Bool.false_or, Bool.or_self, Bool.and_false, Bool.false_and, Bool.false_eq_true, if_false, if_true,
      show Fl.lt .ninf (.fin 0) = true from rfl]
    rfl, ?_⟩
  rw [← hcols]
  simp only [matrices, histogramComp, List.map_cons, List.map_nil, numBuckets, show Fl.le .ninf (.fin 0) = true from rfl,
    if_true, ha, bind, Except.bind, hx]
  exact hc1

private theorem value_of (keras : Variables → V) (c : Call) (m : Metric) (sub : Option SubKey) (hw : ¬ Refused c m)
    (hsub : SubKeyIs c.subKey m.classId sub) (d : Data) (cells : Bcm.Cols)
    (h : ∀ w, ∃ cs, computations
      { num := numOf sub m, thresholds := thresholdsOf sub m, modelName := c.modelName, outputName := c.outputName
        subKey := sub, aggregationType := c.aggregationType, classWeights := w, exampleWeighted := c.exampleWeighted } = .ok cs ∧
      matrices cs d = .ok cells) :
    value keras c m d = .ok [(keyFor c m sub, keras (assign m.cls cells))] := by
  obtain ⟨w, hw⟩ := weights_ok c m hw
  obtain ⟨cs, h1, h2⟩ := h w
  simp only [value, wrap, hw, (subKeyOf_iff _ _ _).2 hsub, bind, Except.bind, h1, pure, Except.pure, h2]
  rfl

private theorem assign_state (cls : Cls) (ts : List Fl) (exs : List Ex) :
    assign cls ⟨ts.map (counter true true exs), ts.map (counter false true exs), ts.map (counter false false exs),
      ts.map (counter true false exs)⟩ = kerasState cls ts exs := by
  cases cls <;> rfl

/-! ### Theorems -/

/-- **C136**: a metric with different thresholds which are not evenly spaced from 0 to 1 has the value Keras computes from
the counters it would have after seeing all the examples.  For every bundling, every one of the nine classes, and whatever the
`result` method of the class is. -/
theorem C136_counted (keras : Variables → V) (c : Call) (m : Metric) (sub : Option SubKey) (hw : ¬ Refused c m)
    (hsub : SubKeyIs c.subKey m.classId sub) (ts : List Fl) (hts : m.thresholds = some ts)
    (htop : m.configured = true ∨ sub.bind SubKey.topK = none) (hn : ts.Nodup) (he : ¬ ∃ n, EvenlySpaced n ts)
    (hs : ¬ ∃ t, ts = [t] ∧ Fl.lt t (.fin 0) = true) (d : Data) (data : List (List Ex)) (hd : Holds d data) :
    value keras c m d = .ok [(keyFor c m sub, keras (kerasState m.cls ts data.flatten))] := by
  have ht : thresholdsOf sub m = some ts := by
    unfold thresholdsOf
    rw [if_neg, hts]
    rcases htop with h | h <;> simp [h]
  rw [← assign_state]
  refine value_of keras c m sub hw hsub d _ fun w => ?_
  refine counted _ ts ?_ hn hs ⟨rfl, rfl, rfl, rfl, rfl⟩ d data hd
  simp only [numOf, ht]
  exact choose_given ts he

/-- **C136**, thresholds evenly spaced from 0 to 1, as AUC, SpecificityAtSensitivity and SensitivityAtSpecificity have by
default (200 of them): the value is the one Keras computes with the predictions rounded down to multiples of 1/10000, for
up to 1001 thresholds.  Missing: the value for the predictions themselves, which is not what is reported
(`C136_rounding_changes`). -/
theorem C136_evenly_spaced_partial (keras : Variables → V) (c : Call) (m : Metric) (sub : Option SubKey) (hw : ¬ Refused c m)
    (hsub : SubKeyIs c.subKey m.classId sub) (ts : List Fl) (hts : m.thresholds = some ts)
    (htop : m.configured = true ∨ sub.bind SubKey.topK = none) (n : ℕ) (hn : n ≤ 1001) (he : EvenlySpaced n ts)
    (d : Data) (data : List (List Ex)) (hd : Holds d data) (hp : ∀ e ∈ data.flatten, Probability e) :
    value keras c m d = .ok [(keyFor c m sub, keras (kerasState m.cls ts (data.flatten.map Ex.rounded)))] := by
  have ht : thresholdsOf sub m = some ts := by
    unfold thresholdsOf
    rw [if_neg, hts]
    rcases htop with h | h <;> simp [h]
  rw [← assign_state]
  refine value_of keras c m sub hw hsub d _ fun w => ?_
  refine spaced _ n hn ts n ?_ he ⟨rfl, rfl, rfl, rfl⟩ d data hd hp
  simp only [numOf, ht]
  exact choose_spaced n ts he

/-- **C136**: predictions which are multiples of 1/10000 are not changed by the rounding, so for them the value is
Keras's. -/
theorem C136_grid (e : Ex) (k : ℤ) (h : e.pred = .fin (k / 10000)) : e.rounded = e := by
  obtain ⟨l, p, w⟩ := e
  simp only at h
  subst h
  simp only [Ex.rounded]
  have : (k / 10000 : ℚ) * 10000 = k := by field_simp
  rw [this, Int.floor_intCast]

/-- **C136**, the top k predictions chosen by the specification: a metric without thresholds of its own counts the
predictions among the top k as positive, if some predictions are and some are not, and all of those which are lie in [0, 1).
Missing: other predictions, see C54. -/
theorem C136_top_k_partial (keras : Variables → V) (c : Call) (m : Metric) (sub : Option SubKey) (hw : ¬ Refused c m)
    (hsub : SubKeyIs c.subKey m.classId sub) (hm : m.configured = false) (k : ℤ) (hk : sub.bind SubKey.topK = some k)
    (d : Data) (data : List (List Ex)) (hd : Holds d data)
    (hp : ∀ e ∈ data.flatten, e.pred = .ninf ∨ ∃ q : ℚ, 0 ≤ q ∧ q < 1 ∧ e.pred = .fin q)
    (h0 : ∃ e ∈ data.flatten, e.pred = .ninf) (h1 : ∃ e ∈ data.flatten, e.pred ≠ .ninf) :
    value keras c m d = .ok [(keyFor c m sub, keras (kerasState m.cls [.ninf] data.flatten))] := by
  have ht : thresholdsOf sub m = some [.ninf] := by simp [thresholdsOf, hk, hm]
  rw [← assign_state]
  refine value_of keras c m sub hw hsub d _ fun w => ?_
  refine unmasked _ ?_ ⟨rfl, rfl, rfl, rfl⟩ d data hd hp h0 h1
  simp only [numOf, ht]
  exact choose_ninf

/-- The settings a computation counts with: model, output, sub key, aggregation, class weights and whether examples are
weighted. -/
def countsWith : Body → Option (String × String × Option SubKey × Option AggregationType × Option (Dict ℤ ℚ) × Bool)
  | .histogram _ mn on sk agg cw ew _ => some (mn, on, sk, agg, cw, ew)
  | .counts _ mn on sk _ _ _ agg cw ew _ => some (mn, on, sk, agg, cw, ew)
  | _ => none

/-- The class weights in effect: the label weights of an AUC by position if it has any, otherwise those of the
specification. -/
def WeightsAre (c : Call) (m : Metric) (w : Option (Dict ℤ ℚ)) : Prop :=
  (∀ l, m.cls = .auc → m.labelWeights = some l → l ≠ [] →
    ∃ dict, w = some dict ∧ ∀ i : ℤ, Dict.get? dict i = if 0 ≤ i then l[i.toNat]? else none) ∧
  ((m.cls ≠ .auc ∨ m.labelWeights = none ∨ m.labelWeights = some []) → w = c.classWeights)

private theorem enumerated_get (l : List ℚ) (n : ℕ) (i : ℤ) :
    Dict.get? (enumerated n l) i = if (n : ℤ) ≤ i then l[(i - n).toNat]? else none := by
  induction l generalizing n with
  | nil => simp [enumerated, Dict.get?]
  | cons w ws ih =>
    rw [enumerated, Dict.get?_cons, ih]
    by_cases h : (n : ℤ) = i
    · subst h; simp
    · rw [if_neg h]
      by_cases h1 : (n : ℤ) ≤ i
      · rw [if_pos h1, if_pos (by push_cast; omega)]
        have : (i - n).toNat = (i - (n + 1 : ℕ)).toNat + 1 := by push_cast; omega
        rw [this, List.getElem?_cons_succ]
      · rw [if_neg h1, if_neg (by push_cast; omega)]

private theorem weights_are (c : Call) (m : Metric) (w : Option (Dict ℤ ℚ)) (h : classWeightsOf c m = .ok w) :
    WeightsAre c m w := by
  unfold classWeightsOf at h
  by_cases ha : m.cls = .auc
  · rw [if_pos ha] at h
    rcases hl : m.labelWeights with _ | _ | ⟨x, xs⟩
    · rw [hl] at h
      simp only at h
      split at h
      · cases h
      · cases h; exact ⟨fun l _ e => (by rw [hl] at e; cases e), fun _ => rfl⟩
    · rw [hl] at h
      simp only at h
      split at h
      · cases h
      · cases h; exact ⟨fun l _ e hne => (by rw [hl] at e; cases e; exact (hne rfl).elim), fun _ => rfl⟩
    · rw [hl] at h
      simp only at h
      split at h
      · cases h
      · split at h
        · cases h
        · cases h
          refine ⟨fun l _ e _ => ?_, fun e => ?_⟩
          · rw [hl] at e
            cases e
            refine ⟨_, rfl, fun i => ?_⟩
            rw [enumerated_get]
            simp
          · rw [hl] at e
            rcases e with e | e | e
            · exact (e ha).elim
            · cases e
            · cases e
  · rw [if_neg ha] at h
    cases h
    exact ⟨fun _ h => (ha h).elim, fun _ => rfl⟩

private theorem built_with (r : Request) (cs : List Comp) (h : computations r = .ok cs) (x : Comp) (hx : x ∈ cs) (w) (hw : countsWith x.body = some w) :
    w = (r.modelName, r.outputName, r.subKey, r.aggregationType, r.classWeights, r.exampleWeighted) := by
  unfold computations at h
  split at h
  · cases h
  · unfold build at h
    simp only at h
    split_ifs at h
    · cases h
      rcases List.mem_cons.1 hx with rfl | hx
      · exact (Option.some.inj hw).symm
      · rw [List.mem_singleton.1 hx] at hw; cases hw
    · cases h
      rcases List.mem_cons.1 hx with rfl | hx
      · exact (Option.some.inj hw).symm
      · rw [List.mem_singleton.1 hx] at hw; cases hw

/-- **C136**: the examples are counted for the model, output and sub key of the metric, with the aggregation asked for, with the
label weights of an AUC as class weights, or else with the class weights asked for. -/
theorem C136_counts_with (c : Call) (m : Metric) (cs : List Comp) (k : MetricKey) (h : wrap c m = .ok (cs, k)) :
    ∃ sub w, SubKeyIs c.subKey m.classId sub ∧ WeightsAre c m w ∧ k = keyFor c m sub ∧
      ∀ x ∈ cs, ∀ s, countsWith x.body = some s → s = (c.modelName, c.outputName, sub, c.aggregationType, w, c.exampleWeighted) := by
  unfold wrap at h
  cases h1 : classWeightsOf c m with
  | error e => rw [h1] at h; cases h
  | ok w =>
    cases h2 : subKeyOf c.subKey m.classId with
    | error e => rw [h1, h2] at h; cases h
    | ok sub =>
      rw [h1, h2] at h
      simp only [bind, Except.bind] at h
      split at h
      · cases h
      · rename_i _ h3
        cases h
        exact ⟨sub, w, (subKeyOf_iff _ _ _).1 h2, weights_are c m w h1, rfl, fun x hx s hs => built_with _ _ h3 x hx s hs⟩

/-- **C136**: the settings of AUC which are refused, and a class other than the one asked for. -/
theorem C136_refused (keras : Variables → V) (c : Call) (m : Metric) (d : Data)
    (h : Refused c m ∨ ∃ i s, m.classId = some i ∧ c.subKey = some s ∧ s.classId ≠ some i) :
    value keras c m d = .error .valueError ∨ value keras c m d = .error .notImplementedError := by
  have key : ∀ e, wrap c m = .error e → value keras c m d = .error e := by
    intro e h; simp [value, h, bind, Except.bind]
  cases h1 : classWeightsOf c m with
  | error e =>
    have : e = .valueError ∨ e = .notImplementedError := by
      unfold classWeightsOf at h1
      split at h1
      · split at h1
        · split_ifs at h1 <;> cases h1 <;> simp
        · split_ifs at h1; cases h1; simp
      · cases h1
    have hv := key e (by simp [wrap, h1, bind, Except.bind])
    rcases this with rfl | rfl
    · exact .inl hv
    · exact .inr hv
  | ok w =>
    left
    refine key _ ?_
    rcases h with ⟨ha, h⟩ | ⟨i, s, hi, hs, hne⟩
    · exfalso
      unfold classWeightsOf at h1
      rw [if_pos ha] at h1
      rcases h with h | ⟨⟨l, hl, hl'⟩, ⟨cw, hc, hc'⟩⟩
      · split at h1
        · split_ifs at h1
        · split_ifs at h1
      · rcases l with _ | ⟨x, xs⟩
        · exact hl' rfl
        · rcases cw with _ | ⟨y, ys⟩
          · exact hc' rfl
          · rw [hl, hc] at h1
            cases h1
    · simp only [wrap, h1, bind, Except.bind, hi, hs, subKeyOf]
      rw [if_pos hne]

/-! ### Where the value is not Keras's -/

/-- A weighted positive example with the given prediction, in one bundle. -/
def single (p : Fl) : Data := ⟨.bundle [.ok [⟨1, p, 1⟩]], .bundle [.ok ⟨[⟨.fin 1, p, 1⟩], none⟩]⟩

private theorem single_holds (p : Fl) : Holds (single p) [[⟨true, p, 1⟩]] :=
  ⟨List.Perm.refl _, List.Perm.refl _⟩

/-- AUC(thresholds=[0.5]). -/
def aucHalf : Metric :=
  { cls := .auc, name := "auc", configured := true
    thresholds := some [.fin (-(1 / 10000000)), .fin (1 / 2), .fin (1 + 1 / 10000000)] }

private theorem half_spaced : EvenlySpaced 3 [.fin (-(1 / 10000000)), .fin (1 / 2), .fin (1 + 1 / 10000000)] := by
  refine ⟨rfl, rfl, rfl, fun i h1 h2 => ?_⟩
  have : i = 1 := by omega
  subst this
  norm_num

private theorem half_value (q : ℚ) (h0 : 0 ≤ q) (h1 : q ≤ 1) :
    value id {} aucHalf (single (.fin q)) = .ok [({ name := "auc" }, kerasState .auc
      [.fin (-(1 / 10000000)), .fin (1 / 2), .fin (1 + 1 / 10000000)] [⟨true, .fin (⌊q * 10000⌋ / 10000), 1⟩])] :=
  C136_evenly_spaced_partial id {} aucHalf none (by rintro ⟨_, h | ⟨⟨_, h, _⟩, _⟩⟩ <;> cases h) (.asked none) _ rfl (.inl rfl) 3
    (by norm_num) half_spaced _ _ (single_holds _) (by
      intro e he
      simp only [List.flatten_cons, List.flatten_nil, List.append_nil, List.mem_singleton] at he
      subst he
      exact ⟨q, h0, h1, rfl⟩)

/-- The full claim is false for evenly spaced thresholds: AUC(thresholds=[0.5]) does not count a positive example with the
prediction 0.50003 as a true positive at 0.5, Keras does. -/
theorem C136_rounding_changes :
    value id {} aucHalf (single (.fin (50003 / 100000))) =
      .ok [({ name := "auc" }, .four [1, 0, 0] [0, 0, 0] [0, 0, 0] [0, 1, 1])] ∧
    kerasState .auc [.fin (-(1 / 10000000)), .fin (1 / 2), .fin (1 + 1 / 10000000)] [⟨true, .fin (50003 / 100000), 1⟩] =
      .four [1, 1, 0] [0, 0, 0] [0, 0, 0] [0, 0, 1] := by
  refine ⟨?_, by decide +kernel⟩
  rw [half_value _ (by norm_num) (by norm_num)]
  decide +kernel

/-- AUC(from_logits=True) counts the logits as if they were probabilities: for every function that takes the logit 1/4
above 1/2, as the sigmoid function does, Keras counts a true positive at 0.5 and the wrapped metric does not. -/
theorem C136_logits (sigmoid : ℚ → ℚ) (h : 1 / 2 < sigmoid (1 / 4)) (h1 : sigmoid (1 / 4) ≤ 1) :
    value id {} aucHalf (single (.fin (1 / 4))) =
      .ok [({ name := "auc" }, .four [1, 0, 0] [0, 0, 0] [0, 0, 0] [0, 1, 1])] ∧
    kerasState .auc [.fin (-(1 / 10000000)), .fin (1 / 2), .fin (1 + 1 / 10000000)] [⟨true, .fin (sigmoid (1 / 4)), 1⟩] =
      .four [1, 1, 0] [0, 0, 0] [0, 0, 0] [0, 0, 1] := by
  constructor
  · rw [half_value _ (by norm_num) (by norm_num)]
    decide +kernel
  · have a : decide (-(1 / 10000000 : ℚ) < sigmoid (1 / 4)) = true := decide_eq_true (by linarith)
    have b : decide ((1 / 2 : ℚ) < sigmoid (1 / 4)) = true := decide_eq_true h
    have c : decide ((1 + 1 / 10000000 : ℚ) < sigmoid (1 / 4)) = false := decide_eq_false (by linarith)
    simp only [kerasState, List.map_cons, List.map_nil, counter, List.filter_cons, List.filter_nil, lt_fin, a, b, c]
    simp

/-- TruePositives with a threshold given twice counts every example twice there. -/
theorem C136_repeated_threshold :
    value id {} { cls := .truePositives, name := "tp", configured := true, thresholds := some [.fin (1 / 2), .fin (1 / 2)] }
      (single (.fin 1)) = .ok [({ name := "tp" }, .one [2, 2])] ∧
    kerasState .truePositives [.fin (1 / 2), .fin (1 / 2)] [⟨true, .fin 1, 1⟩] = .one [1, 1] := by
  constructor <;> decide +kernel

/-- Non-vacuous: precision at the default threshold 1/2 and at two given thresholds, two bundles. -/
example : value id { modelName := "m" } { cls := .precision, name := "p", configured := false, thresholds := some [.fin (1 / 2)] }
      ⟨.bundle [], .merge (.cons (.bundle [.ok ⟨[⟨.fin 1, .fin (3 / 4), 2⟩, ⟨.fin 0, .fin (1 / 2), 1⟩], none⟩])
        (.one (.bundle [.ok ⟨[⟨.fin 0, .fin 1, 5⟩], none⟩])))⟩ =
      .ok [({ name := "p", modelName := "m" }, .precision [2] [5])] ∧
    value id { subKey := some ⟨some 3, none, none⟩ }
      { cls := .recall, name := "r", classId := some 3, configured := true, thresholds := some [.fin (1 / 4), .fin (3 / 4)] }
      (single (.fin (1 / 2))) = .ok [({ name := "r", subKey := some ⟨some 3, none, none⟩ }, .recall [1, 0] [0, 1])] := by
  constructor <;> decide +kernel

/-- Non-vacuous: the thresholds Keras uses are covered by the three theorems. -/
example : (¬ ∃ n, EvenlySpaced n [.fin (1 / 2)]) ∧ EvenlySpaced 3 [.fin (-(1 / 10000000)), .fin (1 / 2), .fin (1 + 1 / 10000000)] ∧
    (¬ ∃ n, EvenlySpaced n [.fin (-(1 / 10000000)), .fin (1 / 4), .fin (1 + 1 / 10000000)]) := by
  refine ⟨?_, half_spaced, ?_⟩
  · rintro ⟨n, h⟩
    have := h.first
    norm_num at this
  · rintro ⟨n, h⟩
    have h1 := h.length
    simp only [List.length_cons, List.length_nil, Nat.reduceAdd] at h1
    subst h1
    have := h.inner 1 (by norm_num) (by norm_num)
    norm_num at this

end KerasMatrices

/-!
# C137: the confusion matrix metrics of TFMA count what their thresholds say
-/

namespace KerasMatrices

open Beam MetricKeys MatrixSetup

variable {V : Type}

/-! ### Specification -/

/-- The sub key of a metric with the settings `top_k` and `class_id`: neither is set twice, and all settings are kept. -/
structure Joined (sk : Option SubKey) (topK classId : Option ℤ) (s : Option SubKey) : Prop where
  topOnce : topK = none ∨ sk.bind SubKey.topK = none
  classOnce : classId = none ∨ sk.bind SubKey.classId = none
  none : s = none ↔ sk = none ∧ topK = none ∧ classId = none
  top : s.bind SubKey.topK = topK.or (sk.bind SubKey.topK)
  cls : s.bind SubKey.classId = classId.or (sk.bind SubKey.classId)
  k : s.bind SubKey.k = sk.bind SubKey.k

/-- The counts of the examples at the thresholds. -/
def exactCounts (ts : List Fl) (exs : List Ex) : Bcm.Cols where
  tp := ts.map (counter true true exs)
  fp := ts.map (counter false true exs)
  tn := ts.map (counter false false exs)
  fn := ts.map (counter true false exs)

/-- The thresholds of a metric without a number of thresholds: those given, or else its default unless the top k predictions
are to be counted. -/
inductive Chosen : Option ThresholdArg → Option Fl → Option SubKey → List Fl → Prop where
  | list (l : List Fl) (d : Option Fl) (s : Option SubKey) : Chosen (some (.list l)) d s l
  | float (x : Fl) (d : Option Fl) (s : Option SubKey) : Chosen (some (.float x)) d s [x]
  | default (x : Fl) (s : Option SubKey) (h : s.bind SubKey.topK = none) : Chosen none (some x) s [x]

/-- The key of the value. -/
def keyNamed (c : Call) (name : String) (sub : Option SubKey) : MetricKey :=
  ⟨name, c.modelName, c.outputName, sub, c.aggregationType, some c.exampleWeighted, false⟩

/-! ### Helpers -/

private theorem joined_iff (sk : Option SubKey) (topK classId : Option ℤ) (s : Option SubKey) (h : Joined sk topK classId s) :
    updateSubKey sk topK classId = .ok s := by
  obtain ⟨h1, h2, h3, h4, h5, h6⟩ := h
  by_cases hn : sk = none ∧ topK = none ∧ classId = none
  · obtain ⟨rfl, rfl, rfl⟩ := hn
    rw [h3.2 ⟨rfl, rfl, rfl⟩]
    rfl
  · obtain ⟨v, rfl⟩ : ∃ v, s = some v := by
      cases s with
      | none => exact (hn (h3.1 rfl)).elim
      | some v => exact ⟨v, rfl⟩
    have key : updateSubKey sk topK classId = (
        let s := sk.getD ⟨none, none, none⟩
        if topK.isSome && s.topK.isSome then .error .valueError
        else if classId.isSome && s.classId.isSome then .error .valueError
        else .ok (some ⟨classId.or s.classId, s.k, topK.or s.topK⟩)) := by
      unfold updateSubKey
      split
      · exact (hn ⟨rfl, rfl, rfl⟩).elim
      · rfl
    rw [key]
    obtain ⟨a, b, c⟩ := v
    cases sk with
    | none =>
      simp only [Option.getD_none, Option.isSome_none, Bool.and_false, Bool.false_eq_true, if_false]
      simp at h4 h5 h6
      subst h4 h5 h6
      simp
    | some v =>
      obtain ⟨x, y, z⟩ := v
      simp only [Option.bind_some] at h1 h2 h4 h5 h6
      simp only [Option.getD_some]
      rw [if_neg (by rcases h1 with h | h <;> simp [h]), if_neg (by rcases h2 with h | h <;> simp [h]), ← h4, ← h5, ← h6]

private theorem base_of (f : Bcm.Cols → V) (c : Call) (name : String) (arg : Option ThresholdArg) (num topK classId : Option ℤ)
    (default : Option Fl) (sub : Option SubKey) (hsub : Joined c.subKey topK classId sub) (ts : Option (List Fl))
    (hts : metricThresholds arg num sub default = .ok ts) (d : Data) (cells : Bcm.Cols)
    (h : ∃ cs, computations
      { num := num, thresholds := ts, modelName := c.modelName, outputName := c.outputName, subKey := sub
        aggregationType := c.aggregationType, classWeights := c.classWeights, exampleWeighted := c.exampleWeighted } = .ok cs ∧
      matrices cs d = .ok cells) :
    baseMetric f c name arg num topK classId default d = .ok [(keyNamed c name sub, f cells)] := by
  obtain ⟨cs, h1, h2⟩ := h
  simp only [baseMetric, metricMatrices, joined_iff _ _ _ _ hsub, bind, Except.bind, hts, h1, pure, Except.pure, h2]
  rfl

private theorem at_of (c : Call) (name : String) (ts : List Fl) (topK classId : Option ℤ) (sub : Option SubKey)
    (hsub : Joined c.subKey topK classId sub) (d : Data) (cells : Bcm.Cols)
    (h : ∃ cs, computations
      { thresholds := some ts, modelName := c.modelName, outputName := c.outputName, subKey := sub
        aggregationType := c.aggregationType, classWeights := c.classWeights, exampleWeighted := c.exampleWeighted } = .ok cs ∧
      matrices cs d = .ok cells) :
    atThresholds c name ts topK classId d = .ok [(keyNamed c name sub, cells)] := by
  obtain ⟨cs, h1, h2⟩ := h
  simp only [atThresholds, joined_iff _ _ _ _ hsub, bind, Except.bind, h1, pure, Except.pure, h2]
  rfl

private theorem chosen_thresholds (arg : Option ThresholdArg) (d : Option Fl) (s : Option SubKey) (ts : List Fl)
    (h : Chosen arg d s ts) : metricThresholds arg none s d = .ok (some ts) := by
  cases h with
  | list => rfl
  | float => rfl
  | default x _ h => simp [metricThresholds, h, truthyInt]

/-! ### Theorems -/

/-- **C137**: ConfusionMatrixAtThresholds with different thresholds which are not evenly spaced from 0 to 1 reports the exact
counts at each of them, an example being predicted positive if its prediction exceeds the threshold.  For every bundling. -/
theorem C137_at_thresholds (c : Call) (name : String) (ts : List Fl) (topK classId : Option ℤ) (sub : Option SubKey)
    (hsub : Joined c.subKey topK classId sub) (hn : ts.Nodup) (he : ¬ ∃ n, EvenlySpaced n ts)
    (hs : ¬ ∃ t, ts = [t] ∧ Fl.lt t (.fin 0) = true) (d : Data) (data : List (List Ex)) (hd : Holds d data) :
    atThresholds c name ts topK classId d = .ok [(keyNamed c name sub, exactCounts ts data.flatten)] := by
  refine at_of c name ts topK classId sub hsub d _ ?_
  exact counted _ ts (choose_given ts he) hn hs ⟨rfl, rfl, rfl, rfl, rfl⟩ d data hd

/-- **C137**: evenly spaced thresholds count the predictions rounded down to multiples of 1/10000.  Missing: more than 1001
thresholds, and the counts of the predictions themselves (false as for C136). -/
theorem C137_at_evenly_spaced_partial (c : Call) (name : String) (ts : List Fl) (topK classId : Option ℤ) (sub : Option SubKey)
    (hsub : Joined c.subKey topK classId sub) (n : ℕ) (hn : n ≤ 1001) (he : EvenlySpaced n ts)
    (d : Data) (data : List (List Ex)) (hd : Holds d data) (hp : ∀ e ∈ data.flatten, Probability e) :
    atThresholds c name ts topK classId d = .ok [(keyNamed c name sub, exactCounts ts (data.flatten.map Ex.rounded))] := by
  refine at_of c name ts topK classId sub hsub d _ ?_
  exact spaced _ n hn ts n (choose_spaced n ts he) he ⟨rfl, rfl, rfl, rfl⟩ d data hd hp

/-- **C137**: a metric based on confusion matrices is computed from the exact counts at the thresholds given to it, or at its
default threshold. -/
theorem C137_metric (f : Bcm.Cols → V) (c : Call) (name : String) (arg : Option ThresholdArg) (topK classId : Option ℤ)
    (default : Option Fl) (sub : Option SubKey) (hsub : Joined c.subKey topK classId sub) (ts : List Fl)
    (hts : Chosen arg default sub ts) (hn : ts.Nodup) (he : ¬ ∃ n, EvenlySpaced n ts)
    (hs : ¬ ∃ t, ts = [t] ∧ Fl.lt t (.fin 0) = true) (d : Data) (data : List (List Ex)) (hd : Holds d data) :
    baseMetric f c name arg none topK classId default d = .ok [(keyNamed c name sub, f (exactCounts ts data.flatten))] := by
  refine base_of f c name arg none topK classId default sub hsub (some ts) (chosen_thresholds _ _ _ _ hts) d _ ?_
  exact counted _ ts (choose_given ts he) hn hs ⟨rfl, rfl, rfl, rfl, rfl⟩ d data hd

/-- **C137**: with a number of thresholds the counts are those of the rounded predictions at as many evenly spaced thresholds.
Missing: more than 1001 of them. -/
theorem C137_number_partial (f : Bcm.Cols → V) (c : Call) (name : String) (n : ℕ) (topK classId : Option ℤ)
    (default : Option Fl) (sub : Option SubKey) (hsub : Joined c.subKey topK classId sub) (h2 : 2 ≤ n) (hn : n ≤ 1001)
    (d : Data) (data : List (List Ex)) (hd : Holds d data) (hp : ∀ e ∈ data.flatten, Probability e) :
    ∃ ts, EvenlySpaced n ts ∧ baseMetric f c name none (some (n : ℤ)) topK classId default d =
      .ok [(keyNamed c name sub, f (exactCounts ts (data.flatten.map Ex.rounded)))] := by
  obtain ⟨l, h1, he⟩ := (C88_number (n : ℤ)).1 (by exact_mod_cast h2)
  rw [Int.toNat_natCast] at he
  refine ⟨l, he, ?_⟩
  refine base_of f c name none (some (n : ℤ)) topK classId default sub hsub none rfl d _ ?_
  exact spaced _ n hn l n h1 he ⟨rfl, rfl, rfl, rfl⟩ d data hd hp

/-- **C137**: a metric of the top k predictions without thresholds counts those among the top k as positive.  Missing: see
C54. -/
theorem C137_top_k_partial (f : Bcm.Cols → V) (c : Call) (name : String) (topK classId : Option ℤ)
    (default : Option Fl) (sub : Option SubKey) (hsub : Joined c.subKey topK classId sub) (k : ℤ) (hk : sub.bind SubKey.topK = some k)
    (hk0 : k ≠ 0) (d : Data) (data : List (List Ex)) (hd : Holds d data)
    (hp : ∀ e ∈ data.flatten, e.pred = .ninf ∨ ∃ q : ℚ, 0 ≤ q ∧ q < 1 ∧ e.pred = .fin q)
    (h0 : ∃ e ∈ data.flatten, e.pred = .ninf) (h1 : ∃ e ∈ data.flatten, e.pred ≠ .ninf) :
    baseMetric f c name none none topK classId default d =
      .ok [(keyNamed c name sub, f (exactCounts [.ninf] data.flatten))] := by
  refine base_of f c name none none topK classId default sub hsub (some [.ninf]) (by simp [metricThresholds, hk, truthyInt, hk0]) d _ ?_
  exact unmasked _ choose_ninf ⟨rfl, rfl, rfl, rfl⟩ d data hd hp h0 h1

/-- Non-vacuous: a metric asked for class 2 at its default threshold; thresholds given as a list. -/
example : Joined none none (some 2) (some ⟨some 2, none, none⟩) ∧ Joined (some ⟨some 1, none, none⟩) (some 3) none (some ⟨some 1, none, some 3⟩) ∧
    Chosen none (some (.fin (1 / 2))) (some ⟨some 2, none, none⟩) [.fin (1 / 2)] ∧
    baseMetric Bcm.Cols.tp {} "tp" none none none (some 2) (some (.fin (1 / 2))) (single (.fin (3 / 4))) =
      .ok [({ name := "tp", subKey := some ⟨some 2, none, none⟩ }, [1])] ∧
    atThresholds {} "at" [.fin (1 / 4), .fin (7 / 8)] none none (single (.fin (1 / 2))) =
      .ok [({ name := "at" }, ⟨[1, 0], [0, 0], [0, 0], [0, 1]⟩)] := by
  refine ⟨⟨.inl rfl, .inr rfl, by simp, rfl, rfl, rfl⟩, ⟨.inr rfl, .inl rfl, by simp, rfl, rfl, rfl⟩,
    .default _ _ rfl, ?_, ?_⟩ <;> decide +kernel

end KerasMatrices
end TFMA
