import Verif.Model.MatrixSetup
import Verif.Props.Evaluate
import Verif.Props.ConfusionMatrices
import Mathlib.Tactic.Linarith
import Mathlib.Tactic.FieldSimp
import Mathlib.Tactic.NormNum

/-!
# C88, C89, C90: thresholds, sub keys and sharing of binary confusion matrices, and feature samplers
-/

namespace TFMA
namespace MatrixSetup

open MetricKeys Evaluate

/-! ### Specification -/

/-- `n` thresholds, evenly spaced over [0, 1], except that the first is slightly below 0 and the last slightly above 1. -/
structure EvenlySpaced (n : ℕ) (l : List Fl) : Prop where
  length : l.length = n
  first : l[0]? = some (.fin (-(1 / 10000000)))
  last : l[n - 1]? = some (.fin (1 + 1 / 10000000))
  inner : ∀ i, 0 < i → i < n - 1 → l[i]? = some (.fin ((i : ℚ) / ((n : ℚ) - 1)))

/-- The settings of one request which say what is counted, other than those which are part of the key. -/
structure SameUse (r r' : Request) : Prop where
  aggregation : r.aggregationType = r'.aggregationType
  extract : r.extract = r'.extract
  histogram : r.useHistogram = r'.useHistogram
  fractional : r.fractional = r'.fractional

/-- The key under which others read the matrices: the last key of the last computation. -/
def readKey (cs : List Comp) : Option Key := cs.getLast?.bind fun c => c.keys.getLast?

/-! ### Interpolated thresholds -/

/-- **C88**: interpolated thresholds are evenly spaced. -/
theorem C88_interpolated (n : ℤ) (h : 2 ≤ n) : EvenlySpaced n.toNat (interpolated n) := by
  obtain ⟨m, rfl⟩ : ∃ m : ℕ, n = m + 2 := ⟨(n - 2).toNat, by omega⟩
  have hm : ((m : ℤ) + 2 - 2).toNat = m := by omega
  have hn : ((m : ℤ) + 2).toNat = m + 2 := by omega
  rw [hn]
  have hl : (interpolated ((m : ℤ) + 2)).length = m + 2 := by simp [interpolated]
  refine ⟨hl, by simp [interpolated, Bcm.eps], ?_, ?_⟩
  · have : m + 2 - 1 = ((.fin (-Bcm.eps) :: (List.range m).map fun i : ℕ =>
        Fl.fin (((i : ℚ) + 1) / ((((m : ℤ) + 2 : ℤ) : ℚ) - 1))) : List Fl).length + 0 := by simp
    unfold interpolated
    rw [hm, this, List.getElem?_append_right (by omega)]
    simp [Bcm.eps]
  · intro i h0 h1
    obtain ⟨j, rfl⟩ : ∃ j, i = j + 1 := ⟨i - 1, by omega⟩
    have hj : j < m := by omega
    unfold interpolated
    rw [hm, List.getElem?_append_left (by simp; omega), List.getElem?_cons_succ, List.getElem?_map,
      List.getElem?_range hj]
    push_cast
    rfl

/-- **C88**: the interpolated thresholds ascend strictly. -/
theorem C88_ascending (n : ℕ) (l : List Fl) (h : EvenlySpaced n l) (i j : ℕ) (hij : i < j) (a b : Fl)
    (ha : l[i]? = some a) (hb : l[j]? = some b) : Fl.lt a b = true := by
  have hj : j < n := by
    rw [← h.length]
    exact (List.getElem?_eq_some_iff.1 hb).1
  have hn : (0 : ℚ) < (n : ℚ) - 1 := by
    have : (2 : ℚ) ≤ n := by exact_mod_cast (by omega : 2 ≤ n)
    linarith
  have lt_fin : ∀ p q : ℚ, p < q → Fl.lt (.fin p) (.fin q) = true := by
    intro p q h
    simp only [Fl.lt, Fl.le, Bool.and_eq_true, decide_eq_true_eq, Bool.not_eq_true', decide_eq_false_iff_not, not_le]
    exact ⟨h.le, h⟩
  have hi : a = .fin (if i = 0 then -(1 / 10000000) else (i : ℚ) / ((n : ℚ) - 1)) := by
    by_cases h0 : i = 0
    · subst h0
      rw [h.first] at ha
      rw [if_pos rfl]
      exact (Option.some.inj ha).symm
    · rw [h.inner i (by omega) (by omega)] at ha
      rw [if_neg h0]
      exact (Option.some.inj ha).symm
  have hjv : b = .fin (if j = n - 1 then 1 + 1 / 10000000 else (j : ℚ) / ((n : ℚ) - 1)) := by
    by_cases h0 : j = n - 1
    · rw [h0, h.last] at hb
      rw [if_pos h0]
      exact (Option.some.inj hb).symm
    · rw [h.inner j (by omega) (by omega)] at hb
      rw [if_neg h0]
      exact (Option.some.inj hb).symm
  rw [hi, hjv]
  apply lt_fin
  have c1 : (i : ℚ) < j := by exact_mod_cast hij
  have c2 : (j : ℚ) ≤ (n : ℚ) - 1 := by
    have : (j : ℚ) + 1 ≤ n := by exact_mod_cast hj
    linarith
  have c3 : (i : ℚ) / ((n : ℚ) - 1) < (j : ℚ) / ((n : ℚ) - 1) := (div_lt_div_iff_of_pos_right hn).2 c1
  have c4 : (j : ℚ) / ((n : ℚ) - 1) ≤ 1 := (div_le_one hn).2 c2
  have c5 : (0 : ℚ) ≤ (j : ℚ) / ((n : ℚ) - 1) := by positivity
  split_ifs <;> linarith

/-- **C88**: every prediction from 0 to 1 exceeds the first threshold and does not exceed the last one. -/
theorem C88_covers (n : ℕ) (hn : 1 ≤ n) (l : List Fl) (h : EvenlySpaced n l) (p : ℚ) (h0 : 0 ≤ p) (h1 : p ≤ 1) :
    ∃ a b, l.head? = some a ∧ l.getLast? = some b ∧ Fl.lt a (.fin p) = true ∧ Fl.lt b (.fin p) = false := by
  refine ⟨_, _, by rw [List.head?_eq_getElem?]; exact h.first, by
    rw [List.getLast?_eq_getElem?, h.length]; exact h.last, ?_, ?_⟩
  · have : -(1 / 10000000 : ℚ) < p := by linarith
    simp only [Fl.lt, Fl.le, Bool.and_eq_true, decide_eq_true_eq, Bool.not_eq_true', decide_eq_false_iff_not, not_le]
    exact ⟨this.le, this⟩
  · have : ¬ (1 + 1 / 10000000 : ℚ) ≤ p := by linarith
    simp only [Fl.lt, Fl.le, Bool.and_eq_false_iff, decide_eq_false_iff_not]
    exact .inl this

/-! ### The choice of thresholds -/

private theorem resolve_num (n : ℤ) (h : 2 ≤ n) : resolve (some n, none) = .ok (some n, interpolated n) := by
  simp only [resolve]
  rw [if_neg (by omega)]

private theorem interpolated_length (n : ℕ) : 2 ≤ (interpolated n).length := by
  simp [interpolated]

/-- **C88**: a number of thresholds yields as many interpolated thresholds; a number below 2 is rejected. -/
theorem C88_number (n : ℤ) :
    (2 ≤ n → ∃ l, choose (some n) none = .ok (some n, l) ∧ EvenlySpaced n.toNat l) ∧
    (n < 2 → choose (some n) none = .error .valueError) := by
  refine ⟨fun h => ⟨_, resolve_num n h, C88_interpolated n h⟩, fun h => ?_⟩
  simp only [choose, reset, resolve]
  rw [if_pos (by omega)]

/-- **C88**: given thresholds are used as they are. -/
theorem C88_given (ts : List Fl) : ∃ m, choose none (some ts) = .ok (m, ts) := by
  cases ts with
  | nil => exact ⟨none, rfl⟩
  | cons t l =>
    by_cases h : t :: l = interpolated (t :: l).length
    · refine ⟨some ((t :: l).length : ℤ), ?_⟩
      have h2 : (2 : ℤ) ≤ (t :: l).length := by
        have := interpolated_length (t :: l).length
        rw [← h] at this
        exact_mod_cast this
      simp only [choose, reset]
      rw [if_pos ⟨.inl trivial, h⟩, resolve_num _ h2, ← h]
    · refine ⟨none, ?_⟩
      simp only [choose, reset]
      rw [if_neg (by rintro ⟨-, h'⟩; exact h h'), if_neg (by simp)]
      rfl

/-- **C88**: without any setting 10000 interpolated thresholds are used. -/
theorem C88_neither : ∃ l, choose none none = .ok (some 10000, l) ∧ EvenlySpaced 10000 l :=
  ⟨_, rfl, C88_interpolated 10000 (by norm_num)⟩

/-- **C88**: setting both is rejected.  Missing: a number of 0 with thresholds that happen to be interpolated, and the two numbers of
`C88_dropped`. -/
theorem C88_both_partial (n : ℤ) (ts : List Fl) (h0 : n ≠ 0) (h : (n ≠ 10000 ∧ n ≠ 200) ∨ (ts.length : ℤ) + 2 ≠ n) :
    choose (some n) (some ts) = .error .valueError := by
  cases ts with
  | nil => rfl
  | cons t l =>
    simp only [choose, reset]
    rw [if_neg (by simp [h0]), if_neg ?_]
    · rfl
    · rintro ⟨h1, h2⟩
      simp only [Option.some.injEq, defaultNum, kerasNum] at h1 h2
      rcases h with h | h
      · rcases h1 with h1 | h1
        · exact h.1 h1
        · exact h.2 h1
      · exact h h2

/-- **C88** (false of the code): with 200 or 10000 thresholds asked for and two less given, whatever they are, the given ones are
dropped without a word. -/
theorem C88_dropped (n : ℤ) (ts : List Fl) (hn : n = 10000 ∨ n = 200) (h : (ts.length : ℤ) + 2 = n) :
    choose (some n) (some ts) = .ok (some n, interpolated n) := by
  cases ts with
  | nil =>
    simp at h
    omega
  | cons t l =>
    simp only [choose, reset]
    rw [if_neg (by rcases hn with rfl | rfl <;> simp), if_pos ⟨by simpa [defaultNum, kerasNum] using hn, by rw [h]⟩]
    exact resolve_num n (by omega)

example : ((List.replicate 198 (Fl.fin (1 / 2))).length : ℤ) + 2 = 200 := by rw [List.length_replicate]; norm_num

/-! ### Metrics -/

/-- **C88**: the thresholds of a metric.  A list or a float is used as given; with neither thresholds nor their number a top k
setting selects the threshold -inf, otherwise the default of the metric applies.  Missing: an integer (`C88_integer`). -/
theorem C88_metric_thresholds_partial (num : Option ℤ) (sk : Option SubKey) (d : Option Fl) :
    (∀ l, metricThresholds (some (.list l)) num sk d = .ok (some l)) ∧
    (∀ x, metricThresholds (some (.float x)) num sk d = .ok (some [x])) ∧
    (∀ n, metricThresholds none (some n) sk d = .ok none) ∧
    (∀ s k, sk = some s → s.topK = some k → k ≠ 0 → metricThresholds none none sk d = .ok (some [.ninf])) ∧
    ((∀ s, sk = some s → s.topK = none) → metricThresholds none none sk d = .ok (d.map fun x => [x])) := by
  refine ⟨fun _ => rfl, fun _ => rfl, fun _ => rfl, ?_, ?_⟩
  · rintro s k rfl h hk
    simp [metricThresholds, h, truthyInt, hk]
  · intro h
    cases sk with
    | none => rfl
    | some s => simp [metricThresholds, h s rfl, truthyInt]

/-- **C88** (false of the code): an integer is not accepted as a threshold. -/
theorem C88_integer (n : ℤ) (num : Option ℤ) (sk : Option SubKey) (d : Option Fl) :
    metricThresholds (some (.whole n)) num sk d = .error .typeError := rfl

/-- **C88**: the sub key of a metric combines its settings with those of the specification; a setting made twice is rejected. -/
theorem C88_sub_key (sk : Option SubKey) (topK classId : Option ℤ) :
    ((∃ s, sk = some s ∧ ((topK ≠ none ∧ s.topK ≠ none) ∨ (classId ≠ none ∧ s.classId ≠ none))) →
      updateSubKey sk topK classId = .error .valueError) ∧
    (¬ (∃ s, sk = some s ∧ ((topK ≠ none ∧ s.topK ≠ none) ∨ (classId ≠ none ∧ s.classId ≠ none))) →
      ∃ s, updateSubKey sk topK classId = .ok s ∧
        (s = none ↔ sk = none ∧ topK = none ∧ classId = none) ∧
        (∀ v, s.bind SubKey.topK = some v ↔ topK = some v ∨ sk.bind SubKey.topK = some v) ∧
        (∀ v, s.bind SubKey.classId = some v ↔ classId = some v ∨ sk.bind SubKey.classId = some v) ∧
        s.bind SubKey.k = sk.bind SubKey.k) := by
  constructor
  · rintro ⟨s, rfl, h⟩
    rcases s with ⟨sc, skk, st⟩
    cases topK <;> cases classId <;> cases sc <;> cases st <;> simp_all [updateSubKey]
  · intro h
    cases sk with
    | none => cases topK <;> cases classId <;> simp [updateSubKey]
    | some s =>
      rcases s with ⟨sc, skk, st⟩
      cases topK <;> cases classId <;> cases sc <;> cases st <;> simp_all [updateSubKey]

/-- **C88** (false of the code): the combined sub key is not checked; a class next to a rank, or the top 0, get through although no
such sub key can be made (and none can be loaded, `C44`). -/
theorem C88_unchecked :
    updateSubKey (some ⟨none, some 1, none⟩) none (some 3) = .ok (some ⟨some 3, some 1, none⟩) ∧
    SubKey.new (some 3) (some 1) none = .error .valueError ∧
    updateSubKey none (some 0) none = .ok (some ⟨none, none, some 0⟩) ∧
    SubKey.new none none (some 0) = .error .valueError := ⟨rfl, rfl, rfl, rfl⟩

/-! ### Sharing -/

/-- The key under which the matrices are read. -/
theorem readKey_eq (r : Request) (cs : List Comp) (h : computations r = .ok cs) :
    ∃ num ts, choose r.num r.thresholds = .ok (num, ts) ∧ build r num ts = .ok cs ∧
      readKey cs = some (keyOf r (names r num ts).1) := by
  unfold computations at h
  cases hc : choose r.num r.thresholds with
  | error e => rw [hc] at h; cases h
  | ok p =>
    obtain ⟨num, ts⟩ := p
    rw [hc] at h
    refine ⟨num, ts, rfl, h, ?_⟩
    simp only [build] at h
    split_ifs at h
    · cases h; rfl
    · cases h
      by_cases hk : truthyText r.idKey <;> simp [readKey, fromCountsComp, hk]

/-- What a derived computation reads. -/
def Reads (b : Body) (k : Key) : Prop :=
  (∃ ts, b = .fromHistogram ts k) ∨ ∃ ts e, b = .fromCounts ts k e

/-- The thresholds at which a computation gives matrices. -/
def GivesAt (b : Body) (ts : List Fl) : Prop :=
  (∃ k, b = .fromHistogram ts k) ∨ ∃ k e, b = .fromCounts ts k e

/-- **C89**: the matrices are derived, at the chosen thresholds, from the one value that the computation before them gives. -/
theorem C89_inputs (r : Request) (cs : List Comp) (h : computations r = .ok cs) :
    ∃ c d k num ts, cs = [c, d] ∧ c.kind = .metric ∧ d.kind = .derived ∧ c.keys = [k] ∧ Reads d.body k ∧
      choose r.num r.thresholds = .ok (num, ts) ∧ GivesAt d.body ts := by
  obtain ⟨num, ts, hc, hb, -⟩ := readKey_eq r cs h
  simp only [build] at hb
  split_ifs at hb
  · cases hb
    exact ⟨_, _, _, num, ts, rfl, rfl, rfl, rfl, Or.inl ⟨_, rfl⟩, hc, Or.inl ⟨_, rfl⟩⟩
  · cases hb
    exact ⟨_, _, _, num, ts, rfl, rfl, rfl, rfl, Or.inr ⟨_, _, rfl⟩, hc, Or.inr ⟨_, _, rfl⟩⟩

example : ∃ cs, computations { num := some 3 } = .ok cs := ⟨_, rfl⟩

private theorem names_inj (r r' : Request) (num num' : Option ℤ) (ts ts' : List Fl) (hn : r.name = none) (hn' : r'.name = none)
    (h : (names r num ts).1 = (names r' num' ts').1) :
    keepWeights r.classWeights = keepWeights r'.classWeights ∧ r.idKey = r'.idKey ∧ r.idsCount = r'.idsCount ∧ num = num' ∧
      r.preprocessors = r'.preprocessors ∧ (num = none → ts = ts') := by
  simp only [names, hn, hn', Name.matrices.injEq] at h
  obtain ⟨h1, h2, h3, h4, h5, h6⟩ := h
  refine ⟨h1, h2, h3, h4, h5, fun h0 => ?_⟩
  subst h0
  rw [← h4] at h6
  simpa using h6

private theorem choose_num (num : Option ℤ) (ts : Option (List Fl)) (n : ℤ) (l : List Fl) (h : choose num ts = .ok (some n, l)) :
    l = interpolated n := by
  unfold choose at h
  generalize reset num ts = p at h
  rcases p with ⟨_ | a, _ | b⟩
  · simp only [resolve, Except.ok.injEq, Prod.mk.injEq, Option.some.injEq] at h
    rw [← h.1, ← h.2]
  · simp [resolve] at h
  · simp only [resolve] at h
    split_ifs at h
    simp only [Except.ok.injEq, Prod.mk.injEq, Option.some.injEq] at h
    rw [← h.1, ← h.2]
  · simp [resolve] at h

/-- **C89**: two requests without a name of their own whose matrices have the same key need the same computations, so that sharing
them is harmless.  Missing: requests with different aggregation types (`C89_lost`). -/
theorem C89_shared_partial (r r' : Request) (hu : SameUse r r') (hn : r.name = none) (hn' : r'.name = none)
    (hw : r.classWeights ≠ some []) (hw' : r'.classWeights ≠ some []) (cs cs' : List Comp)
    (h : computations r = .ok cs) (h' : computations r' = .ok cs') (hk : readKey cs = readKey cs') : cs = cs' := by
  obtain ⟨num, ts, hc, hb, he⟩ := readKey_eq r cs h
  obtain ⟨num', ts', hc', hb', he'⟩ := readKey_eq r' cs' h'
  rw [he, he'] at hk
  have hk := Option.some.inj hk
  simp only [keyOf, Key.mk.injEq] at hk
  obtain ⟨k1, k2, k3, k4, -, k5⟩ := hk
  obtain ⟨n1, n2, n3, n4, n5, n6⟩ := names_inj r r' num num' ts ts' hn hn' k1
  have hts : ts = ts' := by
    cases num with
    | none => exact n6 rfl
    | some n => subst n4; rw [choose_num _ _ _ _ hc, choose_num _ _ _ _ hc']
  have hcw : r.classWeights = r'.classWeights := by
    have key : ∀ c : Option (Dict ℤ ℚ), c ≠ some [] → keepWeights c = c := by
      intro c hc
      rcases c with _ | _ | _
      · rfl
      · exact absurd rfl hc
      · rfl
    rw [← key _ hw, ← key _ hw', n1]
  subst n4 hts
  have e1 : histogramComp r = histogramComp r' := by
    funext n
    simp [histogramComp, keyOf, k2, k3, k4, k5, n5, hcw, hu.aggregation]
  have e2 : names r num ts = names r' num ts := by
    simp [names, hn, hn', n1, n2, n3, n5]
  have e3 : keyOf r = keyOf r' := by
    funext n
    simp [keyOf, k2, k3, k4, k5]
  have e4 : countsComp r = countsComp r' := by
    funext n l
    simp [countsComp, e3, k2, k3, k4, k5, n2, n3, n5, hcw, hu.aggregation, hu.extract, hu.fractional]
  have e5 : fromCountsComp r = fromCountsComp r' := by
    funext n l
    simp [fromCountsComp, e3, n2, hu.aggregation]
  simp only [build] at hb hb'
  rw [e1, e2, e3, e4, e5, n2, n3, hcw, n5, hu.histogram] at hb
  split_ifs at hb hb' <;> simp_all

/-- Whether a computation is among those kept by the evaluator. -/
def Kept (s : Separated Body) (c : Computation Body) : Prop := c ∈ s.nonDerived ∨ c ∈ s.derived ∨ c ∈ s.crossSlice ∨ c ∈ s.ciDerived

private theorem same_one {l : List (Computation Body)} (hp : l.Pairwise fun c d => sameId c d = false) {x y : Computation Body}
    (hx : x ∈ l) (hy : y ∈ l) (hid : sameId x y = true) : x = y := by
  induction l with
  | nil => cases hx
  | cons z l ih =>
    rw [List.pairwise_cons] at hp
    rcases List.mem_cons.1 hx with hxz | hxl <;> rcases List.mem_cons.1 hy with hyz | hyl
    · rw [hxz, hyz]
    · rw [hxz, hp.1 _ hyl] at hid; cases hid
    · rw [hyz, sameId_comm, hp.1 _ hxl] at hid; cases hid
    · exact ih hp.2 hxl hyl

private theorem kept_kind {all : List (Computation Body)} {s : Separated Body} (h : separate all = .ok s) {c : Computation Body}
    (hc : Kept s c) : (c.kind = .metric ∧ c ∈ s.nonDerived) ∨ (c.kind = .derived ∧ c ∈ s.derived) ∨
      (c.kind = .crossSlice ∧ c ∈ s.crossSlice) ∨ (c.kind = .ciDerived ∧ c ∈ s.ciDerived) := by
  obtain ⟨h1, h2, h3, h4⟩ := C29_first_occurrences all s h
  have key : ∀ kd, c ∈ firsts (ofKind kd all) → c.kind = kd := by
    intro kd hk
    have := (firsts_sublist _).subset hk
    simpa [ofKind] using (List.mem_filter.1 this).2
  rcases hc with hc | hc | hc | hc
  · exact .inl ⟨key _ (h1 ▸ hc), hc⟩
  · exact .inr (.inl ⟨key _ (h2 ▸ hc), hc⟩)
  · exact .inr (.inr (.inl ⟨key _ (h3 ▸ hc), hc⟩))
  · exact .inr (.inr (.inr ⟨key _ (h4 ▸ hc), hc⟩))

private theorem kept_once {all : List (Computation Body)} {s : Separated Body} (h : separate all = .ok s) {x y : Computation Body}
    (hx : Kept s x) (hy : Kept s y) (hk : x.kind = y.kind) (hid : sameId x y = true) : x = y := by
  have hp := C29_once_in_order all s h
  rcases kept_kind h hx with ⟨k1, m1⟩ | ⟨k1, m1⟩ | ⟨k1, m1⟩ | ⟨k1, m1⟩ <;>
    rcases kept_kind h hy with ⟨k2, m2⟩ | ⟨k2, m2⟩ | ⟨k2, m2⟩ | ⟨k2, m2⟩ <;>
    first
    | (exfalso; rw [k1, k2] at hk; cases hk; done)
    | exact same_one (hp _ (by simp)).2 m1 m2 hid

private theorem single_id {x y : Computation Body} (k : MetricKey) (hx : x.keys = [k]) (hy : y.keys = [k])
    (hc : x.className = y.className) (hp : x.preprocessors = y.preprocessors) : sameId x y = true :=
  (C29_identity x y).2 ⟨hc, by rw [hx, hy], hp, [k], by rw [hx]; rfl⟩

/-- **C89** (false of the code): when a configuration asks for the matrices of the same model, output, sub key and thresholds with
and without aggregation (or with two kinds of it), the evaluator drops one of the computations, whatever else is configured: the
metrics of one of the requests are computed from the counts of the other. -/
theorem C89_lost (render : Name → String) (r : Request) (agg : Option AggregationType) (hne : r.aggregationType ≠ agg)
    (hid : ∀ k, r.idKey = some k → k = "") (cs cs' : List Comp)
    (h : computations r = .ok cs) (h' : computations { r with aggregationType := agg } = .ok cs') :
    readKey cs = readKey cs' ∧
    ∀ all s, separate all = .ok s → ¬ (∀ c ∈ cs ++ cs', Kept s (c.text render)) := by
  obtain ⟨num, ts, hc, hb, he⟩ := readKey_eq r cs h
  obtain ⟨num', ts', hc', hb', he'⟩ := readKey_eq _ cs' h'
  have hc'' : choose r.num r.thresholds = .ok (num', ts') := hc'
  rw [hc] at hc''
  simp only [Except.ok.injEq, Prod.mk.injEq] at hc''
  obtain ⟨rfl, rfl⟩ := hc''
  refine ⟨by rw [he, he']; rfl, ?_⟩
  intro all s hs hall
  have hk : truthyText r.idKey = false := by
    cases hr : r.idKey with
    | none => rfl
    | some k => simp [truthyText, hid k hr]
  simp only [build] at hb hb'
  split_ifs at hb hb'
  · cases hb
    cases hb'
    have e := kept_once hs (hall (histogramComp r (numBuckets ts)) (by simp))
      (hall (histogramComp { r with aggregationType := agg } (numBuckets ts)) (by simp)) rfl (single_id _ rfl rfl rfl rfl)
    have := congrArg Computation.body e
    simp only [Comp.text, histogramComp, Body.histogram.injEq] at this
    exact hne this.2.2.2.2.1
  · cases hb
    cases hb'
    have e := kept_once hs (hall (fromCountsComp r (names r num ts) ts) (by simp))
      (hall (fromCountsComp { r with aggregationType := agg } (names { r with aggregationType := agg } num ts) ts) (by simp)) rfl
      (single_id ((keyOf r (names r num ts).1).text render) (by simp [Comp.text, fromCountsComp, hk])
        (by simp [Comp.text, fromCountsComp, hk, keyOf, names]) rfl rfl)
    have := congrArg Computation.body e
    simp only [Comp.text, fromCountsComp, Body.fromCounts.injEq, Key.mk.injEq] at this
    exact hne this.2.1.2.2.2.2.1

/-- Precision at the top 2 of a binarised and of a micro averaged metric: the requests are accepted, with different computations. -/
example : ∃ cs cs', computations { thresholds := some [.ninf], subKey := some ⟨none, none, some 2⟩ } = .ok cs ∧
    computations { thresholds := some [.ninf], subKey := some ⟨none, none, some 2⟩
                   aggregationType := some ⟨some true, none, none⟩ } = .ok cs' ∧ cs ≠ cs' := by
  have hi : ([Fl.ninf] : List Fl) ≠ interpolated 1 := by simp [interpolated]
  have hc : choose none (some [.ninf]) = .ok (none, [.ninf]) := by
    simp only [choose, reset]
    rw [if_neg (by rintro ⟨-, h⟩; exact hi h), if_neg (by simp)]
    rfl
  refine ⟨_, _, by simp only [computations, hc]; rfl, by simp only [computations, hc]; rfl, by decide⟩

/-! ### Feature samplers -/

/-- **C90** (false of the code): of all the feature samplers of a configuration (for false positives or false negatives, of whatever
model, output, class, feature and name) only one is computed. -/
theorem C90_only_one (render : Name → String) (r r' : Request) (fp fp' : Bool) (feature feature' : String) (size size' : ℤ)
    (t t' : Fl) (name name' : String) (topK topK' classId classId' : Option ℤ) (cs cs' : List Comp)
    (h : sampler r fp feature size t name topK classId = .ok cs) (h' : sampler r' fp' feature' size' t' name' topK' classId' = .ok cs')
    (c c' : Comp) (hc : cs.getLast? = some c) (hc' : cs'.getLast? = some c') (hne : c.body ≠ c'.body)
    (all : List (Computation Body)) (s : Separated Body) (hs : separate all = .ok s) :
    ¬ (Kept s (c.text render) ∧ Kept s (c'.text render)) := by
  have key : ∀ {r fp feature size t name topK classId cs c}, sampler r fp feature size t name topK classId = .ok cs →
      cs.getLast? = some c → c.kind = .derived ∧ c.className = "function" ∧ c.keys = [] ∧ c.preprocessors = [] := by
    intro r fp feature size t name topK classId cs c h hc
    simp only [sampler, bind, Except.bind, pure, Except.pure] at h
    split at h
    · cases h
    · split at h
      · cases h
      · simp only [Except.ok.injEq] at h
        rw [← h, List.getLast?_append] at hc
        simp only [List.getLast?_singleton, Option.some_or, Option.some.injEq] at hc
        rw [← hc]
        exact ⟨rfl, rfl, rfl, rfl⟩
  obtain ⟨a1, a2, a3, a4⟩ := key h hc
  obtain ⟨b1, b2, b3, b4⟩ := key h' hc'
  rintro ⟨k1, k2⟩
  have e := kept_once hs k1 k2 (by simp [Comp.text, a1, b1]) ((C29_identity _ _).2
    ⟨by simp [Comp.text, a2, b2], by simp [Comp.text, a3, b3], by simp [Comp.text, a4, b4], [], by simp [Comp.text, a3, sortKeys]⟩)
  exact hne (congrArg Computation.body e)

/-- **C90**: a sampler of a feature is set up to count at its threshold with the feature as the id of examples, for as many examples
as asked for, and to take its samples from these matrices. -/
theorem C90_setup (r : Request) (fp : Bool) (feature : String) (size : ℤ) (t : Fl) (name : String) (topK classId : Option ℤ)
    (hf : feature ≠ "") (hs : size ≠ 0) (sk : Option SubKey) (hsk : updateSubKey r.subKey topK classId = .ok sk) :
    ∃ counts matrices samples k input out,
      sampler r fp feature size t name topK classId = .ok [counts, matrices, samples] ∧
      counts.body = .counts [t] r.modelName r.outputName sk r.extract (some feature) size r.aggregationType r.classWeights
        r.exampleWeighted r.fractional ∧
      counts.preprocessors = ["feature_preprocessor"] ∧ counts.keys = [k] ∧ matrices.body = .fromCounts [t] k true ∧
      matrices.keys.head? = some input ∧ samples.body = .samples fp input out ∧ out.name = .given (some name) ∧ out.subKey = sk ∧
      out.modelName = r.modelName ∧ out.outputName = r.outputName := by
  obtain ⟨m, hm⟩ := C88_given [t]
  have h1 : truthyText (some feature) = true := by simp [truthyText, hf]
  have h2 : truthyInt (some size) = true := by simp [truthyInt, hs]
  let r' := { r with subKey := sk, num := none, thresholds := some [t], idKey := some feature, idsCount := some size,
                     useHistogram := some false, preprocessors := ["feature_preprocessor"] }
  have hb : computations r' = .ok [countsComp r' (names r' m [t]).1 [t], fromCountsComp r' (names r' m [t]) [t]] := by
    simp only [computations, r', hm, build, Option.getD_some, Bool.false_and, h1, h2, Bool.and_self,
      Bool.not_true, Bool.and_false, Bool.false_eq_true, if_false, bne_self_eq_false]
  refine ⟨countsComp r' (names r' m [t]).1 [t], fromCountsComp r' (names r' m [t]) [t],
    { kind := .derived, className := "function", keys := [], body := .samples fp (keyOf r' (names r' m [t]).2)
        { keyOf r' (.given (some name)) with aggregationType := r.aggregationType } }, _, keyOf r' (names r' m [t]).2,
    { keyOf r' (.given (some name)) with aggregationType := r.aggregationType }, ?_, rfl, rfl, rfl, ?_, ?_, rfl, rfl, rfl, rfl, rfl⟩
  · simp only [sampler, hsk, bind, Except.bind, pure, Except.pure]
    rw [hb]
    simp only [List.cons_append, List.nil_append, List.getLast?_cons_cons, List.getLast?_singleton, Option.bind_some]
    congr 4
    simp [fromCountsComp, r', h1]
  · simp [fromCountsComp, r', h1]
  · simp [fromCountsComp, r', h1]

/-- Samplers of false positives and of false negatives with the same settings differ in their last computations. -/
example : ∃ cs cs' c c', sampler {} true "id" 5 (.fin (1 / 2)) "fp" none none = .ok cs ∧
    sampler {} false "id" 5 (.fin (1 / 2)) "fn" none none = .ok cs' ∧ cs.getLast? = some c ∧ cs'.getLast? = some c' ∧
    c.body ≠ c'.body := by
  have hi : ([Fl.fin (1 / 2)] : List Fl) ≠ interpolated 1 := by simp [interpolated]
  have hc : choose none (some [.fin (1 / 2)]) = .ok (none, [.fin (1 / 2)]) := by
    simp only [choose, reset]
    rw [if_neg (by rintro ⟨-, h⟩; exact hi h), if_neg (by simp)]
    rfl
  refine ⟨_, _, _, _, by simp only [sampler, updateSubKey, bind, Except.bind, computations, hc]; rfl,
    by simp only [sampler, updateSubKey, bind, Except.bind, computations, hc]; rfl, rfl, rfl, ?_⟩
  decide

/-- **C90**: a sampler yields the feature values of the first examples (as many as asked for) in its cell of the confusion matrix, one
after the other.  A slice without an example in the cell makes the evaluation fail instead of yielding no samples.  (The model of
the counts keeps a text per example for its feature value, which `feature` maps to the array.) -/
theorem C90_sampler {V : Type} (feature : String → List V) (c : Bcm.Config) (t : Fl) (ht : c.thresholds = [t]) (hc : 1 ≤ c.idsCount)
    (s : Beam.Sched _) (xs : List Bcm.Example) (hs : s.inputs = xs.map .ok) (rows : List (Bcm.MRow × Bcm.ERow))
    (h : (((Bcm.combiner c).run s).bind fun a => Bcm.toMatrices (Bcm.extract c a) c.thresholds) = .ok rows) (k : Bcm.Cell) :
    getSamples (rows.map fun r => (k.sampled r.2).map feature) =
      if Bcm.cellIds c.fractional t k xs = [] then .error .valueError
      else .ok (((Bcm.cellIds c.fractional t k xs).take c.idsCount).map feature).flatten := by
  have key := Bcm.C53_sampled_ids c (by rw [ht]; simp) hc s xs hs rows h
  obtain ⟨r, rfl, hr⟩ : ∃ r, rows = [r] ∧ r.2.threshold = t := by
    cases hr : (Bcm.combiner c).run s with
    | error e => rw [hr] at h; cases h
    | ok a =>
      rw [hr, ht] at h
      simp only [Except.bind, Bcm.toMatrices, bind, pure, Except.pure] at h
      split at h
      · cases h
      · cases h
        exact ⟨_, rfl, rfl⟩
  have := key r (List.mem_singleton.2 rfl) k
  rw [hr] at this
  simp only [List.map_cons, List.map_nil, getSamples, this, List.isEmpty_iff, List.map_eq_nil_iff, List.take_eq_nil_iff]
  have h0 : ¬ c.idsCount = 0 := by omega
  simp only [h0, false_or]

/-- Two false positives of which one is sampled. -/
example : ((((Bcm.combiner ⟨[.fin (1 / 2)], 1, true⟩).run
      (.bundle [.ok ⟨[⟨.fin 0, .fin (3 / 4), 1⟩], some "a"⟩, .ok ⟨[⟨.fin 0, .fin 1, 1⟩], some "b"⟩])).bind fun a =>
        Bcm.toMatrices (Bcm.extract ⟨[.fin (1 / 2)], 1, true⟩ a) [.fin (1 / 2)]).toOption.map
          fun rows => rows.map fun r => r.2.fp) = some [["a"]] := by decide +kernel

end MatrixSetup
end TFMA
