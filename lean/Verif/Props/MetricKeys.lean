import Verif.Model.MetricKeys

/-!
# C43, C44: metric keys
-/

namespace TFMA
namespace MetricKeys

/-! ### C43: serialization

Specification: the round trip through the message returns the key. -/

/-- A meaningful sub key: k excludes class_id and top_k, and k and top_k are at least 1. -/
structure SubKey.Valid (s : SubKey) : Prop where
  alone : s.k ≠ none → s.classId = none ∧ s.topK = none
  k_pos : ∀ k, s.k = some k → 1 ≤ k
  topK_pos : ∀ t, s.topK = some t → 1 ≤ t

/-- A meaningful aggregation type: no two flags are true. -/
structure AggregationType.Valid (a : AggregationType) : Prop where
  micro_macro : ¬ (a.microAvg = some true ∧ a.macroAvg = some true)
  micro_weighted : ¬ (a.microAvg = some true ∧ a.weightedMacro = some true)
  macro_weighted : ¬ (a.macroAvg = some true ∧ a.weightedMacro = some true)

/-- C43 (constructors): exactly the meaningful sub keys can be constructed, with the given fields; anything else is a
ValueError. -/
theorem C43_subkey_new (c k t : Option ℤ) :
    (SubKey.Valid ⟨c, k, t⟩ → SubKey.new c k t = .ok ⟨c, k, t⟩) ∧
      (¬ SubKey.Valid ⟨c, k, t⟩ → SubKey.new c k t = .error .valueError) := by
  constructor
  · rintro ⟨h1, h2, h3⟩
    cases k with
    | none =>
      cases t with
      | none => rfl
      | some t =>
        have := h3 t rfl
        simp only [SubKey.new]
        rw [if_neg (by omega)]
    | some k =>
      obtain ⟨hc, ht⟩ := h1 (by simp)
      simp only at hc ht
      subst hc; subst ht
      have := h2 k rfl
      simp only [SubKey.new]
      rw [if_neg (by simp), if_neg (by simp), if_neg (by omega)]
  · intro h
    by_contra hcon
    apply h
    cases k with
    | none =>
      cases t with
      | none => exact ⟨by simp, by simp, by simp⟩
      | some t =>
        simp only [SubKey.new] at hcon
        by_cases ht : t < 1
        · rw [if_pos ht] at hcon; exact absurd rfl hcon
        · exact ⟨by simp, by simp, by simp; omega⟩
    | some k =>
      simp only [SubKey.new] at hcon
      cases t with
      | some t => simp at hcon
      | none =>
        cases c with
        | some c => simp at hcon
        | none =>
          by_cases hk : k < 1
          · simp [hk] at hcon
          · exact ⟨by simp, by simp; omega, by simp⟩

/-- C43 (constructors): exactly the meaningful aggregation types can be constructed. -/
theorem C43_aggregation_new (a b w : Option Bool) :
    (AggregationType.Valid ⟨a, b, w⟩ → AggregationType.new a b w = .ok ⟨a, b, w⟩) ∧
      (¬ AggregationType.Valid ⟨a, b, w⟩ → AggregationType.new a b w = .error .valueError) := by
  have key : AggregationType.Valid ⟨a, b, w⟩ ↔ ¬ (a = some true ∧ b = some true) ∧ ¬ (a = some true ∧ w = some true) ∧
      ¬ (b = some true ∧ w = some true) := ⟨fun h => ⟨h.1, h.2, h.3⟩, fun h => ⟨h.1, h.2.1, h.2.2⟩⟩
  rw [key]
  rcases a with _ | _ | _ <;> rcases b with _ | _ | _ <;> rcases w with _ | _ | _ <;> decide

/-- A key that can be constructed. -/
def MetricKey.Valid (m : MetricKey) : Prop :=
  (∀ s, m.subKey = some s → s.Valid) ∧ ∀ a, m.aggregationType = some a → a.Valid

/-- All numbers of the sub key fit into 32 bits. -/
def SubKey.Small (s : SubKey) : Prop :=
  ∀ x, (s.classId = some x ∨ s.k = some x ∨ s.topK = some x) → -2147483648 ≤ x ∧ x ≤ 2147483647

/-- The three aggregation types with a name: one flag true, the others not set. -/
def AggregationType.Normal (a : AggregationType) : Prop :=
  a = ⟨some true, none, none⟩ ∨ a = ⟨none, some true, none⟩ ∨ a = ⟨none, none, some true⟩

private theorem int32_ok (x : Option ℤ) (h : ∀ v, x = some v → -2147483648 ≤ v ∧ v ≤ 2147483647) :
    int32 x = .ok x := by
  cases x with
  | none => rfl
  | some v => simp [int32, h v rfl]

private theorem int32_iff (x y : Option ℤ) :
    int32 x = .ok y ↔ y = x ∧ ∀ v, x = some v → -2147483648 ≤ v ∧ v ≤ 2147483647 := by
  cases x with
  | none => simp [int32, eq_comm]
  | some v =>
    simp only [int32]
    split
    · rename_i h
      simp only [Except.ok.injEq, Option.some.injEq, forall_eq']
      exact ⟨fun e => ⟨e.symm, h⟩, fun e => e.1.symm⟩
    · rename_i h
      simp only [reduceCtorEq, Option.some.injEq, forall_eq', false_iff]
      exact fun e => h e.2

private theorem sub_toProto (s : SubKey) (hs : s.Small) : s.toProto = .ok ⟨s.classId, s.k, s.topK⟩ := by
  unfold SubKey.toProto
  rw [int32_ok _ fun v hv => hs v (Or.inl hv), int32_ok _ fun v hv => hs v (Or.inr (Or.inl hv)),
    int32_ok _ fun v hv => hs v (Or.inr (Or.inr hv))]
  rfl

private theorem sub_round (s : SubKey) (hv : s.Valid) :
    SubKey.fromProto ⟨s.classId, s.k, s.topK⟩ = .ok (if s = ⟨none, none, none⟩ then none else some s) := by
  obtain ⟨c, k, t⟩ := s
  simp only [SubKey.fromProto, SubKey.mk.injEq]
  split
  · rfl
  · rw [(C43_subkey_new c k t).1 hv]; rfl

private theorem agg_round (a : AggregationType) :
    AggregationType.fromProto a.toProto = .ok (some
      (if a.weightedMacro.isSome then ⟨none, none, some true⟩
       else if a.macroAvg.isSome then ⟨none, some true, none⟩ else ⟨some true, none, none⟩)) ∨
    (a = ⟨none, none, none⟩ ∧ AggregationType.fromProto a.toProto = .ok none) := by
  obtain ⟨a, b, c⟩ := a
  rcases a with _ | a <;> rcases b with _ | b <;> rcases c with _ | c
  · right; exact ⟨rfl, rfl⟩
  all_goals left; rfl

private theorem agg_iff (a : AggregationType) :
    AggregationType.fromProto a.toProto = .ok (some a) ↔ a.Normal := by
  obtain ⟨a, b, c⟩ := a
  unfold AggregationType.Normal
  rcases a with _ | _ | _ <;> rcases b with _ | _ | _ <;> rcases c with _ | _ | _ <;> decide

private theorem agg_none : AggregationType.fromProto .unset = .ok none := rfl
private theorem sub_none : SubKey.fromProto {} = .ok none := rfl

private theorem agg_ok (a : AggregationType) : ∃ r, AggregationType.fromProto a.toProto = .ok r := by
  rcases agg_round a with h | ⟨-, h⟩ <;> exact ⟨_, h⟩

/-- C43: for a key whose numbers fit into 32 bits the conversions succeed, and the round trip returns the key
exactly when the sub key is not the empty sub key and the aggregation type is one of the three named ones. -/
theorem C43_roundtrip_iff (m : MetricKey) (hv : m.Valid) (hs : ∀ s, m.subKey = some s → s.Small) :
    (∃ r, m.toProto.bind MetricKey.fromProto = .ok r) ∧
    (m.toProto.bind MetricKey.fromProto = .ok m ↔
      m.subKey ≠ some ⟨none, none, none⟩ ∧ ∀ a, m.aggregationType = some a → a.Normal) := by
  obtain ⟨name, model, output, sub, agg, ew, diff⟩ := m
  have hsub : ∃ r : Option SubKeyPb, subKeyPb sub = .ok r ∧
      SubKey.fromProto (r.getD {}) = .ok (if sub = some ⟨none, none, none⟩ then none else sub) := by
    cases sub with
    | none => exact ⟨none, rfl, rfl⟩
    | some s =>
      refine ⟨some ⟨s.classId, s.k, s.topK⟩, ?_, ?_⟩
      · simp only [subKeyPb, sub_toProto s (hs s rfl)]; rfl
      · have := sub_round s (hv.1 s rfl)
        simp only [Option.getD_some, Option.some.injEq]
        exact this
  have hagg : ∃ r, AggregationType.fromProto ((agg.map AggregationType.toProto).getD .unset) = .ok r ∧
      (r = agg ↔ ∀ a, agg = some a → a.Normal) := by
    cases agg with
    | none => exact ⟨none, rfl, by simp⟩
    | some a =>
      obtain ⟨r, hr⟩ := agg_ok a
      refine ⟨r, hr, ?_⟩
      have := agg_iff a
      rw [hr] at this
      simpa using this
  obtain ⟨r, h1, h2⟩ := hsub
  obtain ⟨r', h3, h4⟩ := hagg
  simp only [MetricKey.toProto]
  rw [h1]
  simp only [bind, Except.bind, pure, Except.pure, MetricKey.fromProto, h2, h3]
  refine ⟨⟨_, rfl⟩, ?_⟩
  simp only [Except.ok.injEq, MetricKey.mk.injEq, true_and, and_true]
  rw [h4]
  refine and_congr ?_ Iff.rfl
  split
  · rename_i h; simp [h]
  · rename_i h; simp [h]

/-- C43 for every key except those with an empty sub key or an aggregation type without exactly one flag set to
True (see `C43_not_all`): the round trip returns the key. -/
theorem C43_roundtrip_partial (m : MetricKey) (hv : m.Valid) (hs : ∀ s, m.subKey = some s → s.Small)
    (h1 : m.subKey ≠ some ⟨none, none, none⟩) (h2 : ∀ a, m.aggregationType = some a → a.Normal) :
    m.toProto.bind MetricKey.fromProto = .ok m :=
  (C43_roundtrip_iff m hv hs).2.2 ⟨h1, h2⟩

/-- C43: a sub key with a number that does not fit into 32 bits cannot be serialized. -/
theorem C43_out_of_range (m : MetricKey) (s : SubKey) (hm : m.subKey = some s) :
    (∃ pb, m.toProto = .ok pb) ↔ s.Small := by
  simp only [MetricKey.toProto, hm, subKeyPb]
  constructor
  · rintro ⟨pb, h⟩
    unfold SubKey.toProto at h
    intro x hx
    cases h1 : int32 s.classId with
    | error e => rw [h1] at h; cases h
    | ok a =>
      cases h2 : int32 s.k with
      | error e => rw [h1, h2] at h; cases h
      | ok b =>
        cases h3 : int32 s.topK with
        | error e => rw [h1, h2, h3] at h; cases h
        | ok c =>
          rcases hx with hx | hx | hx
          · exact ((int32_iff _ _).1 h1).2 x hx
          · exact ((int32_iff _ _).1 h2).2 x hx
          · exact ((int32_iff _ _).1 h3).2 x hx
  · intro hs
    rw [sub_toProto s hs]
    exact ⟨_, rfl⟩

/-- C43: different keys (of the kind that survives) have different messages. -/
theorem C43_injective (m n : MetricKey) (hm : m.toProto.bind MetricKey.fromProto = .ok m)
    (hn : n.toProto.bind MetricKey.fromProto = .ok n) (h : m.toProto = n.toProto) : m = n := by
  rw [h, hn] at hm
  exact (Except.ok.inj hm).symm

/-- C43, plot keys: the round trip returns the key exactly when in addition there is no aggregation type and
it is not a diff key. -/
theorem C43_plot_iff (m : MetricKey) (hv : m.Valid) (hs : ∀ s, m.subKey = some s → s.Small) :
    m.plotToProto.bind MetricKey.plotFromProto = .ok m ↔
      m.subKey ≠ some ⟨none, none, none⟩ ∧ m.aggregationType = none ∧ m.isDiff = false := by
  obtain ⟨name, model, output, sub, agg, ew, diff⟩ := m
  cases sub with
  | none =>
    simp only [MetricKey.plotToProto, MetricKey.toProto, subKeyPb, Except.map, bind, Except.bind, pure, Except.pure,
      MetricKey.plotFromProto, Option.getD_none, sub_none, Except.ok.injEq, MetricKey.mk.injEq, true_and,
      ne_eq, reduceCtorEq, not_false_eq_true]
    constructor
    · rintro ⟨h1, h2⟩; exact ⟨h1.symm, h2.symm⟩
    · rintro ⟨h1, h2⟩; exact ⟨h1.symm, h2.symm⟩
  | some s =>
    have h1 := sub_toProto s (hs s rfl)
    have h2 := sub_round s (hv.1 s rfl)
    simp only [MetricKey.plotToProto, MetricKey.toProto, subKeyPb, Except.map, bind, Except.bind, pure, Except.pure, h1,
      MetricKey.plotFromProto, Option.getD_some, h2, Except.ok.injEq, MetricKey.mk.injEq, true_and,
      ne_eq, Option.some.injEq]
    split
    · rename_i h; simp [h]
    · rename_i h; simp only [h, not_false_eq_true, true_and]
      constructor
      · rintro ⟨h1, h2⟩; exact ⟨h1.symm, h2.symm⟩
      · rintro ⟨h1, h2⟩; exact ⟨h1.symm, h2.symm⟩

/-- C43, attribution keys: the round trip returns the key exactly when there is no aggregation type. -/
theorem C43_attributions_iff (m : MetricKey) (hv : m.Valid) (hs : ∀ s, m.subKey = some s → s.Small) :
    m.attributionsToProto.bind MetricKey.attributionsFromProto = .ok m ↔
      m.subKey ≠ some ⟨none, none, none⟩ ∧ m.aggregationType = none := by
  obtain ⟨name, model, output, sub, agg, ew, diff⟩ := m
  cases sub with
  | none =>
    simp only [MetricKey.attributionsToProto, MetricKey.toProto, subKeyPb, Except.map, bind, Except.bind, pure, Except.pure,
      MetricKey.attributionsFromProto, Option.getD_none, sub_none, Except.ok.injEq, MetricKey.mk.injEq, true_and,
      ne_eq, reduceCtorEq, not_false_eq_true, and_true]
    exact eq_comm
  | some s =>
    have h1 := sub_toProto s (hs s rfl)
    have h2 := sub_round s (hv.1 s rfl)
    simp only [MetricKey.attributionsToProto, MetricKey.toProto, subKeyPb, Except.map, bind, Except.bind, pure, Except.pure, h1,
      MetricKey.attributionsFromProto, Option.getD_some, h2, Except.ok.injEq, MetricKey.mk.injEq, true_and,
      ne_eq, Option.some.injEq, and_true]
    split
    · rename_i h; simp [h]
    · rename_i h; simp only [h, not_false_eq_true, true_and]
      exact eq_comm

/-- A key with all fields set survives. -/
example :
    (MetricKey.mk "auc" "m" "o" (some ⟨some 3, none, some 2⟩) (some ⟨none, some true, none⟩) (some true) true).toProto.bind
      MetricKey.fromProto =
    .ok (MetricKey.mk "auc" "m" "o" (some ⟨some 3, none, some 2⟩) (some ⟨none, some true, none⟩) (some true) true) := by
  decide +kernel

/-- C43 fails for constructible keys: an empty sub key disappears, a flag False becomes True, and of two set flags
only the last one is kept. -/
theorem C43_not_all :
    (MetricKey.mk "auc" "" "" (some ⟨none, none, none⟩) none (some true) false).toProto.bind MetricKey.fromProto =
      .ok (MetricKey.mk "auc" "" "" none none (some true) false) ∧
    (MetricKey.mk "auc" "" "" none (some ⟨some false, none, none⟩) none false).toProto.bind MetricKey.fromProto =
      .ok (MetricKey.mk "auc" "" "" none (some ⟨some true, none, none⟩) none false) ∧
    (MetricKey.mk "auc" "" "" none (some ⟨some true, some false, none⟩) none false).toProto.bind MetricKey.fromProto =
      .ok (MetricKey.mk "auc" "" "" none (some ⟨none, some true, none⟩) none false) ∧
    SubKey.new none none none = .ok ⟨none, none, none⟩ ∧
    AggregationType.new (some true) (some false) none = .ok ⟨some true, some false, none⟩ := by
  decide +kernel

/-! ### C44: the order of metric keys

The claim is that `<` is a strict total order.  It is not: it never holds. -/

/-- C44 (negation): no key is ever less than another one. -/
theorem C44_never_less (a b : MetricKey) : MetricKey.lt a b ≠ .ok true := by
  unfold MetricKey.lt weightedLt
  repeat' split
  all_goals simp [bind, Except.bind, pure, Except.pure]

private theorem insertKey_eq (x : MetricKey) (l : List MetricKey) :
    insertKey x l = .ok (x :: l) ∨ insertKey x l = .error .typeError := by
  cases l with
  | nil => left; rfl
  | cons y ys =>
    simp only [insertKey]
    cases h : MetricKey.lt y x with
    | ok b =>
      cases b with
      | true => exact absurd h (C44_never_less y x)
      | false => left; rfl
    | error e =>
      right
      have : e = .typeError := by
        unfold MetricKey.lt weightedLt at h
        repeat' split at h
        all_goals first | exact (Except.error.inj h).symm | cases h
      rw [this]; rfl

/-- C44 (what holds): sorting either returns the keys in the given order or raises TypeError; in particular no key
is lost. -/
theorem C44_sort_partial (l : List MetricKey) : sortKeys l = .ok l ∨ sortKeys l = .error .typeError := by
  induction l with
  | nil => left; rfl
  | cons x xs ih =>
    simp only [sortKeys]
    rcases ih with h | h
    · rw [h]; exact insertKey_eq x xs
    · rw [h]; right; rfl

/-- C44: sorting does not raise if all keys are example weighted or none is. -/
theorem C44_uniform (l : List MetricKey) (w : Bool) (h : ∀ k ∈ l, k.exampleWeighted = some true ↔ w = true) : sortKeys l = .ok l := by
  induction l with
  | nil => rfl
  | cons x xs ih =>
    simp only [sortKeys]
    rw [ih fun k hk => h k (by simp [hk])]
    simp only [bind, Except.bind]
    cases xs with
    | nil => rfl
    | cons y ys =>
      simp only [insertKey]
      have hx := h x (by simp)
      have hy := h y (by simp)
      have hlt : MetricKey.lt y x = .ok false := by
        unfold MetricKey.lt weightedLt
        cases w <;> simp_all [bind, Except.bind, pure, Except.pure]
      rw [hlt]
      rfl

/-- C44 (negation): the same set of keys sorts to different lists, although their names are ordered. -/
theorem C44_not_canonical :
    sortKeys [{ name := "b" }, { name := "a" }] = .ok [{ name := "b" }, { name := "a" }] ∧
    sortKeys [{ name := "a" }, { name := "b" }] = .ok [{ name := "a" }, { name := "b" }] := by
  decide +kernel

/-- C44 (negation): sorting can raise TypeError. -/
theorem C44_type_error :
    sortKeys [⟨"b", "", "", some ⟨some 1, none, none⟩, some ⟨some true, none, none⟩, some true, false⟩,
      ⟨"a", "", "", none, none, some false, false⟩] = .error .typeError := by
  decide +kernel

/-- None comes before all values. -/
def NoneFirst {α : Type} [LT α] : Option α → Option α → Prop
  | none, some _ => True
  | some x, some y => x < y
  | _, none => False

/-- The order of sub keys: no sub key first, otherwise by class id, k and top k. -/
def SubKeyBefore : Option SubKey → Option SubKey → Prop
  | none, some _ => True
  | some a, some b => List.Lex NoneFirst [a.classId, a.k, a.topK] [b.classId, b.k, b.topK]
  | _, none => False

/-- The order of aggregation types: none first, otherwise by micro, macro and weighted macro average, false before true. -/
def AggregationBefore : Option AggregationType → Option AggregationType → Prop
  | none, some _ => True
  | some a, some b => List.Lex NoneFirst [a.microAvg, a.macroAvg, a.weightedMacro] [b.microAvg, b.macroAvg, b.weightedMacro]
  | _, none => False

private theorem tupleLt_iff {α β : Type} [LT α] [DecidableLT α] [DecidableEq α] (hirr : ∀ x : α, ¬ x < x) (r : β → β → Prop) (f : β → α) (xs ys : List β)
    (hr : ∀ x ∈ xs, ∀ y ∈ ys, r x y ↔ f x < f y) (hf : ∀ x ∈ xs, ∀ y ∈ ys, f x = f y → x = y) :
    tupleLt (xs.map f) (ys.map f) = true ↔ List.Lex r xs ys := by
  induction xs generalizing ys with
  | nil => cases ys with
    | nil => simp only [List.map_nil, tupleLt, Bool.false_eq_true, false_iff]; exact fun h => nomatch h
    | cons y ys => simp only [List.map_nil, List.map_cons, tupleLt, true_iff]; exact .nil
  | cons x xs ih => cases ys with
    | nil => simp only [List.map_nil, List.map_cons, tupleLt, Bool.false_eq_true, false_iff]; exact fun h => nomatch h
    | cons y ys =>
      have h1 := hr x (by simp) y (by simp)
      have h2 := hf x (by simp) y (by simp)
      have i := ih ys (fun a ha b hb => hr a (by simp [ha]) b (by simp [hb])) (fun a ha b hb => hf a (by simp [ha]) b (by simp [hb]))
      simp only [List.map_cons, tupleLt]
      by_cases e : f x = f y
      · rw [if_pos e, i]
        have hxy := h2 e
        subst hxy
        constructor
        · exact .cons
        · intro h
          cases h with
          | cons h => exact h
          | rel h => exact absurd (h1.1 h) (hirr _)
      · rw [if_neg e, decide_eq_true_eq, ← h1]
        constructor
        · exact .rel
        · intro h
          cases h with
          | cons h => exact absurd rfl e
          | rel h => exact h

private def boolVal : Option Bool → ℤ
  | none => -1
  | some b => if b then 1 else 0

/-- **C44** (what holds): comparing two keys raises TypeError exactly if the names, the sub keys and the aggregation types of the
first key all come before those of the second, and one key is example weighted but the other one is not. -/
theorem C44_raises (a b : MetricKey)
    (hv : ∀ s, a.subKey = some s ∨ b.subKey = some s → (∀ x, s.classId = some x → 0 ≤ x) ∧ (∀ x, s.k = some x → 1 ≤ x) ∧ ∀ x, s.topK = some x → 1 ≤ x) :
    MetricKey.lt a b = .error .typeError ↔
      List.Lex (· < ·) [a.name, a.modelName, a.outputName] [b.name, b.modelName, b.outputName] ∧ SubKeyBefore a.subKey b.subKey ∧
        AggregationBefore a.aggregationType b.aggregationType ∧ ¬ (a.exampleWeighted = some true ↔ b.exampleWeighted = some true) := by
  have h1 : tupleLt [a.name, a.modelName, a.outputName] [b.name, b.modelName, b.outputName] = true ↔
      List.Lex (· < ·) [a.name, a.modelName, a.outputName] [b.name, b.modelName, b.outputName] := by
    have := tupleLt_iff String.lt_irrefl (· < ·) (fun x : String => x) [a.name, a.modelName, a.outputName] [b.name, b.modelName, b.outputName]
      (fun _ _ _ _ => Iff.rfl) (fun _ _ _ _ h => h)
    simpa using this
  have h2 : tupleLt (subKeyTuple a.subKey) (subKeyTuple b.subKey) = true ↔ SubKeyBefore a.subKey b.subKey := by
    cases ha : a.subKey with
    | none => cases hb : b.subKey <;> simp [subKeyTuple, tupleLt, SubKeyBefore]
    | some s => cases hb : b.subKey with
      | none => simp [subKeyTuple, tupleLt, SubKeyBefore]
      | some t =>
        have vs := hv s (.inl ha)
        have vt := hv t (.inr hb)
        have n1 : ∀ x ∈ [s.classId, s.k, s.topK], ∀ v, x = some v → 0 ≤ v := by
          intro x hx v hxv
          simp only [List.mem_cons, List.not_mem_nil, or_false] at hx
          rcases hx with rfl | rfl | rfl
          · exact vs.1 v hxv
          · have := vs.2.1 v hxv; omega
          · have := vs.2.2 v hxv; omega
        have n2 : ∀ x ∈ [t.classId, t.k, t.topK], ∀ v, x = some v → 0 ≤ v := by
          intro x hx v hxv
          simp only [List.mem_cons, List.not_mem_nil, or_false] at hx
          rcases hx with rfl | rfl | rfl
          · exact vt.1 v hxv
          · have := vt.2.1 v hxv; omega
          · have := vt.2.2 v hxv; omega
        refine tupleLt_iff (lt_irrefl (α := ℤ)) NoneFirst (fun x : Option ℤ => x.getD (-1)) [s.classId, s.k, s.topK] [t.classId, t.k, t.topK] ?_ ?_
        · intro x hx y hy
          have := n1 x hx
          have := n2 y hy
          cases x <;> cases y <;> simp_all [NoneFirst] <;> omega
        · intro x hx y hy e
          have := n1 x hx
          have := n2 y hy
          cases x <;> cases y <;> simp_all <;> omega
  have h3 : tupleLt (aggTuple a.aggregationType) (aggTuple b.aggregationType) = true ↔
      AggregationBefore a.aggregationType b.aggregationType := by
    cases ha : a.aggregationType with
    | none => cases hb : b.aggregationType <;> simp [aggTuple, tupleLt, AggregationBefore]
    | some s => cases hb : b.aggregationType with
      | none => simp [aggTuple, tupleLt, AggregationBefore]
      | some t =>
        have e : ∀ u : AggregationType, aggTuple (some u) = [u.microAvg, u.macroAvg, u.weightedMacro].map boolVal := by
          intro u
          rcases u with ⟨_ | _, _ | _, _ | _⟩ <;> rfl
        rw [e, e]
        apply tupleLt_iff (lt_irrefl (α := ℤ)) NoneFirst boolVal
        · intro x _ y _
          rcases x with _ | _ | _ <;> rcases y with _ | _ | _ <;> simp [NoneFirst, boolVal]
        · intro x _ y _ h
          rcases x with _ | _ | _ <;> rcases y with _ | _ | _ <;> simp_all [boolVal]
  rw [← h1, ← h2, ← h3]
  unfold MetricKey.lt weightedLt
  cases tupleLt [a.name, a.modelName, a.outputName] [b.name, b.modelName, b.outputName] <;>
  cases tupleLt (subKeyTuple a.subKey) (subKeyTuple b.subKey) <;>
  cases tupleLt (aggTuple a.aggregationType) (aggTuple b.aggregationType) <;>
  by_cases w1 : a.exampleWeighted = some true <;> by_cases w2 : b.exampleWeighted = some true <;>
  simp [w1, w2, bind, Except.bind, pure, Except.pure]

end MetricKeys
end TFMA
