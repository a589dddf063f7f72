import Verif.Lemmas.EvalResults
import Verif.Props.SliceKeys

/-!
# C94: loaded results show the stored metrics of the chosen model

Specification: which model of a record is shown (`Chosen`), under which place a stored metric is found (`HasSubKey`,
`Displayed`), and what is found there (`Visible`: the last one stored at that place; metrics that belong to no model take
precedence).
-/

namespace TFMA
namespace EvalResults

open MetricKeys Slicer

variable {O V W : Type}

/-- The sub key of a stored metric is the one asked for by `class_id`, `k` and `top_k`; asking for nothing means no sub key. -/
def HasSubKey (key : MetricKeyPb) (c k t : Option ℤ) : Prop :=
  (key.subKey = none ∧ c = none ∧ k = none ∧ t = none) ∨
    (key.subKey = some ⟨c, k, t⟩ ∧ ¬ (c = none ∧ k = none ∧ t = none))

/-- The name under which a stored metric is displayed. -/
inductive Displayed (key : MetricKeyPb) : String → Prop
  | plain : key.isDiff = false → key.aggregationType = none → Displayed key key.name
  | average (a : AggregationPb) : key.isDiff = false → key.aggregationType = some a →
      Displayed key (aggregationText a ++ "_" ++ key.name)
  | diff : key.isDiff = true → Displayed key (key.name ++ "_diff")

/-- All metrics of a record: those of the deprecated map have nothing but a name. -/
def entries (r : MetricsRecord O) : List (KeyValue O) :=
  r.legacy.map (fun p => ⟨{ name := p.1 }, p.2, {}⟩) ++ r.keysAndValues

/-- `v` is the value of the last metric of the given model, output, sub key and name. -/
def LastAt (l : List (KeyValue O)) (mdl o : String) (c k t : Option ℤ) (n : String) (v : MetricValue O) : Prop :=
  let here (key : MetricKeyPb) := key.modelName = mdl ∧ key.outputName = o ∧ HasSubKey key c k t ∧ Displayed key n
  ∃ pre x post, l = pre ++ x :: post ∧ here x.key ∧ v = withInterval x.value x.interval ∧ ∀ y ∈ post, ¬ here y.key

/-- What is shown at a place for the model `m`. -/
def Visible (l : List (KeyValue O)) (m o : String) (c k t : Option ℤ) (n : String) (v : MetricValue O) : Prop :=
  LastAt l "" o c k t n v ∨ ((¬ ∃ u, LastAt l "" o c k t n u) ∧ LastAt l m o c k t n v)

/-- The model of a record that is shown: the one asked for; otherwise the one that has the diff metrics (none of the models, if
several have some); otherwise the only one. -/
def Chosen (l : List MetricKeyPb) (model : Option String) (m : String) : Prop :=
  (∃ x ∈ l, x.modelName = m) ∧
    ((model = some m ∧ m ≠ "") ∨
      ((model = none ∨ model = some "") ∧
        (((∃ x ∈ l, x.isDiff = true) ∧ ∀ x ∈ l, x.isDiff = true → x.modelName = m) ∨
          ((∃ x ∈ l, ∃ y ∈ l, x.isDiff = true ∧ y.isDiff = true ∧ x.modelName ≠ y.modelName) ∧ m = "") ∨
          ((∀ x ∈ l, x.isDiff = false) ∧ ∀ x ∈ l, x.modelName = m))))

/-- The keys of the metrics of a record. -/
def keysOf (r : MetricsRecord O) : List MetricKeyPb := (entries r).map (·.key)

theorem displayed_iff (key : MetricKeyPb) (n : String) : shownName key = n ↔ Displayed key n := by
  unfold shownName
  constructor
  · intro h
    by_cases hd : key.isDiff = true
    · simp only [hd, if_true] at h
      exact h ▸ .diff hd
    · have hd' : key.isDiff = false := by simpa using hd
      cases ha : key.aggregationType with
      | none => simp [hd', ha] at h; exact h ▸ .plain hd' ha
      | some a => simp [hd', ha] at h; exact h ▸ .average a hd' ha
  · intro h
    cases h with
    | plain h1 h2 => simp [h1, h2]
    | average a h1 h2 => simp [h1, h2]
    | diff h1 => simp [h1]

theorem metricsSubKey_inv {c k t : Option ℤ} {sub : String} (h : metricsSubKey c k t = .ok sub) :
    ((c = none ∧ k = none ∧ t = none) ∧ sub = "") ∨
      (¬ (c = none ∧ k = none ∧ t = none) ∧ SubKey.new c k t = .ok ⟨c, k, t⟩ ∧ subKeyStr ⟨c, k, t⟩ = .ok sub) := by
  unfold metricsSubKey at h
  split at h
  · rename_i hn
    exact Or.inl ⟨hn, (Except.ok.inj h).symm⟩
  · rename_i hn
    right
    cases hs : SubKey.new c k t with
    | error e => simp [hs] at h
    | ok s =>
      simp only [hs] at h
      obtain ⟨_, rfl⟩ := exclusive_new hs
      exact ⟨hn, rfl, h⟩

theorem subKeyId_iff {c k t : Option ℤ} {sub : String} (h : metricsSubKey c k t = .ok sub) (key : MetricKeyPb) :
    subKeyId key.subKey = .ok sub ↔ HasSubKey key c k t := by
  unfold HasSubKey
  rcases metricsSubKey_inv h with ⟨hn, rfl⟩ | ⟨hn, hnew, hstr⟩
  · obtain ⟨rfl, rfl, rfl⟩ := hn
    cases hk : key.subKey with
    | none => simp [subKeyId]
    | some pb =>
      simp only [subKeyId, reduceCtorEq, false_and, and_self, not_true_eq_false, and_false, or_self, iff_false]
      cases hp : SubKey.fromProto pb with
      | error e => simp
      | ok s => cases s with
        | none => simp
        | some s =>
          simp only
          intro hh
          exact (subKeyStr_ne hh).1 rfl
  · have hne := subKeyStr_ne hstr
    have hex := (exclusive_new hnew).1
    cases hk : key.subKey with
    | none =>
      simp only [subKeyId, Except.ok.injEq, true_and, reduceCtorEq, false_and, or_false]
      exact ⟨fun hh => absurd hh.symm hne.1, fun hh => absurd hh hn⟩
    | some pb =>
      simp only [subKeyId, reduceCtorEq, false_and, Option.some.injEq, false_or]
      constructor
      · intro hh
        refine ⟨?_, hn⟩
        cases hp : SubKey.fromProto pb with
        | error e => simp [hp] at hh
        | ok s => cases s with
          | none => simp [hp] at hh; exact absurd hh.symm hne.2
          | some s =>
            simp only [hp] at hh
            unfold SubKey.fromProto at hp
            split at hp
            · simp at hp
            · cases hs : SubKey.new pb.classId pb.k pb.topK with
              | error e => simp [hs, Except.map] at hp
              | ok s' =>
                simp only [hs, Except.map, Except.ok.injEq, Option.some.injEq] at hp
                subst hp
                obtain ⟨e1, e2⟩ := exclusive_new hs
                have := subKeyStr_inj e1 hex hh hstr
                rw [this] at e2
                obtain ⟨pc, pk, pt⟩ := pb
                simp only [SubKey.mk.injEq] at e2
                simp [e2]
      · rintro ⟨rfl, _⟩
        have : SubKey.fromProto ⟨c, k, t⟩ = .ok (some ⟨c, k, t⟩) := by
          unfold SubKey.fromProto
          rw [if_neg hn, hnew]
          rfl
        rw [this]
        exact hstr

/-! ### The dictionaries of a record -/

private def items (l : List (KeyValue O)) : List (MetricKeyPb × (MetricValue O × Interval O)) :=
  l.map fun kv => (kv.key, (kv.value, kv.interval))

private def start (d : Dict String (MetricValue O)) : Dict String (ByOutput (MetricValue O)) :=
  if d.isEmpty then [] else [("", [("", [("", d)])])]

private theorem set_new {K U : Type} [DecidableEq K] (d : Dict K U) (k : K) (v : U) (h : k ∉ Dict.keys d) :
    Dict.set d k v = d ++ [(k, v)] := by
  induction d with
  | nil => rfl
  | cons x d ih =>
    simp only [Dict.keys, List.map_cons, List.mem_cons, not_or] at h
    simp only [Dict.set, List.cons_append]
    rw [if_neg (fun e => h.1 e.symm), ih h.2]

private theorem fill_append (name : MetricKeyPb → String) (val : W → V) (l l' : List (MetricKeyPb × W))
    (maps : Dict String (ByOutput V)) (d : Option String) :
    fill name val (l ++ l') maps d = match fill name val l maps d with
      | .error e => .error e
      | .ok p => fill name val l' p.1 p.2 := by
  induction l generalizing maps d with
  | nil => rfl
  | cons x l ih =>
    obtain ⟨k, w⟩ := x
    simp only [List.cons_append, fill]
    cases subKeyId k.subKey with
    | error e => rfl
    | ok sub => exact ih _ _

private theorem fill_legacy (d acc : Dict String (MetricValue O)) (h : (Dict.keys (acc ++ d)).Nodup) :
    fill shownName (fun w : MetricValue O × Interval O => withInterval w.1 w.2)
      (items (d.map fun p => ⟨{ name := p.1 }, p.2, {}⟩)) (start acc) none = .ok (start (acc ++ d), none) := by
  induction d generalizing acc with
  | nil => simp [items, fill]
  | cons x d ih =>
    have hx : x.1 ∉ Dict.keys acc := by
      simp only [Dict.keys, List.map_append, List.map_cons] at h ⊢
      intro hh
      exact (List.nodup_append.mp h).2.2 _ hh _ (List.mem_cons_self ..) rfl
    have hstep : Dict.set (start acc) "" (setIn ((Dict.get? (start acc) "").getD []) "" "" x.1 x.2) = start (acc ++ [x]) := by
      cases acc with
      | nil => simp [start, Dict.set, Dict.get?, setIn]
      | cons a acc =>
        simp only [start, List.isEmpty_cons, Bool.false_eq_true, if_false, Dict.get?, if_true, Option.getD_some, setIn, Dict.set,
          List.cons_append]
        have := set_new (a :: acc) x.1 x.2 hx
        simp only [Dict.set, List.cons_append] at this
        simp [this]
    have := ih (acc ++ [x]) (by simpa using h)
    rw [List.append_assoc, List.singleton_append] at this
    rw [← this, ← hstep]
    rfl

private theorem fill_entries (r : MetricsRecord O) (h : Dict.WF r.legacy) :
    fill shownName (fun w : MetricValue O × Interval O => withInterval w.1 w.2)
      (r.keysAndValues.map fun kv => (kv.key, (kv.value, kv.interval))) (start r.legacy) none =
    fill shownName (fun w : MetricValue O × Interval O => withInterval w.1 w.2) (items (entries r)) [] none := by
  have h1 := fill_legacy (O := O) r.legacy [] h
  have h2 : start ([] : Dict String (MetricValue O)) = [] := rfl
  rw [h2] at h1
  simp only [List.nil_append] at h1
  unfold entries
  unfold items at *
  rw [List.map_append, fill_append, h1]

private theorem lastAt_iff (l : List (KeyValue O)) (mdl o : String) {c k t : Option ℤ} {sub : String}
    (hsub : metricsSubKey c k t = .ok sub) (n : String) (v : MetricValue O) :
    ((latest (At shownName mdl o sub n) (items l)).map fun w : MetricValue O × Interval O => withInterval w.1 w.2) = some v ↔
      LastAt l mdl o c k t n v := by
  have hat : ∀ key, At shownName mdl o sub n key ↔
      key.modelName = mdl ∧ key.outputName = o ∧ HasSubKey key c k t ∧ Displayed key n := by
    intro key
    unfold At
    rw [subKeyId_iff hsub, displayed_iff]
  rw [Option.map_eq_some_iff]
  simp only [latest_iff, hat, items]
  unfold LastAt
  constructor
  · rintro ⟨w, ⟨pre, x, post, hl, h1, rfl, h2⟩, rfl⟩
    obtain ⟨pre', rest', rfl, rfl, hr⟩ := List.map_eq_append_iff.mp hl
    obtain ⟨x', post', rfl, rfl, rfl⟩ := List.map_eq_cons_iff.mp hr
    refine ⟨pre', x', post', rfl, h1, rfl, ?_⟩
    intro y hy
    exact h2 _ (List.mem_map_of_mem hy)
  · rintro ⟨pre, x, post, rfl, h1, rfl, h2⟩
    refine ⟨(x.value, x.interval), ⟨items pre, (x.key, (x.value, x.interval)), items post, by simp [items], h1, rfl, ?_⟩, rfl⟩
    intro y hy
    obtain ⟨y', hy', rfl⟩ := List.mem_map.mp hy
    exact h2 _ hy'

/-! ### The model of the diff metrics -/

private theorem diff_fold (l : List MetricKeyPb) (d : Option String) :
    l.foldl (fun d x => diffModel x d) d =
      match d with
      | some m => if ∀ x ∈ l, x.isDiff = true → x.modelName = m then some m else some ""
      | none => match l.find? (·.isDiff) with
        | none => none
        | some x => if ∀ y ∈ l, y.isDiff = true → y.modelName = x.modelName then some x.modelName else some "" := by
  have some_case : ∀ (l : List MetricKeyPb) (m : String), l.foldl (fun d x => diffModel x d) (some m) =
      if ∀ x ∈ l, x.isDiff = true → x.modelName = m then some m else some "" := by
    intro l
    induction l with
    | nil => intro m; simp
    | cons x l ih =>
      intro m
      rw [List.foldl_cons]
      by_cases hx : x.isDiff = true
      · by_cases hm : m = x.modelName
        · have : diffModel x (some m) = some m := by simp [diffModel, hm]
          rw [this, ih]
          simp [hm]
        · have : diffModel x (some m) = some "" := by simp [diffModel, hm, hx]
          have hn : ¬ ∀ y ∈ x :: l, y.isDiff = true → y.modelName = m := fun hh => hm (hh x (by simp) hx).symm
          rw [this, ih, if_neg hn]
          split <;> rfl
      · have : diffModel x (some m) = some m := by simp [diffModel, hx]
        rw [this, ih]
        have hx' : x.isDiff = false := by simpa using hx
        simp [hx']
  cases d with
  | some m => exact some_case l m
  | none =>
    induction l with
    | nil => rfl
    | cons x l ih =>
      rw [List.foldl_cons]
      by_cases hx : x.isDiff = true
      · have : diffModel x none = some x.modelName := by simp [diffModel, hx]
        rw [this, some_case, List.find?_cons_of_pos hx]
        simp
      · have : diffModel x none = none := by simp [diffModel, hx]
        rw [this, ih, List.find?_cons_of_neg (by simpa using hx)]
        have hx' : x.isDiff = false := by simpa using hx
        simp [hx']

/-! ### One record -/

private theorem length_one_iff {U : Type} (maps : Dict String U) (h : Dict.WF maps) (hne : maps ≠ []) :
    maps.length = 1 ↔ ∃ m, ∀ x ∈ Dict.keys maps, x = m := by
  cases maps with
  | nil => exact absurd rfl hne
  | cons a l => cases l with
    | nil => simp [Dict.keys]
    | cons b l =>
      simp only [Dict.WF, Dict.keys, List.map_cons, List.nodup_cons, List.mem_cons, not_or] at h
      simp only [List.length_cons, Dict.keys, List.map_cons, List.mem_cons, forall_eq_or_imp]
      constructor
      · intro hh; omega
      · rintro ⟨m, h1, h2, _⟩
        exact absurd (h1.trans h2.symm) h.1.1

/-- How the dictionary of a record is chosen among those of the models. -/
theorem choice_spec {U : Type} (l : List MetricKeyPb) (model default : Option String) (maps : Dict String U)
    (hmaps : Dict.WF maps) (hkeys : ∀ mdl, mdl ∈ Dict.keys maps ↔ ∃ x ∈ l, x.modelName = mdl)
    (hd : default = l.foldl (fun d x => diffModel x d) none) :
    (∃ m own, (orElseText model default).bind (Dict.get? maps) = some own ∧ orElseText model default = some m ∧
      Dict.get? maps m = some own ∧ Chosen l model m) ∨
    (∃ x, maps = [x] ∧ (orElseText model default).bind (Dict.get? maps) = none ∧
      ((orElseText model default = none ∨ orElseText model default = some "") ∧ List.length maps = 1) ∧
      Dict.get? maps x.1 = some x.2 ∧ Chosen l model x.1 ∧ ∀ y ∈ l, y.modelName = x.1) ∨
    ((orElseText model default).bind (Dict.get? maps) = none ∧
      ¬ ((orElseText model default = none ∨ orElseText model default = some "") ∧ List.length maps = 1) ∧
      ((maps = [] ∧ l = []) ∨ (maps ≠ [] ∧ l ≠ [] ∧ ¬ ∃ m, Chosen l model m))) := by
  rw [diff_fold] at hd
  simp only at hd
  have hd0 : default = none ↔ ∀ x ∈ l, x.isDiff = false := by
    rw [hd]
    cases hfind : l.find? (·.isDiff) with
    | none =>
      simp only [true_iff]
      intro x hx
      have := List.find?_eq_none.mp hfind x hx
      simpa using this
    | some y =>
      have hy := List.find?_some hfind
      have hx := List.mem_of_find?_eq_some hfind
      rename MetricKeyPb => x
      simp only
      constructor
      · intro hh
        split at hh <;> simp at hh
      · intro hh
        rw [hh x hx] at hy
        simp at hy
  have hd1 : ∀ m, default = some m ↔
      ((∃ x ∈ l, x.isDiff = true) ∧ ∀ x ∈ l, x.isDiff = true → x.modelName = m) ∨
      ((∃ x ∈ l, ∃ y ∈ l, x.isDiff = true ∧ y.isDiff = true ∧ x.modelName ≠ y.modelName)
        ∧ m = "") := by
    intro m
    rw [hd]
    cases hfind : l.find? (·.isDiff) with
    | none =>
      have hno : ∀ x ∈ l, x.isDiff = false := by
        intro x hx
        have := List.find?_eq_none.mp hfind x hx
        simpa using this
      simp only [reduceCtorEq, false_iff, not_or, not_and]
      refine ⟨?_, ?_⟩
      · rintro ⟨x, hx, hh⟩
        rw [hno x hx] at hh
        simp at hh
      · rintro ⟨x, hx, _, _, hh, _⟩
        rw [hno x hx] at hh
        simp at hh
    | some y =>
      have hy := List.find?_some hfind
      have hx := List.mem_of_find?_eq_some hfind
      rename MetricKeyPb => x
      simp only
      split
      · rename_i hall
        constructor
        · intro hh
          have hh := Option.some.inj hh
          exact Or.inl ⟨⟨x, hx, hy⟩, fun z hz hd => (hall z hz hd).trans hh⟩
        · rintro (⟨_, hh⟩ | ⟨⟨a, ha, b, hb, h1, h2, h3⟩, _⟩)
          · rw [hh x hx hy]
          · exact absurd ((hall a ha h1).trans (hall b hb h2).symm) h3
      · rename_i hall
        push Not at hall
        obtain ⟨z, hz, hd, hne⟩ := hall
        constructor
        · intro hh
          exact Or.inr ⟨⟨x, hx, z, hz, hy, hd, fun e => hne e.symm⟩, (Option.some.inj hh).symm⟩
        · rintro (⟨_, hh⟩ | ⟨_, hh⟩)
          · exact absurd ((hh z hz hd).trans (hh x hx hy).symm) hne
          · rw [hh]
  have htmp : ∀ m, orElseText model default = some m ↔
      ((model = some m ∧ m ≠ "") ∨ ((model = none ∨ model = some "") ∧ default = some m)) := by
    intro m
    unfold orElseText
    cases model with
    | none => simp
    | some s =>
      by_cases hs : s = ""
      · subst hs
        simp only [if_true, reduceCtorEq, or_true, true_and, Option.some.injEq]
        constructor
        · exact fun hh => Or.inr hh
        · rintro (⟨h1, h2⟩ | hh)
          · exact absurd h1.symm h2
          · exact hh
      · simp only [hs, if_false, Option.some.injEq, reduceCtorEq, or_self, false_and, or_false]
        exact ⟨fun hh => ⟨hh, hh ▸ hs⟩, fun hh => hh.1⟩
  have htmp0 : orElseText model default = none ↔ ((model = none ∨ model = some "") ∧ default = none) := by
    unfold orElseText
    cases model with
    | none => simp
    | some s =>
      by_cases hs : s = ""
      · simp [hs]
      · simp [hs]
  cases hbind : (orElseText model default).bind (Dict.get? maps) with
  | some own =>
    obtain ⟨m, hm, hown⟩ := Option.bind_eq_some_iff.mp hbind
    refine Or.inl ⟨m, own, rfl, hm, hown, (hkeys m).mp ((Dict.mem_keys_iff _ _).mpr ⟨own, hown⟩), ?_⟩
    rcases (htmp m).mp hm with hh | ⟨h1, h2⟩
    · exact Or.inl hh
    · refine Or.inr ⟨h1, ?_⟩
      rcases (hd1 m).mp h2 with hh | hh
      · exact Or.inl hh
      · exact Or.inr (Or.inl hh)
  | none =>
    right
    have hnot : ∀ m, orElseText model default = some m → m ∉ Dict.keys maps := by
      intro m hm
      rw [hm, Option.bind_some] at hbind
      exact (Dict.get?_eq_none_iff _ _).mp hbind
    by_cases hone : (orElseText model default = none ∨ orElseText model default = some "") ∧ List.length maps = 1
    · left
      obtain ⟨htm, hlen⟩ := hone
      obtain ⟨x, hx⟩ : ∃ x, maps = [x] := List.length_eq_one_iff.mp hlen
      have hall : ∀ y ∈ l, y.modelName = x.1 := by
        intro y hy
        have := (hkeys y.modelName).mpr ⟨y, hy, rfl⟩
        simpa [hx, Dict.keys] using this
      have hmem : ∃ y ∈ l, y.modelName = x.1 := (hkeys x.1).mp (by simp [hx, Dict.keys])
      have hnone : orElseText model default = none := by
        rcases htm with htm | htm
        · exact htm
        · exfalso
          have hempty := hnot _ htm
          rcases (htmp _).mp htm with ⟨_, hh⟩ | ⟨_, hh⟩
          · exact hh rfl
          · rcases (hd1 _).mp hh with ⟨⟨y, hy, hd⟩, hh⟩ | ⟨⟨y, hy, z, hz, _, _, hh⟩, _⟩
            · exact hempty ((hkeys _).mpr ⟨y, hy, hh y hy hd⟩)
            · exact hh ((hall y hy).trans (hall z hz).symm)
      obtain ⟨h1, h2⟩ := htmp0.mp hnone
      refine ⟨x, hx, rfl, ⟨htm, hlen⟩, by rw [hx]; simp [Dict.get?], ⟨hmem, Or.inr ⟨h1, Or.inr (Or.inr ⟨hd0.mp h2, hall⟩)⟩⟩,
        hall⟩
    · right
      refine ⟨rfl, hone, ?_⟩
      by_cases hempty : maps = []
      · left
        refine ⟨hempty, ?_⟩
        by_contra hne
        obtain ⟨y, hy⟩ := List.exists_mem_of_ne_nil _ hne
        have := (hkeys y.modelName).mpr ⟨y, hy, rfl⟩
        simp [hempty, Dict.keys] at this
      · right
        refine ⟨hempty, ?_, ?_⟩
        · rintro rfl
          obtain ⟨x, hx⟩ := List.exists_mem_of_ne_nil _ hempty
          have := (hkeys x.1).mp (List.mem_map_of_mem hx)
          simp at this
        · rintro ⟨m, hmem, hh⟩
          have hkey : m ∈ Dict.keys maps := (hkeys m).mpr hmem
          rcases hh with hh | ⟨h1, hh | hh | hh⟩
          · exact hnot m ((htmp m).mpr (Or.inl hh)) hkey
          · exact hnot m ((htmp m).mpr (Or.inr ⟨h1, (hd1 m).mpr (Or.inl hh)⟩)) hkey
          · exact hnot m ((htmp m).mpr (Or.inr ⟨h1, (hd1 m).mpr (Or.inr hh)⟩)) hkey
          · apply hone
            refine ⟨Or.inl (htmp0.mpr ⟨h1, hd0.mpr hh.1⟩), ?_⟩
            refine (length_one_iff maps hmaps hempty).mpr ⟨m, ?_⟩
            intro x hx
            obtain ⟨y, hy, rfl⟩ := (hkeys x).mp hx
            exact hh.2 y hy

/-- What a record becomes for a model name: nothing if no model can be chosen, an empty entry if there are no metrics, or
the dictionary of the chosen model. -/
private theorem convert_spec (r : MetricsRecord O) (hwf : Dict.WF r.legacy) (model : Option String) :
    (∃ e, convertMetrics r model = .error e) ∨
    (convertMetrics r model = .ok none ∧ entries r ≠ [] ∧ ¬ ∃ m, Chosen (keysOf r) model m) ∨
    (∃ key, convertMetrics r model = .ok (some (key, none)) ∧ recordKey r.key = .ok key ∧ entries r = []) ∨
    (∃ key mp m, convertMetrics r model = .ok (some (key, some mp)) ∧ recordKey r.key = .ok key ∧
      (∀ x ∈ entries r, ∃ s, subKeyId x.key.subKey = .ok s) ∧ Chosen (keysOf r) model m ∧ Neat mp ∧
      ∀ o c k t sub, metricsSubKey c k t = .ok sub → ∀ n v,
        lookup mp o sub n = some v ↔ Visible (entries r) m o c k t n v) := by
  have hconv : convertMetrics r model =
      match fill shownName (fun w : MetricValue O × Interval O => withInterval w.1 w.2) (items (entries r)) [] none with
      | .error e => .error e
      | .ok (maps, default) =>
        match chooseMetrics maps model default with
        | .noMatch => .ok none
        | .shown m => (recordKey r.key).map fun k => some (k, m) := by
    rw [← fill_entries r hwf]
    rfl
  rw [hconv]
  cases hf : fill shownName (fun w : MetricValue O × Interval O => withInterval w.1 w.2) (items (entries r)) [] none with
  | error e => exact Or.inl ⟨e, rfl⟩
  | ok p =>
    obtain ⟨maps, default⟩ := p
    obtain ⟨f1, f2, f3, f4, f5, f6⟩ := fill_spec _ _ _ _ _ _ _ hf Dict.WF_nil (by simp [Dict.get?])
    have f1' : ∀ x ∈ entries r, ∃ s, subKeyId x.key.subKey = .ok s := by
      intro x hx
      exact f1 (x.key, (x.value, x.interval)) (List.mem_map_of_mem hx)
    have f3' : ∀ mdl, mdl ∈ Dict.keys maps ↔ ∃ x ∈ entries r, x.key.modelName = mdl := by
      intro mdl
      rw [f3]
      simp [Dict.keys, items]
    have f6' : default = ((entries r).map (·.key)).foldl (fun d x => diffModel x d) none := by
      rw [f6, items, List.foldl_map, List.foldl_map]
    have fv : ∀ mdl m, Dict.get? maps mdl = some m → ∀ o c k t sub, metricsSubKey c k t = .ok sub → ∀ n v,
        lookup m o sub n = some v ↔ LastAt (entries r) mdl o c k t n v := by
      intro mdl m hm o c k t sub hsub n v
      rw [← lastAt_iff _ _ _ hsub]
      have := f2 mdl o sub n
      simp only [look, hm, Option.bind_some, Dict.get?, Option.bind_none, Option.or_none] at this
      rw [this]
    have fnone : ∀ mdl, Dict.get? maps mdl = none → ∀ o c k t n v, ¬ LastAt (entries r) mdl o c k t n v := by
      rintro mdl hm o c k t n v ⟨pre, x, post, hl, hx, _⟩
      have : mdl ∈ Dict.keys maps := (f3' mdl).mpr ⟨x, by rw [hl]; simp, hx.1⟩
      exact (Dict.get?_eq_none_iff _ _).mp hm this
    have hshow : ∀ m own, Dict.get? maps m = some own → Dict.get? maps "" = none ∨ m = "" →
        ∀ o c k t sub, metricsSubKey c k t = .ok sub → ∀ n v,
          lookup own o sub n = some v ↔ Visible (entries r) m o c k t n v := by
      intro m own hown hor o c k t sub hsub n v
      rw [fv _ _ hown _ _ _ _ _ hsub]
      unfold Visible
      rcases hor with hshared | rfl
      · constructor
        · exact fun hh => Or.inr ⟨fun ⟨u, hu⟩ => fnone _ hshared _ _ _ _ _ _ hu, hh⟩
        · rintro (hh | hh)
          · exact absurd hh (fnone _ hshared _ _ _ _ _ _)
          · exact hh.2
      · exact ⟨Or.inl, fun hh => hh.elim id (fun hh => hh.2)⟩
    simp only
    unfold chooseMetrics
    simp only
    rcases choice_spec (keysOf r) model default maps f4 (by
        intro mdl
        rw [f3']
        simp [keysOf]) f6' with ⟨m, own, hbind, hm, hown, hchosen⟩ | ⟨x, hx, hbind, hone, hget, hchosen, hall⟩ |
        ⟨hbind, hone, hrest⟩
    · rw [hbind]
      simp only
      cases hk : recordKey r.key with
      | error e => exact Or.inl ⟨e, rfl⟩
      | ok key =>
        right; right; right
        by_cases hm0 : m = ""
        · refine ⟨key, own, m, by simp [hm, hm0, Except.map], rfl, f1', hchosen, f5 _ _ hown, hshow m own hown (Or.inr hm0)⟩
        · cases hshared : Dict.get? maps "" with
          | none =>
            exact ⟨key, own, m, by simp [hm, hm0, Except.map], rfl, f1', hchosen, f5 _ _ hown, hshow m own hown (Or.inl hshared)⟩
          | some shared =>
            refine ⟨key, addAll own shared, m, ?_, rfl, f1', hchosen, neat_addAll (f5 _ _ hown) _, ?_⟩
            · simp [hm, hm0, Except.map]
            · intro o c k t sub hsub n v
              rw [lookup_addAll _ (f5 _ _ hshared), Option.or_eq_some_iff, fv _ _ hshared _ _ _ _ _ hsub,
                fv _ _ hown _ _ _ _ _ hsub]
              unfold Visible
              have : lookup shared o sub n = none ↔ ¬ ∃ u, LastAt (entries r) "" o c k t n u := by
                rw [Option.eq_none_iff_forall_ne_some]
                constructor
                · rintro hh ⟨u, hu⟩
                  exact hh u ((fv _ _ hshared _ _ _ _ _ hsub n u).mpr hu)
                · intro hh u hu
                  exact hh ⟨u, (fv _ _ hshared _ _ _ _ _ hsub n u).mp hu⟩
              rw [this]
    · rw [hbind]
      simp only
      rw [if_pos hone]
      cases hk : recordKey r.key with
      | error e => exact Or.inl ⟨e, rfl⟩
      | ok key =>
        right; right; right
        refine ⟨key, x.2, x.1, by simp [hx, Except.map], rfl, f1', hchosen, f5 _ _ hget, hshow _ _ hget ?_⟩
        by_cases hm0 : x.1 = ""
        · exact Or.inr hm0
        · left
          rw [Dict.get?_eq_none_iff, hx]
          simp [Dict.keys, Ne.symm hm0]
    · rw [hbind]
      simp only
      rw [if_neg hone]
      rcases hrest with ⟨h1, h2⟩ | ⟨h1, h2, h3⟩
      · rw [if_pos (by simp [h1])]
        cases hk : recordKey r.key with
        | error e => exact Or.inl ⟨e, rfl⟩
        | ok key =>
          right; right; left
          exact ⟨key, rfl, rfl, by simpa [keysOf] using h2⟩
      · rw [if_neg (by simpa using h1)]
        right; left
        exact ⟨rfl, fun hh => h2 (by simp [keysOf, hh]), h3⟩

/-! ### Loaded results -/

theorem equalsSliceName_eq (a b : ResultKey) : equalsSliceName a b = resultKeyEq b a := by
  unfold equalsSliceName
  cases b with
  | cross b b' => cases a <;> simp [resultKeyEmpty]
  | slice b => cases b with
    | nil => cases a with
      | cross _ _ => simp [resultKeyEmpty, resultKeyEq]
      | slice a => cases a <;> simp [resultKeyEmpty, resultKeyEq, keyEq]
    | cons x b => simp [resultKeyEmpty]

private theorem load_inv (model : Option String) (records : List (MetricsRecord O))
    (l : List (ResultKey × Option (ByOutput (MetricValue O)))) (h : loadMetrics model records = .ok l)
    (slice : ResultKey) :
    ((∀ r ∈ records, ∀ key m, convertMetrics r model = .ok (some (key, m)) → resultKeyEq key slice = false) ∧
      findSlice slice l = none) ∨
    (∃ pre r post key m, records = pre ++ r :: post ∧ convertMetrics r model = .ok (some (key, m)) ∧
      resultKeyEq key slice = true ∧
      (∀ r' ∈ pre, ∀ key' m', convertMetrics r' model = .ok (some (key', m')) → resultKeyEq key' slice = false) ∧
      findSlice slice l = some m) := by
  induction records generalizing l with
  | nil =>
    simp only [loadMetrics, Except.ok.injEq] at h
    subst h
    exact Or.inl ⟨by simp, rfl⟩
  | cons r rest ih =>
    simp only [loadMetrics] at h
    cases hc : convertMetrics r model with
    | error e => simp [hc] at h
    | ok x => cases x with
      | none =>
        simp only [hc] at h
        rcases ih l h with ⟨h1, h2⟩ | ⟨pre, r', post, key, m, rfl, h1, h2, h3, h4⟩
        · refine Or.inl ⟨?_, h2⟩
          intro r' hr' key m hh
          rcases List.mem_cons.mp hr' with rfl | hr'
          · rw [hc] at hh; simp at hh
          · exact h1 r' hr' key m hh
        · refine Or.inr ⟨r :: pre, r', post, key, m, rfl, h1, h2, ?_, h4⟩
          intro r'' hr'' key' m' hh
          rcases List.mem_cons.mp hr'' with rfl | hr''
          · rw [hc] at hh; simp at hh
          · exact h3 r'' hr'' key' m' hh
      | some x =>
        obtain ⟨key, m⟩ := x
        simp only [hc] at h
        cases hl : loadMetrics model rest with
        | error e => simp [hl, Except.map] at h
        | ok l' =>
          simp only [hl, Except.map, Except.ok.injEq] at h
          subst h
          by_cases hk : resultKeyEq key slice = true
          · refine Or.inr ⟨[], r, rest, key, m, rfl, hc, hk, by simp, ?_⟩
            simp [findSlice, List.find?, equalsSliceName_eq, hk]
          · have hk' : resultKeyEq key slice = false := by simpa using hk
            have hfind : findSlice slice ((key, m) :: l') = findSlice slice l' := by
              simp [findSlice, List.find?, equalsSliceName_eq, hk']
            rw [hfind]
            rcases ih l' hl with ⟨h1, h2⟩ | ⟨pre, r', post, key', m', rfl, h1, h2, h3, h4⟩
            · refine Or.inl ⟨?_, h2⟩
              intro r' hr' key' m' hh
              rcases List.mem_cons.mp hr' with rfl | hr'
              · rw [hc] at hh
                simp only [Except.ok.injEq, Option.some.injEq, Prod.mk.injEq] at hh
                rw [← hh.1]; exact hk'
              · exact h1 r' hr' key' m' hh
            · refine Or.inr ⟨r :: pre, r', post, key', m', rfl, h1, h2, ?_, h4⟩
              intro r'' hr'' key'' m'' hh
              rcases List.mem_cons.mp hr'' with rfl | hr''
              · rw [hc] at hh
                simp only [Except.ok.injEq, Option.some.injEq, Prod.mk.injEq] at hh
                rw [← hh.1]; exact hk'
              · exact h3 r'' hr'' key'' m'' hh

private theorem load_ok (model : Option String) (records : List (MetricsRecord O))
    (l : List (ResultKey × Option (ByOutput (MetricValue O)))) (h : loadMetrics model records = .ok l) :
    ∀ r ∈ records, ∃ x, convertMetrics r model = .ok x := by
  induction records generalizing l with
  | nil => simp
  | cons r rest ih =>
    simp only [loadMetrics] at h
    cases hc : convertMetrics r model with
    | error e => simp [hc] at h
    | ok x =>
      have hrest : ∃ l', loadMetrics model rest = .ok l' := by
        cases x with
        | none => simp only [hc] at h; exact ⟨l, h⟩
        | some x => cases hl : loadMetrics model rest with
          | error e => simp [hc, hl, Except.map] at h
          | ok l' => exact ⟨l', rfl⟩
      obtain ⟨l', hl'⟩ := hrest
      intro r' hr'
      rcases List.mem_cons.mp hr' with rfl | hr'
      · exact ⟨x, hc⟩
      · exact ih l' hl' r' hr'

/-- The record is shown for the slice: its key equals the slice and it has a model that can be chosen, or no metrics at all. -/
def Kept (r : MetricsRecord O) (model : Option String) (slice : ResultKey) : Prop :=
  (∃ key, recordKey r.key = .ok key ∧ resultKeyEq key slice = true) ∧ (entries r = [] ∨ ∃ m, Chosen (keysOf r) model m)

/-- **C94**: the metrics returned for a slice, an output and a sub key are those of the first record that is shown for the
slice: under every name the last metric stored for the chosen model (or for no model), and nothing else. -/
theorem C94_metrics (records : List (MetricsRecord O)) (hwf : ∀ r ∈ records, Dict.WF r.legacy) (model : Option String)
    (l : List (ResultKey × Option (ByOutput (MetricValue O)))) (h : loadMetrics model records = .ok l) (slice : ResultKey)
    (output : String) (c k t : Option ℤ) (names : Dict String (MetricValue O))
    (hg : getMetricsForSlice l slice output c k t = .ok (some names)) :
    ∃ pre r post m, records = pre ++ r :: post ∧ Kept r model slice ∧ (∀ r' ∈ pre, ¬ Kept r' model slice) ∧
      Chosen (keysOf r) model m ∧ ∀ n v, Dict.get? names n = some v ↔ Visible (entries r) m output c k t n v := by
  unfold getMetricsForSlice at hg
  cases hs : metricsSubKey c k t with
  | error e => simp [hs] at hg
  | ok sub =>
    simp only [hs] at hg
    rcases load_inv model records l h slice with ⟨_, h2⟩ | ⟨pre, r, post, key, mp, rfl, h1, h2, h3, h4⟩
    · simp [h2] at hg
    · simp only [h4] at hg
      have hok := load_ok model _ l h
      rcases convert_spec r (hwf r (by simp)) model with ⟨e, he⟩ | ⟨he, _⟩ | ⟨key', he, _⟩ | ⟨key', mp', m, he, a1, a2, a3, a4, a5⟩
      · rw [h1] at he; simp at he
      · rw [h1] at he; simp at he
      · rw [h1] at he
        simp only [Except.ok.injEq, Option.some.injEq, Prod.mk.injEq] at he
        simp [he.2, subMap, Except.map] at hg
      · rw [h1] at he
        simp only [Except.ok.injEq, Option.some.injEq, Prod.mk.injEq] at he
        obtain ⟨rfl, rfl⟩ := he
        cases hsub : subMap (some mp') output sub with
        | error e => simp [hsub, Except.map] at hg
        | ok names' =>
          simp only [hsub, Except.map, Except.ok.injEq, Option.some.injEq] at hg
          subst hg
          refine ⟨pre, r, post, m, rfl, ⟨⟨key, a1, h2⟩, Or.inr ⟨m, a3⟩⟩, ?_, a3, ?_⟩
          · rintro r' hr' ⟨⟨key', b1, b2⟩, b3⟩
            obtain ⟨x, hx⟩ := hok r' (by simp [hr'])
            rcases convert_spec r' (hwf r' (by simp [hr'])) model with ⟨e, he⟩ | ⟨he, d1, d2⟩ | ⟨key'', he, d1, _⟩ |
              ⟨key'', mp'', _, he, d1, _⟩
            · rw [hx] at he; simp at he
            · exact b3.elim d1 d2
            · rw [b1] at d1
              cases d1
              have := h3 r' hr' _ _ he
              rw [b2] at this
              simp at this
            · rw [b1] at d1
              cases d1
              have := h3 r' hr' _ _ he
              rw [b2] at this
              simp at this
          · intro n v
            rw [subMap_ok hsub]
            exact a5 output c k t sub hs n v

/-- **C94**: the interval of a metric is shown with it if it is a plain number and both bounds are stored: the bounds are the
stored numbers, or zero where the stored bound is no number. Every other value is shown as stored. -/
theorem C94_interval (v : MetricValue O) (ci : Interval O) :
    (∀ d l u, v = .double d → ci.lower = some (.double l) → ci.upper = some (.double u) → withInterval v ci = .bounded l u d) ∧
    (∀ d lo up, v = .double d → ci.lower = some lo → ci.upper = some up → ∃ l u, withInterval v ci = .bounded l u d ∧
      ((∀ x, lo ≠ .double x) → l = 0) ∧ ((∀ x, up ≠ .double x) → u = 0)) ∧
    ((∀ d, v ≠ .double d) ∨ ci.lower = none ∨ ci.upper = none → withInterval v ci = v) := by
  refine ⟨?_, ?_, ?_⟩
  · rintro d l u rfl h1 h2
    unfold withInterval
    rw [h1, h2]
    rfl
  · rintro d lo up rfl h1 h2
    refine ⟨lo.asDouble, up.asDouble, by unfold withInterval; rw [h1, h2], ?_, ?_⟩
    · intro h
      cases lo with
      | double x => exact absurd rfl (h x)
      | _ => rfl
    · intro h
      cases up with
      | double x => exact absurd rfl (h x)
      | _ => rfl
  · rintro (h | h | h)
    · cases v with
      | double d => exact absurd rfl (h d)
      | _ => unfold withInterval; split <;> first | rfl | simp_all
    · unfold withInterval; rw [h]
    · unfold withInterval; rw [h]; split <;> first | rfl | simp_all

/-- **C94**: `None` is returned exactly if no record is shown for the slice. -/
theorem C94_none (records : List (MetricsRecord O)) (hwf : ∀ r ∈ records, Dict.WF r.legacy) (model : Option String)
    (l : List (ResultKey × Option (ByOutput (MetricValue O)))) (h : loadMetrics model records = .ok l) (slice : ResultKey)
    (output : String) (c k t : Option ℤ) (sub : String) (hs : metricsSubKey c k t = .ok sub) :
    getMetricsForSlice l slice output c k t = .ok none ↔ ∀ r ∈ records, ¬ Kept r model slice := by
  have hok := load_ok model _ l h
  unfold getMetricsForSlice
  simp only [hs]
  rcases load_inv model records l h slice with ⟨h1, h2⟩ | ⟨pre, r, post, key, mp, rfl, h1, h2, h3, h4⟩
  · simp only [h2, true_iff]
    rintro r hr ⟨⟨key', b1, b2⟩, b3⟩
    obtain ⟨x, hx⟩ := hok r hr
    rcases convert_spec r (hwf r hr) model with ⟨e, he⟩ | ⟨he, d1, d2⟩ | ⟨key'', he, d1, _⟩ | ⟨key'', mp'', _, he, d1, _⟩
    · rw [hx] at he; simp at he
    · exact b3.elim d1 d2
    · rw [b1] at d1
      cases d1
      have := h1 r hr _ _ he
      rw [b2] at this
      simp at this
    · rw [b1] at d1
      cases d1
      have := h1 r hr _ _ he
      rw [b2] at this
      simp at this
  · simp only [h4]
    constructor
    · intro hh
      cases hsub : subMap mp output sub <;> simp [hsub, Except.map] at hh
    · intro hh
      exfalso
      refine hh r (by simp) ?_
      rcases convert_spec r (hwf r (by simp)) model with ⟨e, he⟩ | ⟨he, _⟩ | ⟨key', he, a1, a2⟩ | ⟨key', mp', m, he, a1, a2, a3, _⟩
      · rw [h1] at he; simp at he
      · rw [h1] at he; simp at he
      · rw [h1] at he
        simp only [Except.ok.injEq, Option.some.injEq, Prod.mk.injEq] at he
        exact ⟨⟨key', a1, he.1 ▸ h2⟩, Or.inl a2⟩
      · rw [h1] at he
        simp only [Except.ok.injEq, Option.some.injEq, Prod.mk.injEq] at he
        exact ⟨⟨key', a1, he.1 ▸ h2⟩, Or.inr ⟨m, a3⟩⟩

/-- **C94**: asking for an output or sub key without metrics raises KeyError; if the record of the slice holds no metrics at all,
it is a TypeError. Nothing else is raised once the sub key itself is valid. -/
theorem C94_error (records : List (MetricsRecord O)) (hwf : ∀ r ∈ records, Dict.WF r.legacy) (model : Option String)
    (l : List (ResultKey × Option (ByOutput (MetricValue O)))) (h : loadMetrics model records = .ok l) (slice : ResultKey)
    (output : String) (c k t : Option ℤ) (sub : String) (hs : metricsSubKey c k t = .ok sub) (e : Err)
    (hg : getMetricsForSlice l slice output c k t = .error e) :
    ∃ r ∈ records, Kept r model slice ∧ ((e = .keyError ∧ ∃ m, Chosen (keysOf r) model m ∧
      ∀ n v, ¬ Visible (entries r) m output c k t n v) ∨ (e = .typeError ∧ entries r = [])) := by
  unfold getMetricsForSlice at hg
  simp only [hs] at hg
  rcases load_inv model records l h slice with ⟨_, h2⟩ | ⟨pre, r, post, key, mp, rfl, h1, h2, h3, h4⟩
  · simp [h2] at hg
  · simp only [h4] at hg
    refine ⟨r, by simp, ?_⟩
    rcases convert_spec r (hwf r (by simp)) model with ⟨e, he⟩ | ⟨he, _⟩ | ⟨key', he, b1, b2⟩ | ⟨key', mp', m, he, a1, a2, a3, a4, a5⟩
    · rw [h1] at he; simp at he
    · rw [h1] at he; simp at he
    · rw [h1] at he
      simp only [Except.ok.injEq, Option.some.injEq, Prod.mk.injEq] at he
      obtain ⟨rfl, rfl⟩ := he
      simp only [subMap, Except.map, Except.error.injEq] at hg
      exact ⟨⟨⟨key, b1, h2⟩, Or.inl b2⟩, Or.inr ⟨hg.symm, b2⟩⟩
    · rw [h1] at he
      simp only [Except.ok.injEq, Option.some.injEq, Prod.mk.injEq] at he
      obtain ⟨rfl, rfl⟩ := he
      refine ⟨⟨⟨key, a1, h2⟩, Or.inr ⟨m, a3⟩⟩, Or.inl ?_⟩
      cases hsub : subMap (some mp') output sub with
      | ok names' => simp [hsub, Except.map] at hg
      | error e' =>
        simp only [hsub, Except.map, Except.error.injEq] at hg
        subst hg
        refine ⟨subMap_error hsub, m, a3, ?_⟩
        intro n v hv
        obtain ⟨names, hn⟩ := subMap_of_lookup ((a5 output c k t sub hs n v).mpr hv)
        rw [hsub] at hn
        simp at hn

/-- **C94**: every metric of the chosen model, and every metric that belongs to no model, is found under its slice, output, sub
key and displayed name, unless another metric of the record is displayed at the same place. -/
theorem C94_available_partial (pre post : List (MetricsRecord O)) (r : MetricsRecord O)
    (hwf : ∀ r' ∈ pre ++ r :: post, Dict.WF r'.legacy) (model : Option String)
    (l : List (ResultKey × Option (ByOutput (MetricValue O)))) (h : loadMetrics model (pre ++ r :: post) = .ok l)
    (slice : ResultKey) (hr : Kept r model slice) (hpre : ∀ r' ∈ pre, ¬ Kept r' model slice) (m : String)
    (hm : Chosen (keysOf r) model m) (x : KeyValue O) (hx : x ∈ entries r) (hxm : x.key.modelName = m ∨ x.key.modelName = "")
    (c k t : Option ℤ) (hsub : HasSubKey x.key c k t) (n : String) (hn : Displayed x.key n)
    (hdistinct : ∀ y ∈ entries r, (y.key.modelName = m ∨ y.key.modelName = "") → y.key.outputName = x.key.outputName →
      HasSubKey y.key c k t → Displayed y.key n → y = x) :
    ∃ names, getMetricsForSlice l slice x.key.outputName c k t = .ok (some names) ∧
      Dict.get? names n = some (withInterval x.value x.interval) := by
  obtain ⟨⟨key0, k1, k2⟩, _⟩ := hr
  have hok := load_ok model _ l h
  rcases load_inv model _ l h slice with ⟨h1, _⟩ | ⟨pre', r', post', key, mp, heq, h1, h2, h3, h4⟩
  · exfalso
    obtain ⟨y, hy⟩ := hok r (by simp)
    rcases convert_spec r (hwf r (by simp)) model with ⟨e, he⟩ | ⟨_, _, d2⟩ | ⟨key', _, _, d1⟩ | ⟨key', mp', _, he, d1, _⟩
    · rw [hy] at he; simp at he
    · exact d2 ⟨m, hm⟩
    · rw [d1] at hx; simp at hx
    · rw [k1] at d1
      cases d1
      have := h1 r (by simp) _ _ he
      rw [k2] at this
      simp at this
  · have hsame : r' = r := by
      have hkept' : Kept r' model slice := by
        rcases convert_spec r' (hwf r' (by rw [heq]; simp)) model with ⟨e, he⟩ | ⟨he, _⟩ | ⟨key', he, a1, a2⟩ |
          ⟨key', mp', m', he, a1, _, a3, _⟩
        · rw [h1] at he; simp at he
        · rw [h1] at he; simp at he
        · rw [h1] at he
          simp only [Except.ok.injEq, Option.some.injEq, Prod.mk.injEq] at he
          exact ⟨⟨key', a1, he.1 ▸ h2⟩, Or.inl a2⟩
        · rw [h1] at he
          simp only [Except.ok.injEq, Option.some.injEq, Prod.mk.injEq] at he
          exact ⟨⟨key', a1, he.1 ▸ h2⟩, Or.inr ⟨m', a3⟩⟩
      have hr' : ∀ r'' ∈ pre', r'' ∈ pre ++ r :: post := fun r'' hh => by rw [heq]; simp [hh]
      rcases List.append_eq_append_iff.mp heq with ⟨q, hq1, hq2⟩ | ⟨q, hq1, hq2⟩
      · cases q with
        | nil => simp at hq2; exact hq2.1.symm
        | cons a q =>
          exfalso
          simp only [List.cons_append, List.cons.injEq] at hq2
          have hmem : r ∈ pre' := by rw [hq1, hq2.1]; simp
          rcases convert_spec r (hwf r (by simp)) model with ⟨e, he⟩ | ⟨_, _, d2⟩ | ⟨key', _, _, d1⟩ | ⟨key', mp', _, he, d1, _⟩
          · obtain ⟨y, hy⟩ := hok r (by simp)
            rw [hy] at he; simp at he
          · exact d2 ⟨m, hm⟩
          · rw [d1] at hx; simp at hx
          · rw [k1] at d1
            cases d1
            have := h3 r hmem _ _ he
            rw [k2] at this
            simp at this
      · cases q with
        | nil => simp at hq2; exact hq2.1
        | cons a q =>
          exfalso
          simp only [List.cons_append, List.cons.injEq] at hq2
          exact hpre r' (by rw [hq1, hq2.1]; simp) hkept'
    subst hsame
    rcases convert_spec r' (hwf r' (by simp)) model with ⟨e, he⟩ | ⟨_, _, d2⟩ | ⟨key', _, _, d1⟩ |
      ⟨key', mp', m', he, a1, a2, a3, a4, a5⟩
    · rw [h1] at he; simp at he
    · exact absurd ⟨m, hm⟩ d2
    · rw [d1] at hx; simp at hx
    · rw [h1] at he
      simp only [Except.ok.injEq, Option.some.injEq, Prod.mk.injEq] at he
      obtain ⟨rfl, rfl⟩ := he
      have hmm : m' = m := by
        obtain ⟨⟨z, hz, hzm⟩, hc⟩ := hm
        obtain ⟨_, hc'⟩ := a3
        rcases hc with ⟨c1, c2⟩ | ⟨c1, c2⟩ <;> rcases hc' with ⟨c1', c2'⟩ | ⟨c1', c2'⟩
        · rw [c1] at c1'; exact (Option.some.inj c1').symm
        · exfalso
          rcases c1' with hh | hh
          · rw [c1] at hh; simp at hh
          · rw [c1] at hh; exact c2 (Option.some.inj hh)
        · exfalso
          rcases c1 with hh | hh
          · rw [c1'] at hh; simp at hh
          · rw [c1'] at hh; exact c2' (Option.some.inj hh)
        · rcases c2 with ⟨⟨y, hy, hd⟩, ha⟩ | ⟨⟨y, hy, w, hw, e1, e2, e3⟩, rfl⟩ | ⟨ha, hb⟩ <;>
            rcases c2' with ⟨⟨y', hy', hd'⟩, ha'⟩ | ⟨⟨y', hy', w', hw', e1', e2', e3'⟩, rfl⟩ | ⟨ha', hb'⟩
          · exact (ha' y hy hd).symm.trans (ha y hy hd)
          · exact absurd ((ha _ hy' e1').trans (ha _ hw' e2').symm) e3'
          · rw [ha' y hy] at hd; simp at hd
          · exact absurd ((ha' _ hy e1).trans (ha' _ hw e2).symm) e3
          · rfl
          · rw [ha' y hy] at e1; simp at e1
          · rw [ha y' hy'] at hd'; simp at hd'
          · rw [ha y' hy'] at e1'; simp at e1'
          · exact (hb' z hz).symm.trans hzm
      subst hmm
      obtain ⟨s, hs⟩ := a2 x hx
      have hms : metricsSubKey c k t = .ok s := by
        unfold metricsSubKey
        rcases hsub with ⟨hk, hn⟩ | ⟨hk, hn⟩
        · rw [hk] at hs
          simp only [subKeyId, Except.ok.injEq] at hs
          rw [if_pos hn, hs]
        · rw [if_neg hn]
          rw [hk] at hs
          simp only [subKeyId, SubKey.fromProto] at hs
          rw [if_neg hn] at hs
          cases hnew : SubKey.new c k t with
          | error e => simp [hnew, Except.map] at hs
          | ok s' =>
            simp only [hnew, Except.map] at hs
            exact hs
      have hlast : LastAt (entries r') x.key.modelName x.key.outputName c k t n (withInterval x.value x.interval) := by
        obtain ⟨pre1, suf, hspl⟩ := List.append_of_mem hx
        -- the last occurrence of `x`
        have : ∃ p q, entries r' = p ++ x :: q ∧ ∀ y ∈ q, ¬ (y.key.modelName = x.key.modelName ∧
            y.key.outputName = x.key.outputName ∧ HasSubKey y.key c k t ∧ Displayed y.key n) := by
          clear hspl
          have key : ∀ es : List (KeyValue O), (∀ y ∈ es, (y.key.modelName = m' ∨ y.key.modelName = "") →
              y.key.outputName = x.key.outputName → HasSubKey y.key c k t → Displayed y.key n → y = x) → x ∈ es →
              ∃ p q, es = p ++ x :: q ∧ ∀ y ∈ q, ¬ (y.key.modelName = x.key.modelName ∧
                y.key.outputName = x.key.outputName ∧ HasSubKey y.key c k t ∧ Displayed y.key n) := by
            intro es
            induction es with
            | nil => intro _ hh; simp at hh
            | cons a es ih =>
              intro hd hh
              by_cases hin : x ∈ es
              · obtain ⟨p, q, h1, h2⟩ := ih (fun y hy => hd y (by simp [hy])) hin
                exact ⟨a :: p, q, by rw [h1]; rfl, h2⟩
              · rcases List.mem_cons.mp hh with rfl | hh
                · refine ⟨[], es, rfl, ?_⟩
                  rintro y hy ⟨y1, y2, y3, y4⟩
                  have := hd y (by simp [hy]) (by rw [y1]; exact hxm) y2 y3 y4
                  rw [this] at hy
                  exact hin hy
                · exact absurd hh hin
          exact key _ hdistinct hx
        obtain ⟨p, q, h1, h2⟩ := this
        exact ⟨p, x, q, h1, ⟨rfl, rfl, hsub, hn⟩, rfl, h2⟩
      have hvis : Visible (entries r') m' x.key.outputName c k t n (withInterval x.value x.interval) := by
        unfold Visible
        by_cases hx0 : x.key.modelName = ""
        · rw [hx0] at hlast
          exact Or.inl hlast
        · have hxm' : x.key.modelName = m' := hxm.resolve_right hx0
          rw [hxm'] at hlast
          refine Or.inr ⟨?_, hlast⟩
          rintro ⟨u, p, y, q, hspl, ⟨y1, y2, y3, y4⟩, _⟩
          have := hdistinct y (by rw [hspl]; simp) (Or.inr y1) y2 y3 y4
          rw [this] at y1
          exact hx0 y1
      have hlook := (a5 _ c k t s hms n _).mpr hvis
      obtain ⟨names, hnames⟩ := subMap_of_lookup hlook
      refine ⟨names, ?_, ?_⟩
      · unfold getMetricsForSlice
        simp only [hms, h4, hnames, Except.map]
      · rw [subMap_ok hnames]
        exact hlook

/-- **C94**: the key shown for a stored record is the slice, or the baseline and the comparison slice, that was stored. -/
theorem C94_key (R : Slicer.SingleRounding) (b c : Slicer.SliceKey) (hb : ∀ e ∈ b, Slicer.Storable e.2) (hc : ∀ e ∈ c, Slicer.Storable e.2) :
    (∃ p, Slicer.serializeKey R b = .ok p ∧ recordKey (.slice p) = .ok (.slice b)) ∧
      ∃ p, Slicer.serializeCross R (b, c) = .ok p ∧ recordKey (.cross p) = .ok (.cross b c) := by
  obtain ⟨p, h1, h2⟩ := Slicer.C07_roundtrip_partial R b hb
  obtain ⟨q, h3, h4⟩ := Slicer.C07_cross_roundtrip_partial R b c hb hc
  exact ⟨⟨p, h1, by simp [recordKey, h2, Except.map]⟩, q, h3, by simp [recordKey, h4, Except.map]⟩

end EvalResults
end TFMA
