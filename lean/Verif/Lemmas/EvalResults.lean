import Verif.Model.EvalResults
import Verif.Py.DictLemmas
import Verif.Props.Keys

/-!
# Lemmas about nested dictionaries of results and texts of sub keys
-/

namespace TFMA
namespace EvalResults

open MetricKeys Slicer

variable {V W : Type}

/-! ### Texts of sub keys -/

theorem digits_of_repr (n : ℕ) : ∀ c ∈ (Nat.repr n).toList, c.isDigit = true := by
  intro c hc
  rw [Nat.toList_repr] at hc
  exact Nat.isDigit_of_mem_toDigits (by omega) (by omega) hc

theorem int_chars (i : ℤ) : ∀ c ∈ (toString i).toList, c ≠ ' ' := by
  intro c hc
  cases i with
  | ofNat n =>
    have := digits_of_repr n c hc
    rintro rfl
    exact absurd this (by decide)
  | negSucc n =>
    have e : (toString (Int.negSucc n)) = "-" ++ Nat.repr (n + 1) := rfl
    rw [e, String.toList_append] at hc
    rcases List.mem_append.mp hc with h | h
    · have : c = '-' := by simpa using h
      subst this; decide
    · have := digits_of_repr _ c h
      rintro rfl
      exact absurd this (by decide)

theorem int_inj {i j : ℤ} (h : toString i = toString j) : i = j := by
  have neg (m n : ℕ) : Nat.repr m ≠ "-" ++ Nat.repr n := by
    intro e
    have : '-' ∈ (Nat.repr m).toList := by rw [e, String.toList_append]; simp
    exact absurd (digits_of_repr m _ this) (by decide)
  cases i with
  | ofNat m => cases j with
    | ofNat n => exact congrArg Int.ofNat (Keys.repr_inj h)
    | negSucc n => exact absurd h (neg m (n + 1))
  | negSucc m => cases j with
    | ofNat n => exact absurd h.symm (neg n (m + 1))
    | negSucc n =>
      have h' : "-" ++ Nat.repr (m + 1) = "-" ++ Nat.repr (n + 1) := h
      have := Keys.repr_inj ((String.append_right_inj _).mp h')
      have : m = n := by omega
      rw [this]

theorem split_space {a a' b b' : List Char} (ha : ∀ c ∈ a, c ≠ ' ') (ha' : ∀ c ∈ a', c ≠ ' ')
    (h : a ++ ' ' :: b = a' ++ ' ' :: b') : a = a' ∧ b = b' := by
  induction a generalizing a' with
  | nil => cases a' with
    | nil => exact ⟨rfl, by simpa using h⟩
    | cons c a' =>
      have := ha' c (by simp)
      simp at h
      exact absurd h.1.symm this
  | cons d a ih => cases a' with
    | nil =>
      have := ha d (by simp)
      simp at h
      exact absurd h.1 this
    | cons c a' =>
      simp only [List.cons_append, List.cons.injEq] at h
      obtain ⟨h1, h2⟩ := ih (fun c hc => ha c (by simp [hc])) (fun c hc => ha' c (by simp [hc])) h.2
      exact ⟨by rw [h.1, h1], h2⟩

/-- What the constructor of sub keys admits, as far as the texts are concerned. -/
def Exclusive (s : SubKey) : Prop := s.k.isSome → s.classId = none ∧ s.topK = none

theorem exclusive_new {c k t : Option ℤ} {s : SubKey} (h : SubKey.new c k t = .ok s) : Exclusive s ∧ s = ⟨c, k, t⟩ := by
  unfold SubKey.new at h
  cases k with
  | some k => cases t <;> cases c <;> simp at h <;> split at h <;> simp_all [Exclusive] <;> subst h <;> simp
  | none => cases t <;> cases c <;> simp at h <;> (try split at h) <;> simp_all [Exclusive] <;> subst h <;> simp

theorem no_space {i : ℤ} {a b : List Char} (h : (Int.repr i).toList = a ++ (" topK:".toList ++ b)) : False := by
  have : ' ' ∈ (toString i).toList := by
    show ' ' ∈ (Int.repr i).toList
    rw [h]; simp
  exact int_chars i _ this rfl

theorem subKeyStr_inj {a b : SubKey} {s : String} (ha : Exclusive a) (hb : Exclusive b) (h : subKeyStr a = .ok s)
    (h' : subKeyStr b = .ok s) : a = b := by
  obtain ⟨ac, ak, at'⟩ := a
  obtain ⟨bc, bk, bt⟩ := b
  simp only [Exclusive, subKeyStr] at *
  cases ak <;> cases bk <;> cases ac <;> cases at' <;> cases bc <;> cases bt <;> simp_all
  all_goals
    have e := congrArg String.toList (h.trans h'.symm)
    simp only [String.toList_append] at e
  all_goals first
    | (refine absurd (congrArg List.head? e) ?_; simp; done)
    | exact int_inj (String.toList_inj.mp (List.append_cancel_left e))
    | skip
  · rw [List.append_assoc, List.append_assoc] at e
    exact no_space (List.append_cancel_left e)
  · rw [List.append_assoc, List.append_assoc] at e
    exact no_space (List.append_cancel_left e).symm
  · rw [List.append_assoc, List.append_assoc, List.append_assoc, List.append_assoc] at e
    have e := List.append_cancel_left e
    obtain ⟨h1, h2⟩ := split_space (b := "topK:".toList ++ _) (b' := "topK:".toList ++ _) (int_chars _) (int_chars _) e
    exact ⟨int_inj (String.toList_inj.mp h1), int_inj (String.toList_inj.mp (List.append_cancel_left h2))⟩

theorem subKeyStr_ne {a : SubKey} {s : String} (h : subKeyStr a = .ok s) : s ≠ "" ∧ s ≠ "None" := by
  obtain ⟨ac, ak, at'⟩ := a
  simp only [subKeyStr] at h
  cases ak <;> cases ac <;> cases at' <;> simp at h <;> subst h <;>
    refine ⟨fun e => ?_, fun e => ?_⟩ <;>
    exact absurd (congrArg List.head? (congrArg String.toList e)) (by simp)

/-! ### Nested dictionaries -/

/-- `m[o][s][n]` if it is there. -/
def lookup (m : ByOutput V) (o s n : String) : Option V :=
  ((Dict.get? m o).bind fun subs => Dict.get? subs s).bind fun names => Dict.get? names n

theorem lookup_setIn (m : ByOutput V) (o s n : String) (v : V) (o' s' n' : String) :
    lookup (setIn m o s n v) o' s' n' = if o = o' ∧ s = s' ∧ n = n' then some v else lookup m o' s' n' := by
  simp only [setIn, lookup]
  by_cases ho : o = o'
  · subst ho
    rw [Dict.get?_set_self]
    by_cases hs : s = s'
    · subst hs
      by_cases hn : n = n'
      · subst hn
        simp [Dict.get?_set_self]
      · simp only [Option.bind_some, Dict.get?_set_self, hn, and_false, if_false]
        rw [Dict.get?_set_ne _ _ hn]
        cases h1 : Dict.get? m o with
        | none => simp [Dict.get?]
        | some subs => cases h2 : Dict.get? subs s with
          | none => simp [Dict.get?, h2]
          | some names => simp [h2]
    · simp only [Option.bind_some, hs, false_and, and_false, if_false]
      rw [Dict.get?_set_ne _ _ hs]
      cases h1 : Dict.get? m o <;> simp [Dict.get?]
  · rw [Dict.get?_set_ne _ _ ho]
    simp [ho]

/-- Every key occurs once on every level and no inner dictionary is empty. -/
structure Neat (m : ByOutput V) : Prop where
  outputs : Dict.WF m
  subs : ∀ o subs, Dict.get? m o = some subs → Dict.WF subs ∧ subs ≠ []
  names : ∀ o subs s names, Dict.get? m o = some subs → Dict.get? subs s = some names → Dict.WF names ∧ names ≠ []

theorem neat_nil : Neat ([] : ByOutput V) := ⟨Dict.WF_nil, by simp [Dict.get?], by simp [Dict.get?]⟩

theorem set_ne_nil {K U : Type} [DecidableEq K] (d : Dict K U) (k : K) (v : U) : Dict.set d k v ≠ [] := by
  cases d with
  | nil => simp [Dict.set]
  | cons x d =>
    simp only [Dict.set]
    split <;> simp

theorem neat_setIn {m : ByOutput V} (h : Neat m) (o s n : String) (v : V) : Neat (setIn m o s n v) := by
  have hsubs : Dict.WF ((Dict.get? m o).getD []) := by
    cases h1 : Dict.get? m o with
    | none => exact Dict.WF_nil
    | some subs => exact (h.subs _ _ h1).1
  have hnames : Dict.WF ((Dict.get? ((Dict.get? m o).getD []) s).getD []) := by
    cases h1 : Dict.get? m o with
    | none => exact Dict.WF_nil
    | some subs => cases h2 : Dict.get? subs s with
      | none => simp [h2]; exact Dict.WF_nil
      | some names => simp [h2]; exact (h.names _ _ _ _ h1 h2).1
  simp only [setIn]
  refine ⟨Dict.WF_set h.outputs _ _, ?_, ?_⟩
  · intro o' subs' h'
    by_cases ho : o' = o
    · subst ho
      rw [Dict.get?_set_self] at h'
      cases h'
      exact ⟨Dict.WF_set hsubs _ _, set_ne_nil _ _ _⟩
    · rw [Dict.get?_set_ne _ _ (Ne.symm ho)] at h'
      exact h.subs _ _ h'
  · intro o' subs' s' names' h' h''
    by_cases ho : o' = o
    · subst ho
      rw [Dict.get?_set_self] at h'
      cases h'
      by_cases hs : s' = s
      · subst hs
        rw [Dict.get?_set_self] at h''
        cases h''
        exact ⟨Dict.WF_set hnames _ _, set_ne_nil _ _ _⟩
      · rw [Dict.get?_set_ne _ _ (Ne.symm hs)] at h''
        cases h1 : Dict.get? m o' with
        | none => simp [h1, Dict.get?] at h''
        | some subs =>
          rw [h1] at h''
          exact h.names _ _ _ _ h1 h''
    · rw [Dict.get?_set_ne _ _ (Ne.symm ho)] at h'
      exact h.names _ _ _ _ h' h''

theorem subMap_ok {m : ByOutput V} {o s : String} {names : Dict String V} (h : subMap (some m) o s = .ok names) (n : String) :
    Dict.get? names n = lookup m o s n := by
  unfold subMap at h
  unfold lookup
  cases h1 : Dict.get? m o with
  | none => simp [h1] at h
  | some subs => cases h2 : Dict.get? subs s with
    | none => simp [h1, h2] at h
    | some names' =>
      simp only [h1, h2, Except.ok.injEq] at h
      subst h
      simp [h2]

theorem subMap_of_lookup {m : ByOutput V} {o s n : String} {v : V} (h : lookup m o s n = some v) :
    ∃ names, subMap (some m) o s = .ok names := by
  unfold lookup at h
  unfold subMap
  cases h1 : Dict.get? m o with
  | none => simp [h1] at h
  | some subs => cases h2 : Dict.get? subs s with
    | none => simp [h1, h2] at h
    | some names' => exact ⟨names', by simp [h1, h2]⟩

theorem lookup_of_subMap {m : ByOutput V} (hm : Neat m) {o s : String} {names : Dict String V}
    (h : subMap (some m) o s = .ok names) : ∃ n v, lookup m o s n = some v := by
  have hn : names ≠ [] := by
    unfold subMap at h
    cases h1 : Dict.get? m o with
    | none => simp [h1] at h
    | some subs => cases h2 : Dict.get? subs s with
      | none => simp [h1, h2] at h
      | some names' =>
        simp only [h1, h2, Except.ok.injEq] at h
        subst h
        exact (hm.names _ _ _ _ h1 h2).2
  cases names with
  | nil => exact absurd rfl hn
  | cons x l =>
    refine ⟨x.1, x.2, ?_⟩
    rw [← subMap_ok h]
    simp [Dict.get?]

theorem subMap_error {m : ByOutput V} {o s : String} {e : Err} (h : subMap (some m) o s = .error e) : e = .keyError := by
  unfold subMap at h
  cases h1 : Dict.get? m o with
  | none => simp [h1] at h; exact h.symm
  | some subs => cases h2 : Dict.get? subs s with
    | none => simp [h1, h2] at h; exact h.symm
    | some names' => simp [h1, h2] at h

/-! ### Putting one nested dictionary into another -/

theorem lookup_addNames (o s : String) (names : Dict String V) (h : Dict.WF names) (m : ByOutput V) (o' s' n' : String) :
    lookup (names.foldl (fun m n => setIn m o s n.1 n.2) m) o' s' n' =
      if o = o' ∧ s = s' then (Dict.get? names n').or (lookup m o' s' n') else lookup m o' s' n' := by
  induction names generalizing m with
  | nil => simp [Dict.get?]
  | cons x l ih =>
    have hl : Dict.WF l := by
      simp only [Dict.WF, Dict.keys, List.map_cons, List.nodup_cons] at h
      exact h.2
    have hx : x.1 ∉ Dict.keys l := by
      simp only [Dict.WF, Dict.keys, List.map_cons, List.nodup_cons] at h
      exact h.1
    rw [List.foldl_cons, ih hl, lookup_setIn]
    obtain ⟨k, v⟩ := x
    by_cases hos : o = o' ∧ s = s'
    · simp only [hos, and_self, if_true, true_and, Dict.get?]
      by_cases hk : k = n'
      · subst hk
        have : Dict.get? l k = none := (Dict.get?_eq_none_iff _ _).mpr hx
        simp [this]
      · simp [hk]
    · rw [if_neg hos, if_neg hos, if_neg (fun hh => hos ⟨hh.1, hh.2.1⟩)]

theorem neat_addNames (o s : String) (names : Dict String V) {m : ByOutput V} (h : Neat m) :
    Neat (names.foldl (fun m n => setIn m o s n.1 n.2) m) := by
  induction names generalizing m with
  | nil => exact h
  | cons x l ih => exact ih (neat_setIn h _ _ _ _)

theorem lookup_addSubs (o : String) (subs : Dict String (Dict String V)) (h : Dict.WF subs)
    (hn : ∀ x ∈ subs, Dict.WF x.2) (m : ByOutput V) (o' s' n' : String) :
    lookup (subs.foldl (fun m s => s.2.foldl (fun m n => setIn m o s.1 n.1 n.2) m) m) o' s' n' =
      if o = o' then ((Dict.get? subs s').bind fun names => Dict.get? names n').or (lookup m o' s' n')
      else lookup m o' s' n' := by
  induction subs generalizing m with
  | nil => simp [Dict.get?]
  | cons x l ih =>
    have hl : Dict.WF l := by
      simp only [Dict.WF, Dict.keys, List.map_cons, List.nodup_cons] at h
      exact h.2
    have hx : x.1 ∉ Dict.keys l := by
      simp only [Dict.WF, Dict.keys, List.map_cons, List.nodup_cons] at h
      exact h.1
    rw [List.foldl_cons, ih hl (fun y hy => hn y (by simp [hy])), lookup_addNames _ _ _ (hn x (by simp))]
    obtain ⟨k, v⟩ := x
    by_cases ho : o = o'
    · simp only [ho, if_true, true_and, Dict.get?]
      by_cases hk : k = s'
      · subst hk
        have : Dict.get? l k = none := (Dict.get?_eq_none_iff _ _).mpr hx
        simp [this]
      · simp [hk]
    · simp [ho]

theorem neat_addSubs (o : String) (subs : Dict String (Dict String V)) {m : ByOutput V} (h : Neat m) :
    Neat (subs.foldl (fun m s => s.2.foldl (fun m n => setIn m o s.1 n.1 n.2) m) m) := by
  induction subs generalizing m with
  | nil => exact h
  | cons x l ih => exact ih (neat_addNames _ _ _ h)

theorem lookup_addAll (m : ByOutput V) {extra : ByOutput V} (he : Neat extra) (o s n : String) :
    lookup (addAll m extra) o s n = (lookup extra o s n).or (lookup m o s n) := by
  obtain ⟨h1, h2, h3⟩ := he
  have h2' : ∀ x ∈ extra, Dict.WF x.2 := fun x hx => (h2 _ _ (Dict.get?_of_mem h1 hx)).1
  have h3' : ∀ x ∈ extra, ∀ y ∈ x.2, Dict.WF y.2 := fun x hx y hy =>
    (h3 _ _ _ _ (Dict.get?_of_mem h1 hx) (Dict.get?_of_mem (h2' x hx) hy)).1
  clear h2 h3
  unfold addAll
  induction extra generalizing m with
  | nil => simp [lookup, Dict.get?]
  | cons x l ih =>
    have hl : Dict.WF l := by
      simp only [Dict.WF, Dict.keys, List.map_cons, List.nodup_cons] at h1
      exact h1.2
    have hx : x.1 ∉ Dict.keys l := by
      simp only [Dict.WF, Dict.keys, List.map_cons, List.nodup_cons] at h1
      exact h1.1
    rw [List.foldl_cons, ih _ hl (fun y hy => h2' y (by simp [hy])) (fun y hy => h3' y (by simp [hy])),
      lookup_addSubs _ _ (h2' x (by simp)) (h3' x (by simp))]
    obtain ⟨k, v⟩ := x
    by_cases ho : k = o
    · subst ho
      have : Dict.get? l k = none := (Dict.get?_eq_none_iff _ _).mpr hx
      simp [lookup, this, Dict.get?]
    · simp only [ho, if_false, lookup, Dict.get?]

theorem neat_addAll {m : ByOutput V} (h : Neat m) (extra : ByOutput V) : Neat (addAll m extra) := by
  unfold addAll
  induction extra generalizing m with
  | nil => exact h
  | cons x l ih => exact ih (neat_addSubs _ _ h)

/-! ### Filling the dictionaries of the models -/

/-- The value of the last entry whose key satisfies `p`. -/
def latest (p : MetricKeyPb → Prop) [DecidablePred p] : List (MetricKeyPb × W) → Option W
  | [] => none
  | x :: rest => (latest p rest).or (if p x.1 then some x.2 else none)

theorem latest_iff (p : MetricKeyPb → Prop) [DecidablePred p] (l : List (MetricKeyPb × W)) (w : W) :
    latest p l = some w ↔ ∃ pre x post, l = pre ++ x :: post ∧ p x.1 ∧ x.2 = w ∧ ∀ y ∈ post, ¬ p y.1 := by
  induction l with
  | nil => simp [latest]
  | cons a l ih =>
    simp only [latest, Option.or_eq_some_iff, ih]
    constructor
    · rintro (⟨pre, x, post, rfl, h⟩ | ⟨hn, h⟩)
      · exact ⟨a :: pre, x, post, rfl, h⟩
      · split at h
        · rename_i hp
          refine ⟨[], a, l, rfl, hp, by simpa using h, ?_⟩
          intro y hy hpy
          have : ∃ w, latest p l = some w := by
            clear ih h hp
            induction l with
            | nil => simp at hy
            | cons b l ihl =>
              simp only [latest]
              rcases List.mem_cons.mp hy with rfl | hy
              · cases latest p l <;> simp [hpy]
              · simp only [latest, Option.or_eq_none_iff] at hn
                obtain ⟨w, hw⟩ := ihl hn.1 hy
                exact ⟨w, by simp [hw]⟩
          obtain ⟨w, hw⟩ := this
          rw [hw] at hn
          exact absurd hn (by simp)
        · exact absurd h (by simp)
    · rintro ⟨pre, x, post, hl, hp, hw, hpost⟩
      cases pre with
      | nil =>
        simp only [List.nil_append, List.cons.injEq] at hl
        obtain ⟨rfl, rfl⟩ := hl
        right
        refine ⟨?_, by simp [hp, hw]⟩
        cases h : latest p l with
        | none => rfl
        | some w' =>
          exfalso
          clear ih
          induction l with
          | nil => simp [latest] at h
          | cons b l ihl =>
            simp only [latest, Option.or_eq_some_iff] at h
            rcases h with h | ⟨h, h'⟩
            · exact ihl (fun y hy => hpost y (by simp [hy])) h
            · have := hpost b (by simp)
              simp [this] at h'
      | cons b pre =>
        simp only [List.cons_append, List.cons.injEq] at hl
        exact Or.inl ⟨pre, x, post, hl.2, hp, hw, hpost⟩

/-- `maps[model][output][sub_key][name]`. -/
def look (maps : Dict String (ByOutput V)) (mdl o s n : String) : Option V :=
  (Dict.get? maps mdl).bind fun m => lookup m o s n

/-- The entry is stored at the given place. -/
def At (name : MetricKeyPb → String) (mdl o s n : String) (k : MetricKeyPb) : Prop :=
  k.modelName = mdl ∧ k.outputName = o ∧ subKeyId k.subKey = .ok s ∧ name k = n

instance (name : MetricKeyPb → String) (mdl o s n : String) : DecidablePred (At name mdl o s n) :=
  fun _ => by unfold At; infer_instance

theorem fill_spec (name : MetricKeyPb → String) (val : W → V) (l : List (MetricKeyPb × W)) (maps : Dict String (ByOutput V))
    (d : Option String) (maps' : Dict String (ByOutput V)) (d' : Option String) (h : fill name val l maps d = .ok (maps', d'))
    (hwf : Dict.WF maps) (hneat : ∀ mdl m, Dict.get? maps mdl = some m → Neat m) :
    (∀ x ∈ l, ∃ s, subKeyId x.1.subKey = .ok s) ∧
    (∀ mdl o s n, look maps' mdl o s n = ((latest (At name mdl o s n) l).map val).or (look maps mdl o s n)) ∧
    (∀ mdl, mdl ∈ Dict.keys maps' ↔ mdl ∈ Dict.keys maps ∨ ∃ x ∈ l, x.1.modelName = mdl) ∧
    Dict.WF maps' ∧ (∀ mdl m, Dict.get? maps' mdl = some m → Neat m) ∧
    d' = l.foldl (fun d x => diffModel x.1 d) d := by
  induction l generalizing maps d with
  | nil =>
    simp only [fill, Except.ok.injEq, Prod.mk.injEq] at h
    obtain ⟨rfl, rfl⟩ := h
    exact ⟨by simp, by simp [latest], by simp, hwf, hneat, rfl⟩
  | cons x l ih =>
    obtain ⟨k, w⟩ := x
    simp only [fill] at h
    cases hs : subKeyId k.subKey with
    | error e => simp [hs] at h
    | ok sub =>
      simp only [hs] at h
      have hown : Neat ((Dict.get? maps k.modelName).getD []) := by
        cases h1 : Dict.get? maps k.modelName with
        | none => exact neat_nil
        | some m => exact hneat _ _ h1
      obtain ⟨i1, i2, i3, i4, i5, i6⟩ := ih _ _ h (Dict.WF_set hwf _ _) (by
        intro mdl m hm
        by_cases hk : k.modelName = mdl
        · subst hk
          rw [Dict.get?_set_self] at hm
          cases hm
          exact neat_setIn hown _ _ _ _
        · rw [Dict.get?_set_ne _ _ hk] at hm
          exact hneat _ _ hm)
      refine ⟨?_, ?_, ?_, i4, i5, i6⟩
      · intro y hy
        rcases List.mem_cons.mp hy with rfl | hy
        · exact ⟨sub, hs⟩
        · exact i1 y hy
      · intro mdl o s n
        rw [i2]
        simp only [latest]
        cases hl : latest (At name mdl o s n) l with
        | some w' => simp
        | none =>
          simp only [Option.map_none, Option.none_or, look]
          by_cases hk : k.modelName = mdl
          · subst hk
            rw [Dict.get?_set_self, Option.bind_some, lookup_setIn]
            by_cases hp : k.outputName = o ∧ sub = s ∧ name k = n
            · have hat : At name k.modelName o s n k := ⟨rfl, hp.1, by rw [hs, hp.2.1], hp.2.2⟩
              rw [if_pos hp, if_pos hat]
              simp
            · have hat : ¬ At name k.modelName o s n k := by
                rintro ⟨_, h1, h2, h3⟩
                rw [hs] at h2
                exact hp ⟨h1, Except.ok.inj h2, h3⟩
              rw [if_neg hp, if_neg hat]
              cases Dict.get? maps k.modelName <;> simp [lookup, Dict.get?]
          · have hat : ¬ At name mdl o s n k := fun hh => hk hh.1
            rw [Dict.get?_set_ne _ _ hk, if_neg hat]
            simp
      · intro mdl
        rw [i3, Dict.keys_set]
        simp only [List.mem_cons, exists_eq_or_imp]
        split
        · rename_i hin
          constructor
          · rintro (h | h)
            · exact Or.inl h
            · exact Or.inr (Or.inr h)
          · rintro (h | h | h)
            · exact Or.inl h
            · subst h
              exact Or.inl (by simpa using hin)
            · exact Or.inr h
        · simp only [List.mem_append, List.mem_singleton]
          constructor
          · rintro ((h | h) | h)
            · exact Or.inl h
            · exact Or.inr (Or.inl h.symm)
            · exact Or.inr (Or.inr h)
          · rintro (h | h | h)
            · exact Or.inl (Or.inl h)
            · exact Or.inl (Or.inr h.symm)
            · exact Or.inr h

end EvalResults
end TFMA
