import Verif.Model.PrivateNames
import Verif.Py.DictLemmas
import Verif.Props.CocoSetup

/-!
# C155: names generated from arguments

A generated name does not depend on the order the arguments are given in, and tells different arguments apart.
-/

namespace TFMA
namespace PrivateNames

/-! ### specification -/

/-- The text of an argument, if it is given and not `None`. -/
def argument (kwargs : Kwargs) (k : String) : Option String := (kwargs.get? k).join

/-- An argument name is a Python identifier; all that matters is that it has neither commas nor equals signs. -/
def PlainKey (k : String) : Prop := ',' ∉ k.toList ∧ '=' ∉ k.toList

/-- A text does not look as if another argument began in it. -/
def CleanText (keys : List String) (v : String) : Prop :=
  ∀ k ∈ keys, ¬ (',' :: (k.toList ++ ['='])) <:+: v.toList

/-! ### texts -/

private theorem split_first {γ : Type} (c : γ) (a b a' b' : List γ) (ha : c ∉ a) (ha' : c ∉ a') (h : a ++ c :: b = a' ++ c :: b') :
    a = a' ∧ b = b' := by
  induction a generalizing a' with
  | nil =>
    cases a' with
    | nil => simpa using h
    | cons x a' =>
      simp only [List.nil_append, List.cons_append, List.cons.injEq] at h
      exact absurd (by simp [h.1]) ha'
  | cons x a ih =>
    cases a' with
    | nil =>
      simp only [List.nil_append, List.cons_append, List.cons.injEq] at h
      exact absurd (by simp [h.1]) ha
    | cons y a' =>
      simp only [List.cons_append, List.cons.injEq] at h
      obtain ⟨e1, e2⟩ := ih a' (by simp at ha; exact ha.2) (by simp at ha'; exact ha'.2) h.2
      exact ⟨by rw [h.1, e1], e2⟩

/-- The characters of the arguments one after another. -/
private def chars : List (String × String) → List Char
  | [] => []
  | [(k, v)] => k.toList ++ '=' :: v.toList
  | (k, v) :: q :: rest => k.toList ++ '=' :: (v.toList ++ ',' :: chars (q :: rest))

/-- What follows the text of an argument. -/
private def tailChars : List (String × String) → List Char
  | [] => []
  | q :: rest => ',' :: chars (q :: rest)

private theorem chars_cons (k v : String) (rest : List (String × String)) :
    chars ((k, v) :: rest) = k.toList ++ '=' :: (v.toList ++ tailChars rest) := by
  cases rest <;> simp [chars, tailChars]

private theorem tailChars_cons (k v : String) (rest : List (String × String)) :
    tailChars ((k, v) :: rest) = ',' :: (k.toList ++ '=' :: (v.toList ++ tailChars rest)) := by
  rw [← chars_cons]
  rfl

private theorem join_chars (l : List (String × String)) :
    (joinCommas (l.map fun p => p.1 ++ "=" ++ p.2)).toList = chars l := by
  induction l with
  | nil => rfl
  | cons p l ih =>
    obtain ⟨k, v⟩ := p
    cases l with
    | nil => simp [joinCommas, chars]
    | cons q l =>
      simp only [List.map_cons] at ih
      simp [joinCommas, chars, ← ih]

private theorem no_overlap (keys : List String) (v v' : List Char) (r r' : List (String × String))
    (hr : ∀ p ∈ r, p.1 ∈ keys ∧ PlainKey p.1)
    (hv' : ∀ k ∈ keys, ¬ (',' :: (k.toList ++ ['='])) <:+: v')
    (a : List Char) (e1 : v' = v ++ a) (e2 : tailChars r = a ++ tailChars r') : a = [] := by
  cases r with
  | nil =>
    simp only [tailChars] at e2
    exact (List.append_eq_nil_iff.1 e2.symm).1
  | cons p r =>
    obtain ⟨k, x⟩ := p
    obtain ⟨hk, hplain⟩ := hr (k, x) (by simp)
    by_contra hne
    obtain ⟨c, a2, rfl⟩ := List.exists_cons_of_ne_nil hne
    rw [tailChars_cons] at e2
    simp only [List.cons_append, List.cons.injEq] at e2
    obtain ⟨rfl, e2⟩ := e2
    have hin : ∀ c', a2 = (k.toList ++ ['=']) ++ c' → False := by
      intro c' e
      apply hv' k hk
      refine ⟨v, c', ?_⟩
      rw [e1, e]
      simp
    have e3 : (k.toList ++ ['=']) ++ (x.toList ++ tailChars r) = a2 ++ tailChars r' := by
      rw [← e2]; simp
    rcases List.append_eq_append_iff.1 e3 with ⟨c', h1, h2⟩ | ⟨c', h1, h2⟩
    · exact hin c' h1
    · cases c' with
      | nil => exact hin [] (by simpa using h1.symm)
      | cons y c' =>
        cases r' with
        | nil => simp [tailChars] at h2
        | cons q r' =>
          simp only [tailChars, List.cons_append, List.cons.injEq] at h2
          have : y ∈ k.toList ++ ['='] := by rw [h1]; simp
          rw [← h2.1] at this
          simp only [List.mem_append, List.mem_singleton] at this
          rcases this with h | h
          · exact hplain.1 h
          · exact absurd h (by decide)

private theorem chars_inj (keys : List String) (l l' : List (String × String))
    (hl : ∀ p ∈ l, (p.1 ∈ keys ∧ PlainKey p.1) ∧ CleanText keys p.2)
    (hl' : ∀ p ∈ l', (p.1 ∈ keys ∧ PlainKey p.1) ∧ CleanText keys p.2) (h : chars l = chars l') : l = l' := by
  induction l generalizing l' with
  | nil =>
    cases l' with
    | nil => rfl
    | cons p l' => obtain ⟨k, v⟩ := p; rw [chars_cons] at h; simp [chars] at h
  | cons p l ih =>
    obtain ⟨k, v⟩ := p
    cases l' with
    | nil => rw [chars_cons] at h; simp [chars] at h
    | cons p' l' =>
      obtain ⟨k', v'⟩ := p'
      rw [chars_cons, chars_cons] at h
      obtain ⟨⟨_, pk⟩, cv⟩ := hl (k, v) (by simp)
      obtain ⟨⟨_, pk'⟩, cv'⟩ := hl' (k', v') (by simp)
      obtain ⟨e1, e2⟩ := split_first '=' _ _ _ _ pk.2 pk'.2 h
      replace e1 : k.toList = k'.toList := e1
      have hr : ∀ p ∈ l, p.1 ∈ keys ∧ PlainKey p.1 := fun p hp => (hl p (by simp [hp])).1
      have hr' : ∀ p ∈ l', p.1 ∈ keys ∧ PlainKey p.1 := fun p hp => (hl' p (by simp [hp])).1
      have hv : v.toList = v'.toList ∧ tailChars l = tailChars l' := by
        rcases List.append_eq_append_iff.1 e2 with ⟨a, h1, h2⟩ | ⟨a, h1, h2⟩
        · have := no_overlap keys v.toList v'.toList l l' hr cv' a h1 h2
          subst this
          simp only [List.append_nil, List.nil_append] at h1 h2
          exact ⟨h1.symm, h2⟩
        · have := no_overlap keys v'.toList v.toList l' l hr' cv a h1 h2
          subst this
          simp only [List.append_nil, List.nil_append] at h1 h2
          exact ⟨h1, h2.symm⟩
      have hc : chars l = chars l' := by
        have := hv.2
        cases l <;> cases l' <;> simp_all [tailChars, chars]
      rw [ih l' (fun p hp => hl p (by simp [hp])) (fun p hp => hl' p (by simp [hp])) hc,
        String.toList_injective e1, String.toList_injective hv.1]

/-! ### arguments -/

private theorem get?_given (kwargs : Kwargs) (hwf : kwargs.WF) (k : String) : Dict.get? (given kwargs) k = argument kwargs k := by
  have hsub : ∀ ks : List String, ks.Nodup →
      Dict.get? (ks.filterMap fun k => match kwargs.get? k with
        | some (some v) => some (k, v)
        | _ => none) k = if k ∈ ks then argument kwargs k else none := by
    intro ks
    induction ks with
    | nil => simp
    | cons x ks ih =>
      intro hn
      obtain ⟨hx, hn⟩ := List.nodup_cons.1 hn
      rw [List.filterMap_cons]
      by_cases e : x = k
      · subst e
        rw [if_pos (by simp)]
        cases hg : kwargs.get? x with
        | none => simp only [ih hn, if_neg hx]; simp [argument, hg]
        | some o =>
          cases o with
          | none => simp only [ih hn, if_neg hx]; simp [argument, hg]
          | some v => simp [Dict.get?_cons, argument, hg]
      · have : (k ∈ x :: ks) ↔ k ∈ ks := by simp [Ne.symm e]
        rw [if_congr this rfl rfl, ← ih hn]
        cases hg : kwargs.get? x with
        | none => rfl
        | some o =>
          cases o with
          | none => rfl
          | some v => simp [Dict.get?_cons, e]
  have hp : ((Dict.keys kwargs).insertionSort (· ≤ ·)).Perm (Dict.keys kwargs) := List.perm_insertionSort _ _
  refine Eq.trans (hsub _ (hp.nodup_iff.2 hwf)) ?_
  split_ifs with hk
  · rfl
  · have : k ∉ Dict.keys kwargs := fun h => hk (hp.mem_iff.2 h)
    simp [argument, (Dict.get?_eq_none_iff _ _).2 this]

private theorem mem_given (kwargs : Kwargs) (p : String × String) (h : p ∈ given kwargs) :
    p.1 ∈ Dict.keys kwargs ∧ argument kwargs p.1 = some p.2 := by
  simp only [given, List.mem_filterMap] at h
  obtain ⟨k, hk, e⟩ := h
  split at e
  · next v hv =>
    simp only [Option.some.injEq] at e
    subst e
    exact ⟨(List.perm_insertionSort _ _).mem_iff.1 hk, by simp [argument, hv]⟩
  · simp at e

/-- The name with the mark of a private one. -/
def marked (name : String) : String := if name.toList.head? = some '_' then name else "_" ++ name

/-- **C155** (apart): if two generated names are equal, the names they begin with are equal but for the private mark, and the arguments
are equal: the same ones are given and each has the same text. Required is only that no text looks as if another of the arguments began
in it. -/
theorem C155_apart (name name' : String) (kwargs kwargs' : Kwargs) (hn : ':' ∉ name.toList) (hn' : ':' ∉ name'.toList)
    (hwf : kwargs.WF) (hwf' : kwargs'.WF) (hkeys : ∀ k ∈ Dict.keys kwargs ++ Dict.keys kwargs', PlainKey k)
    (hclean : ∀ k v, argument kwargs k = some v ∨ argument kwargs' k = some v →
      CleanText (Dict.keys kwargs ++ Dict.keys kwargs') v)
    (h : generate name kwargs = generate name' kwargs') :
    marked name = marked name' ∧ ∀ k, argument kwargs k = argument kwargs' k := by
  have hcolon : ∀ n : String, ':' ∉ n.toList → ':' ∉ (hidden n).toList := by
    intro n hn
    unfold hidden
    split_ifs
    · exact hn
    · simp only [String.toList_append, List.mem_append, not_or]
      exact ⟨by decide, hn⟩
  have h' := congrArg String.toList h
  simp only [generate, String.toList_append, join_chars] at h'
  have e0 : ":".toList = [':'] := by decide
  rw [e0] at h'
  simp only [List.append_assoc, List.singleton_append] at h'
  obtain ⟨e1, e2⟩ := split_first ':' _ _ _ _ (hcolon name hn) (hcolon name' hn') h'
  refine ⟨String.toList_injective e1, ?_⟩
  have := chars_inj (Dict.keys kwargs ++ Dict.keys kwargs') (given kwargs) (given kwargs')
    (fun p hp => by
      obtain ⟨h1, h2⟩ := mem_given kwargs p hp
      exact ⟨⟨by simp [h1], hkeys _ (by simp [h1])⟩, hclean _ _ (.inl h2)⟩)
    (fun p hp => by
      obtain ⟨h1, h2⟩ := mem_given kwargs' p hp
      exact ⟨⟨by simp [h1], hkeys _ (by simp [h1])⟩, hclean _ _ (.inr h2)⟩) e2
  intro k
  rw [← get?_given kwargs hwf, ← get?_given kwargs' hwf', this]

/-- **C155** (same): the order of the arguments and those that are `None` do not matter: with the same arguments given, the generated
names are equal. -/
theorem C155_same (name : String) (kwargs kwargs' : Kwargs) (hwf : kwargs.WF) (hwf' : kwargs'.WF)
    (h : ∀ k, argument kwargs k = argument kwargs' k) : generate name kwargs = generate name kwargs' := by
  have hkeys : ∀ kw : Kwargs, (given kw).map Prod.fst
      = ((Dict.keys kw).insertionSort (· ≤ ·)).filter fun k => (argument kw k).isSome := by
    intro kw
    unfold given
    generalize (Dict.keys kw).insertionSort (· ≤ ·) = ks
    induction ks with
    | nil => rfl
    | cons k ks ih =>
      rw [List.filterMap_cons, List.filter_cons]
      cases hg : kw.get? k with
      | none => simpa [argument, hg] using ih
      | some o =>
        cases o with
        | none => simpa [argument, hg] using ih
        | some v => simpa [argument, hg] using ih
  have hsorted : ∀ kw : Kwargs, ((given kw).map Prod.fst).Pairwise (· ≤ ·) := fun kw => by
    rw [hkeys]
    exact (List.pairwise_insertionSort _ _).filter _
  have hnodup : ∀ kw : Kwargs, kw.WF → ((given kw).map Prod.fst).Nodup := fun kw hw => by
    rw [hkeys]
    exact ((List.perm_insertionSort _ _).nodup_iff.2 hw).filter _
  have hmem : ∀ kw : Kwargs, ∀ k, k ∈ (given kw).map Prod.fst ↔ (argument kw k).isSome = true := fun kw k => by
    rw [hkeys, List.mem_filter]
    constructor
    · exact fun h => h.2
    · intro hk
      refine ⟨(List.perm_insertionSort _ _).mem_iff.2 ?_, hk⟩
      rw [Dict.mem_keys_iff]
      cases hg : kw.get? k with
      | none => simp [argument, hg] at hk
      | some o => exact ⟨o, rfl⟩
  have hperm : ((given kwargs).map Prod.fst).Perm ((given kwargs').map Prod.fst) := by
    rw [List.perm_ext_iff_of_nodup (hnodup _ hwf) (hnodup _ hwf')]
    intro k
    rw [hmem, hmem, h]
  have heq : (given kwargs).map Prod.fst = (given kwargs').map Prod.fst :=
    hperm.eq_of_pairwise (fun a b _ _ h1 h2 => le_antisymm h1 h2) (hsorted _) (hsorted _)
  have hval : ∀ kw : Kwargs, given kw = ((given kw).map Prod.fst).map fun k => (k, (argument kw k).getD "") := fun kw => by
    rw [List.map_map]
    symm
    conv_rhs => rw [← List.map_id (given kw)]
    refine List.map_congr_left fun p hp => ?_
    have := (mem_given kw p hp).2
    simp [this]
  have : given kwargs = given kwargs' := by
    rw [hval kwargs, hval kwargs', heq]
    simp only [h]
  unfold generate
  rw [this]

/-- **C155** (negation): a text in which another argument seems to begin makes different arguments share a name, and so does the private
mark. -/
theorem C155_text_fails (name : String) :
    generate name [("a", some "1,b=2")] = generate name [("a", some "1"), ("b", some "2")] ∧
    generate "x" [("a", some "1")] = generate "_x" [("a", some "1")] := by
  have h1 : given [("a", some "1,b=2")] = [("a", "1,b=2")] := by decide +kernel
  have h2 : given [("a", some "1"), ("b", some "2")] = [("a", "1"), ("b", "2")] := by decide +kernel
  constructor
  · unfold generate
    rw [h1, h2]
    have : joinCommas ([("a", "1,b=2")].map fun p => p.1 ++ "=" ++ p.2)
        = joinCommas ([("a", "1"), ("b", "2")].map fun p => p.1 ++ "=" ++ p.2) := by decide +kernel
    rw [this]
  · decide +kernel

/-! ### object detection -/

/-- **C155** (boxes): the preprocessors of the object detection metrics have different names for different classes, overlap thresholds,
area ranges, numbers of detections and class weights, given that `str` tells numbers apart and has no equals sign. This is what C107
supposes. -/
theorem C155_boxes (int : ℤ → String) (num : ℚ → String) (range : Fl × Fl → String) (hint : Function.Injective int)
    (hnum : Function.Injective num) (hrange : Function.Injective range) (h1 : ∀ x, '=' ∉ (int x).toList)
    (h2 : ∀ x, '=' ∉ (num x).toList) (h3 : ∀ x, '=' ∉ (range x).toList) : Function.Injective (boxMatchName int num range) := by
  intro p q h
  have hclean : ∀ (keys : List String) (v : String), '=' ∉ v.toList → CleanText keys v := by
    intro keys v hv k _ hin
    exact hv (hin.subset (by simp))
  have hA : ∀ p : CocoSetup.PName, ∀ k v, argument
      [("class_id", some (int p.classId)), ("iou_threshold", p.iouThreshold.map num), ("area_range", p.areaRange.map range),
      ("max_num_detections", p.maxNumDetections.map int), ("class_weight", p.classWeight.map num)] k = some v → '=' ∉ v.toList := by
    intro p k v hv
    simp only [argument, Option.join_eq_some_iff] at hv
    have hm := Dict.mem_of_get? hv
    simp only [List.mem_cons, Prod.mk.injEq, List.not_mem_nil, or_false] at hm
    rcases hm with ⟨_, e⟩ | ⟨_, e⟩ | ⟨_, e⟩ | ⟨_, e⟩ | ⟨_, e⟩
    · simp only [Option.some.injEq] at e; rw [e]; exact h1 _
    · obtain ⟨x, _, rfl⟩ := Option.map_eq_some_iff.1 e.symm; exact h2 _
    · obtain ⟨x, _, rfl⟩ := Option.map_eq_some_iff.1 e.symm; exact h3 _
    · obtain ⟨x, _, rfl⟩ := Option.map_eq_some_iff.1 e.symm; exact h1 _
    · obtain ⟨x, _, rfl⟩ := Option.map_eq_some_iff.1 e.symm; exact h2 _
  have hp : ∀ k ∈ ["class_id", "iou_threshold", "area_range", "max_num_detections", "class_weight"], PlainKey k := by
    intro k hk
    simp only [List.mem_cons, List.not_mem_nil, or_false] at hk
    rcases hk with rfl | rfl | rfl | rfl | rfl <;> exact ⟨by decide, by decide⟩
  obtain ⟨_, ha⟩ := C155_apart _ _ _ _ (by decide) (by decide) (by simp [Dict.WF, Dict.keys]) (by simp [Dict.WF, Dict.keys])
    (by
      intro k hk
      simp only [Dict.keys, List.map_cons, List.map_nil, List.mem_append] at hk
      rcases hk with hk | hk <;> exact hp k hk)
    (by
      rintro k v (hv | hv)
      · exact hclean _ _ (hA p k v hv)
      · exact hclean _ _ (hA q k v hv)) h
  have a1 := ha "class_id"
  have a2 := ha "iou_threshold"
  have a3 := ha "area_range"
  have a4 := ha "max_num_detections"
  have a5 := ha "class_weight"
  simp [argument, Dict.get?_cons] at a1 a2 a3 a4 a5
  have b2 := Option.map_injective hnum a2
  have b3 := Option.map_injective hrange a3
  have b4 := Option.map_injective hint a4
  have b5 := Option.map_injective hnum a5
  have b1 := hint a1
  cases p; cases q
  simp_all

/-! ### cases -/

/-- arguments in another order, one of them `None` -/
example : generate "auc" [("b", some "2"), ("c", none), ("a", some "(0, 1)")] = "_auc:a=(0, 1),b=2" := by decide +kernel

/-- the name of a preprocessor as an argument has commas and equals signs and is still no text in which one of the arguments begins -/
example : CleanText ["num_thresholds", "preprocessors"] "('_bounding_box_match_preprocessor:area_range=(0, inf),class_id=1',)" := by
  intro k hk h
  simp only [List.mem_cons, List.not_mem_nil, or_false] at hk
  rcases hk with rfl | rfl <;> revert h <;> decide +kernel

end PrivateNames
end TFMA
