import Verif.Props.Keys

/-!
# C71: what get_by_keys finds

Specification: a dictionary is seen as the partial function from names to objects it represents, names split
over several keys are joined with "/".
-/

namespace TFMA
namespace Keys

variable {V : Type}

/-- `"/".join(ks)`. -/
def slashJoin : List String → String
  | [] => ""
  | [k] => k
  | k :: k' :: ks => k ++ "/" ++ slashJoin (k' :: ks)

theorem slashJoin_cons (k : String) {ks : List String} (h : ks ≠ []) :
    slashJoin (k :: ks) = k ++ "/" ++ slashJoin ks := by
  cases ks with
  | nil => exact absurd rfl h
  | cons a l => rfl

theorem stripPrefix_iff (key k r : String) : stripPrefix? key k = some r ↔ k = key ++ "/" ++ r := by
  unfold stripPrefix?
  constructor
  · intro h
    split at h
    · rename_i hp
      obtain ⟨t, ht⟩ := List.isPrefixOf_iff_prefix.mp hp
      cases h
      apply String.toList_injective
      rw [String.toList_append, String.toList_append, String.toList_ofList, ← ht]
      simp
    · cases h
  · rintro rfl
    rw [if_pos]
    · congr 1
      apply String.toList_injective
      rw [String.toList_ofList]
      simp [String.toList_append]
    · rw [List.isPrefixOf_iff_prefix]
      exact ⟨r.toList, by simp [String.toList_append]⟩

/-- one round of the loop. -/
def addMatch (key : String) (acc : Dict String ℕ) (kv : String × ℕ) : Dict String ℕ :=
  match stripPrefix? key kv.1 with
  | some k => Dict.set acc k kv.2
  | none => acc

theorem addMatch_some {key r : String} {acc : Dict String ℕ} {kv : String × ℕ}
    (h : stripPrefix? key kv.1 = some r) : addMatch key acc kv = Dict.set acc r kv.2 := by
  simp [addMatch, h]

theorem addMatch_none {key : String} {acc : Dict String ℕ} {kv : String × ℕ}
    (h : stripPrefix? key kv.1 = none) : addMatch key acc kv = acc := by
  simp [addMatch, h]

theorem prefixMatches_eq (key : String) (d : Dict String ℕ) :
    prefixMatches key d = d.foldl (addMatch key) [] := rfl

theorem prefixMatches_loop (key : String) (d acc : Dict String ℕ) (hd : Dict.WF d) (k : String) :
    Dict.get? (d.foldl (addMatch key) acc) k =
    match Dict.get? d (key ++ "/" ++ k) with
      | some a => some a
      | none => Dict.get? acc k := by
  induction d generalizing acc with
  | nil => rfl
  | cons p d ih =>
    obtain ⟨pk, pa⟩ := p
    have hd' : Dict.WF d := by
      unfold Dict.WF Dict.keys at hd ⊢; rw [List.map_cons, List.nodup_cons] at hd; exact hd.2
    have hnot : pk ∉ Dict.keys d := by
      unfold Dict.WF Dict.keys at hd; rw [List.map_cons, List.nodup_cons] at hd; exact hd.1
    rw [List.foldl_cons, ih _ hd', Dict.get?_cons]
    by_cases he : pk = key ++ "/" ++ k
    · subst he
      rw [if_pos rfl, (Dict.get?_eq_none_iff (d := d) (k := key ++ "/" ++ k)).mpr hnot]
      rw [addMatch_some ((stripPrefix_iff key (key ++ "/" ++ k) k).mpr rfl)]
      exact Dict.get?_set_self _ _ _
    · rw [if_neg he]
      cases hg : Dict.get? d (key ++ "/" ++ k) with
      | some a => rfl
      | none =>
        simp only
        cases hs : stripPrefix? key pk with
        | none => rw [addMatch_none hs]
        | some r =>
          rw [addMatch_some hs]
          have : r ≠ k := by
            rintro rfl
            exact he ((stripPrefix_iff _ _ _).mp hs)
          exact Dict.get?_set_ne _ _ this

/-- the dictionary built from the prefixed names contains exactly these names, without the prefix. -/
theorem get?_prefixMatches (key : String) (d : Dict String ℕ) (hd : Dict.WF d) (k : String) :
    Dict.get? (prefixMatches key d) k = Dict.get? d (key ++ "/" ++ k) := by
  rw [prefixMatches_eq, prefixMatches_loop key d [] hd k]
  cases Dict.get? d (key ++ "/" ++ k) <;> rfl

theorem WF_prefixMatches (key : String) (d acc : Dict String ℕ) (h : Dict.WF acc) :
    Dict.WF (d.foldl (addMatch key) acc) := by
  induction d generalizing acc with
  | nil => exact h
  | cons p d ih =>
    rw [List.foldl_cons]
    apply ih
    cases hs : stripPrefix? key p.1 with
    | none => rw [addMatch_none hs]; exact h
    | some r => rw [addMatch_some hs]; exact Dict.WF_set h _ _

theorem prefixMatches_empty (key : String) (d : Dict String ℕ) (hd : Dict.WF d)
    (h : ∀ r, Dict.get? d (key ++ "/" ++ r) = none) : prefixMatches key d = [] := by
  cases hp : prefixMatches key d with
  | nil => rfl
  | cons p l =>
    have := get?_prefixMatches key d hd p.1
    rw [hp, h p.1, Dict.get?_cons, if_pos rfl] at this
    cases this

theorem getLoop_none (h : Heap V) (c : Cur) (ks : List (Option String)) :
    getLoop h c ks = getLoop h c (ks.filter Option.isSome) := by
  induction ks generalizing c with
  | nil => rfl
  | cons k ks ih =>
    cases k with
    | none =>
      rw [List.filter_cons_of_neg (by simp)]
      exact ih c
    | some k =>
      rw [List.filter_cons_of_pos (by simp)]
      unfold getLoop
      split
      · rfl
      · split
        · exact ih _
        · simp only
          split
          · rfl
          · exact ih _

/-- **C71** (None keys): keys that are None are ignored. -/
theorem C71_none_keys (h : Heap V) (data : ℕ) (keys : List (Option String)) (k : String)
    (hk : some k ∈ keys) (hasDefault optional : Bool) :
    getByKeys h data keys hasDefault optional =
      getByKeys h data (keys.filter Option.isSome) hasDefault optional := by
  unfold getByKeys
  have h1 : keys ≠ [] := List.ne_nil_of_mem hk
  have h2 : keys.filter Option.isSome ≠ [] :=
    List.ne_nil_of_mem (List.mem_filter.mpr ⟨hk, rfl⟩)
  have e1 : keys.isEmpty = false := by simpa using h1
  have e2 : (keys.filter Option.isSome).isEmpty = false := by
    cases hf : keys.filter Option.isSome with
    | nil => exact absurd hf h2
    | cons _ _ => rfl
  rw [e1, e2, getLoop_none]

theorem getLoop_prefixed (h : Heap V) (c : Cur) (d : Dict String ℕ) (hc : c.mapping? h = some d)
    (hd : Dict.WF d) (ks : List String) (hks : ks ≠ []) (a : ℕ)
    (ha : Dict.get? d (slashJoin ks) = some a)
    (hfirst : ∀ q, q ≠ [] → q <+: ks → q ≠ ks → Dict.get? d (slashJoin q) = none) :
    getLoop h c (ks.map some) = .ok (.at a, true) := by
  induction ks generalizing c d with
  | nil => exact absurd rfl hks
  | cons k ks ih =>
    cases ks with
    | nil =>
      simp only [List.map_cons, List.map_nil, getLoop, hc]
      rw [show slashJoin [k] = k from rfl] at ha
      simp only [ha]
    | cons k' ks =>
      have hk : Dict.get? d k = none :=
        hfirst [k] (by simp) (by simp) (by simp)
      rw [List.map_cons]
      unfold getLoop
      simp only [hc, hk]
      rw [slashJoin_cons k (by simp)] at ha
      have hpm : prefixMatches k d ≠ [] := by
        intro he
        have := get?_prefixMatches k d hd (slashJoin (k' :: ks))
        rw [he, ha] at this
        cases this
      rw [if_neg (by simpa [List.isEmpty_iff] using hpm)]
      refine ih (.fresh (prefixMatches k d)) (prefixMatches k d) rfl
        (WF_prefixMatches k d [] Dict.WF_nil) (by simp) ?_ ?_
      · rw [get?_prefixMatches k d hd]; exact ha
      · intro q hq hp hne
        rw [get?_prefixMatches k d hd, ← slashJoin_cons k hq]
        exact hfirst (k :: q) (by simp) (by simpa using hp) (by simpa using hne)

theorem getLoop_append (h : Heap V) (a b : ℕ) (p : List String) (ks : List (Option String))
    (hl : lookup h a p = some b) :
    getLoop h (.at a) (p.map some ++ ks) = getLoop h (.at b) ks := by
  induction p generalizing a with
  | nil => cases hl; rfl
  | cons k q ih =>
    rw [lookup_cons] at hl
    split at hl
    · rename_i d hd
      split at hl
      · rename_i c hk
        rw [List.map_cons, List.cons_append]
        conv_lhs => unfold getLoop
        simp only [Cur.mapping?, hd, hk]
        exact ih c hl
      · cases hl
    · cases hl

theorem getByKeys_found (h : Heap V) (data a : ℕ) (keys : List (Option String)) (hk : keys ≠ [])
    (hl : getLoop h (.at data) keys = .ok (.at a, true)) (hne : h[a]? ≠ some (.dict []))
    (hasDefault optional : Bool) :
    getByKeys h data keys hasDefault optional = .ok (.found (.at a)) := by
  unfold getByKeys
  rw [if_neg (by simpa [List.isEmpty_iff] using hk), hl]
  simp only [Bool.not_true, Bool.false_or, Cur.mapping?]
  rw [if_neg]
  cases e : h[a]? with
  | none => simp
  | some o =>
    cases o with
    | val _ => simp
    | dict d =>
      cases d with
      | nil => exact absurd e hne
      | cons x d => simp

/-- **C71** (prefixed names): after following exact keys to a dictionary, a value stored there under the single
name `"k1/k2/…/kn"` is returned for the keys `k1, k2, …, kn`, provided that none of the shorter names `"k1"`,
`"k1/k2"`, … is present itself (these take precedence). -/
theorem C71_prefixed (h : Heap V) (data b a : ℕ) (p ks : List String) (d : Dict String ℕ)
    (hp : lookup h data p = some b) (hb : h[b]? = some (.dict d)) (hd : Dict.WF d) (hks : ks ≠ [])
    (ha : Dict.get? d (slashJoin ks) = some a)
    (hfirst : ∀ q, q ≠ [] → q <+: ks → q ≠ ks → Dict.get? d (slashJoin q) = none)
    (hne : h[a]? ≠ some (.dict [])) (hasDefault optional : Bool) :
    getByKeys h data ((p ++ ks).map some) hasDefault optional = .ok (.found (.at a)) := by
  apply getByKeys_found _ _ _ _ (by simp [hks]) _ hne
  rw [List.map_append, getLoop_append h data b p _ hp]
  exact getLoop_prefixed h (.at b) d (by simp [Cur.mapping?, hb]) hd ks hks a ha hfirst

/-- **C71** (a whole group): if no entry has the last key as its name, the entries named `"k/…"` are returned
together as a new dictionary, without the prefix; nothing else is in it. -/
theorem C71_group (h : Heap V) (data b a : ℕ) (p : List String) (k r : String) (d : Dict String ℕ)
    (hp : lookup h data p = some b) (hb : h[b]? = some (.dict d)) (hd : Dict.WF d)
    (hk : Dict.get? d k = none) (ha : Dict.get? d (k ++ "/" ++ r) = some a) (hasDefault optional : Bool) :
    ∃ g, getByKeys h data (p.map some ++ [some k]) hasDefault optional = .ok (.found (.fresh g)) ∧
      ∀ n, Dict.get? g n = Dict.get? d (k ++ "/" ++ n) := by
  refine ⟨prefixMatches k d, ?_, fun n => get?_prefixMatches k d hd n⟩
  have hpm : prefixMatches k d ≠ [] := by
    intro he
    have := get?_prefixMatches k d hd r
    rw [he, ha] at this
    cases this
  unfold getByKeys
  rw [if_neg (by simp), getLoop_append h data b p _ hp]
  have : getLoop h (.at b) [some k] = .ok (.fresh (prefixMatches k d), true) := by
    simp [getLoop, Cur.mapping?, hb, hk, hpm]
  rw [this]
  simp [Cur.mapping?, hpm]

/-- **C71** (missing): if following exact keys leads to a dictionary that has no entry named like the next key
and none whose name begins with it and "/", then whatever keys follow the default is returned if there is
one, else None if the key is optional, else ValueError is raised. -/
theorem C71_missing (h : Heap V) (data b : ℕ) (p : List String) (k : String) (rest : List (Option String))
    (d : Dict String ℕ) (hp : lookup h data p = some b) (hb : h[b]? = some (.dict d)) (hd : Dict.WF d)
    (hk : Dict.get? d k = none) (hr : ∀ r, Dict.get? d (k ++ "/" ++ r) = none)
    (hasDefault optional : Bool) :
    getByKeys h data (p.map some ++ some k :: rest) hasDefault optional =
      if hasDefault then .ok .default else if optional then .ok .none else .error .valueError := by
  unfold getByKeys
  rw [if_neg (by simp), getLoop_append h data b p _ hp]
  have : getLoop h (.at b) (some k :: rest) = .ok (.at b, false) := by
    simp [getLoop, Cur.mapping?, hb, hk, prefixMatches_empty k d hd hr]
  rw [this]
  simp

/-- **C71** (not a dictionary): going on below something that is not a dictionary raises ValueError even if a
default is given or the key is optional. -/
theorem C71_not_mapping (h : Heap V) (data b : ℕ) (p : List String) (k : String)
    (rest : List (Option String)) (v : V) (hp : lookup h data p = some b) (hb : h[b]? = some (.val v))
    (hasDefault optional : Bool) :
    getByKeys h data (p.map some ++ some k :: rest) hasDefault optional = .error .valueError := by
  unfold getByKeys
  rw [if_neg (by simp), getLoop_append h data b p _ hp]
  have : getLoop h (.at b) (some k :: rest) = .error .valueError := by
    simp [getLoop, Cur.mapping?, hb]
  rw [this]

/-- `{"m": {"head/prob": 1, "head/x/y": 2, "other": 3}}`. -/
def slashHeap : Heap ℕ :=
  [.dict [("m", 1)], .dict [("head/prob", 2), ("head/x/y", 3), ("other", 4)], .val 1, .val 2, .val 3]

example : getByKeys slashHeap 0 [some "m", some "head", some "x", some "y"] false false =
    .ok (.found (.at 3)) := by
  refine C71_prefixed slashHeap 0 1 3 ["m"] ["head", "x", "y"]
    [("head/prob", 2), ("head/x/y", 3), ("other", 4)] rfl rfl ?_ (by simp) ?_ ?_ (by simp [slashHeap]) _ _
  · unfold Dict.WF Dict.keys; decide
  · decide +kernel
  · intro q h1 h2 h3
    have : q.length ≤ 2 := by
      have := h2.length_le
      by_contra hc
      exact h3 (h2.eq_of_length (by simp at this ⊢; omega))
    have := List.prefix_iff_eq_take.mp h2
    rw [this]
    have hl : q.length = 1 ∨ q.length = 2 := by
      have := List.length_pos_iff.mpr h1; omega
    rcases hl with hl | hl <;> rw [hl] <;> decide +kernel

example : getByKeys slashHeap 0 [some "m", none, some "nope", some "x"] false true = .ok .none := by
  rw [C71_none_keys _ _ _ "m" (by simp)]
  refine C71_missing slashHeap 0 1 ["m"] "nope" [some "x"] _ rfl rfl ?_ (by decide +kernel) ?_ _ _
  · unfold Dict.WF Dict.keys; decide
  · intro r
    simp only [Dict.get?]
    have hne : ∀ s : String, s.toList.head? ≠ some 'n' → s ≠ "nope" ++ "/" ++ r := by
      rintro s hs rfl
      exact hs (by simp [String.toList_append])
    rw [if_neg (hne _ (by decide +kernel)), if_neg (hne _ (by decide +kernel)),
      if_neg (hne _ (by decide +kernel))]

end Keys
end TFMA
