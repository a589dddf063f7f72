import Verif.Model.Labels
import Verif.Props.Inputs

/-!
# C86: labels given as texts or as sparse tensors
-/

namespace TFMA
namespace Labels

open Inputs

variable {α β : Type}

/-! ### Specification -/

/-- The class of a text: its first position in the vocabulary, -1 if it does not occur. -/
def ClassOf (vocab : List String) (t : String) (c : ℤ) : Prop :=
  (∃ i : ℕ, c = i ∧ vocab[i]? = some t ∧ ∀ j < i, vocab[j]? ≠ some t) ∨ (c = -1 ∧ t ∉ vocab)

/-- An array of `n` values in one row, whatever dimensions of size one it has. -/
def OneRow (shape : List ℕ) (n : ℕ) : Prop := shape ≠ [] ∧ ∃ pre post, shape = pre ++ n :: post ∧ (∀ d ∈ pre, d = 1) ∧ ∀ d ∈ post, d = 1

/-- The values are found at their indices, and zero everywhere else. -/
structure Scattered (zero : α) (n : ℕ) (entries : List (ℕ × α)) (data : List α) : Prop where
  length : data.length = n
  listed : ∀ e ∈ entries, data[e.1]? = some e.2
  others : ∀ j < n, (∀ e ∈ entries, e.1 ≠ j) → data[j]? = some zero

/-! ### Texts -/

private theorem lookupFrom_spec (t : String) (v : List String) (i : ℤ) :
    (∃ j : ℕ, lookupFrom i t v = i + j ∧ v[j]? = some t ∧ ∀ k < j, v[k]? ≠ some t) ∨ (lookupFrom i t v = -1 ∧ t ∉ v) := by
  induction v generalizing i with
  | nil => right; simp [lookupFrom]
  | cons c cs ih =>
    unfold lookupFrom
    by_cases h : c = t
    · left
      exact ⟨0, by simp [h], by simp [h], by simp⟩
    · rw [if_neg h]
      rcases ih (i + 1) with ⟨j, h1, h2, h3⟩ | ⟨h1, h2⟩
      · left
        refine ⟨j + 1, by rw [h1]; push_cast; ring, by simpa using h2, ?_⟩
        intro k hk
        cases k with
        | zero => simpa using h
        | succ k => simpa using h3 k (by omega)
      · right
        exact ⟨h1, by simp [h2, Ne.symm h]⟩

private theorem lookup_class (v : List String) (t : String) : ClassOf v t (lookupFrom 0 t v) := by
  rcases lookupFrom_spec t v 0 with ⟨j, h1, h2, h3⟩ | h
  · exact .inl ⟨j, by simpa using h1, h2, h3⟩
  · exact .inr h

private theorem class_unique {v : List String} {t : String} {c d : ℤ} (hc : ClassOf v t c) (hd : ClassOf v t d) : c = d := by
  rcases hc with ⟨i, rfl, h1, h2⟩ | ⟨rfl, h1⟩ <;> rcases hd with ⟨j, rfl, g1, g2⟩ | ⟨rfl, g1⟩
  · have : i = j := by
      rcases Nat.lt_trichotomy i j with h | h | h
      · exact absurd h1 (g2 i h)
      · exact h
      · exact absurd g1 (h2 j h)
    rw [this]
  · exact absurd (List.mem_of_getElem? h1) g1
  · exact absurd (List.mem_of_getElem? g1) h1
  · rfl

private theorem classIds {v ts : List String} {cs : List ℤ} (h : List.Forall₂ (ClassOf v) ts cs) : toClassIds v ts = cs := by
  unfold toClassIds
  induction h with
  | nil => rfl
  | cons h _ ih => rw [List.map_cons, ih, class_unique (lookup_class v _) h]

/-- **C86**: text labels become the positions of the texts in the vocabulary, -1 for unknown ones, provided some text is known. -/
theorem C86_texts (vocab : List String) (shape : List ℕ) (ts : List String) (cs : List ℤ) (h : List.Forall₂ (ClassOf vocab) ts cs)
    (hk : ts = [] ∨ ∃ t ∈ ts, t ∈ vocab) (p : Option (Arr β)) :
    prepareLabels (some vocab) (.texts ⟨shape, ts⟩) p = .ok (.numbers ⟨shape, cs.map fun c : ℤ => (c : ℚ)⟩) := by
  simp only [prepareLabels, classIds h]
  have : ¬ (cs.map (fun c : ℤ => (c : ℚ)) ≠ [] ∧ (cs.map fun c : ℤ => (c : ℚ)).all (fun x => decide (x = -1)) = true) := by
    rintro ⟨h1, h2⟩
    rcases hk with rfl | ⟨t, ht, hv⟩
    · cases h; exact h1 rfl
    · obtain ⟨i, hi⟩ := List.mem_iff_getElem?.1 ht
      obtain ⟨c, hc, hcc⟩ : ∃ c ∈ cs, ClassOf vocab t c := by
        clear h1 h2 hi
        induction h with
        | nil => cases ht
        | cons hh _ ih =>
          rcases List.mem_cons.1 ht with rfl | ht
          · exact ⟨_, by simp, hh⟩
          · obtain ⟨c, hc, hcc⟩ := ih ht
            exact ⟨c, by simp [hc], hcc⟩
      rw [List.all_eq_true] at h2
      have h3 := h2 (c : ℚ) (List.mem_map_of_mem hc)
      rcases hcc with ⟨j, rfl, -, -⟩ | ⟨-, h4⟩
      · have h5 : ((j : ℤ) : ℚ) = -1 := by simpa using h3
        have : (j : ℤ) = -1 := by exact_mod_cast h5
        omega
      · exact h4 hv
  simp only [maybeOneHot]
  rw [if_neg this]
  rfl

/-- **C86**: if no text is known the labels are all zeros, one row of classes per label. -/
theorem C86_all_unknown (vocab : List String) (shape : List ℕ) (ts : List String) (hne : ts ≠ []) (hu : ∀ t ∈ ts, t ∉ vocab)
    (s : List ℕ) (n : ℕ) (data : List β) (hlen : ts.length = s.prod) :
    prepareLabels (some vocab) (.texts ⟨shape, ts⟩) (some ⟨s ++ [n], data⟩) =
      .ok (.numbers ⟨s ++ [n], List.replicate (s.prod * n) 0⟩) := by
  have hf : List.Forall₂ (ClassOf vocab) ts (ts.map fun _ => -1) := by
    clear hne hlen
    induction ts with
    | nil => exact .nil
    | cons t ts ih => exact .cons (.inr ⟨rfl, hu t (by simp)⟩) (ih fun u hu' => hu u (by simp [hu']))
  simp only [prepareLabels, classIds hf, maybeOneHot]
  rw [if_pos]
  · rw [C28_one_hot_partial shape (ts.map fun _ => -1) s n (by simpa using hlen) (by simp; intros; omega)]
    simp only [Except.map]
    congr 3
    rw [List.eq_replicate_iff]
    constructor
    · rw [← hlen, List.length_flatMap]
      simp [hot]
    · intro x hx
      simp only [List.mem_flatMap, List.mem_map, hot] at hx
      obtain ⟨c, ⟨_, _, rfl⟩, i, hi, rfl⟩ := hx
      rw [if_neg (by omega)]
  · constructor
    · simpa using hne
    · simp

/-- **C86**: numbers are left alone, whatever the vocabulary. -/
theorem C86_numbers (vocab : Option (List String)) (a : Arr ℚ) (p : Option (Arr β)) :
    prepareLabels vocab (.numbers a) p = .ok (.numbers a) := rfl

/-! ### Sparse labels -/

private theorem oneRow_squeeze {shape : List ℕ} {n : ℕ} (h : OneRow shape n) {α : Type} (data : List α) :
    squeeze ⟨shape, data⟩ = ⟨[n], data⟩ ∧ shape.prod = n := by
  obtain ⟨hne, pre, post, rfl, h1, h2⟩ := h
  have hp : ∀ l : List ℕ, (∀ d ∈ l, d = 1) → l.prod = 1 ∧ l.filter (· ≠ 1) = [] := by
    intro l hl
    refine ⟨List.prod_eq_one hl, ?_⟩
    rw [List.filter_eq_nil_iff]
    intro d hd
    simp [hl d hd]
  refine ⟨?_, by simp [(hp _ h1).1, (hp _ h2).1]⟩
  unfold squeeze
  simp only
  by_cases hn : n = 1
  · subst hn
    have hf : (pre ++ 1 :: post).filter (· ≠ 1) = [] := by
      rw [List.filter_eq_nil_iff]
      intro d hd
      rcases List.mem_append.1 hd with hd | hd
      · simp [h1 d hd]
      · rcases List.mem_cons.1 hd with rfl | hd
        · simp
        · simp [h2 d hd]
    split
    · rename_i h; rcases h with h | h
      · simp at h
      · rw [h]
    · simp only [hf, if_true]
  · have hf : (pre ++ n :: post).filter (· ≠ 1) = [n] := by
      have e2 := (hp _ h2).2
      have e1 := (hp _ h1).2
      rw [List.filter_append, e1, List.filter_cons, e2]
      simp [hn]
    rw [if_neg]
    · rw [hf]; simp
    · rintro (h | h)
      · simp at h
      · rw [h] at hf
        simp at hf

private theorem setRow_one (n : ℕ) (data : List α) (i : ℤ) (v : α) :
    setRow [n] data i v = if (if i < 0 then i + n else i) < 0 ∨ (n : ℤ) ≤ (if i < 0 then i + n else i) then .error .indexError
      else .ok (data.set (if i < 0 then i + n else i).toNat v) := by
  simp only [setRow]
  generalize (if i < 0 then i + (n : ℤ) else i) = j
  by_cases hj : j < 0 ∨ (n : ℤ) ≤ j
  · rw [if_pos hj, if_pos hj]
  · rw [if_neg hj, if_neg hj]
    congr 1
    apply List.ext_getElem?
    intro p
    rw [List.getElem?_mapIdx, List.getElem?_set]
    by_cases hp : j.toNat = p
    · subst hp
      by_cases hl : j.toNat < data.length
      · simp [hl]
      · simp [hl]
    · have : ¬ (p = j.toNat) := fun h => hp h.symm
      simp [hp, this]

private theorem setRow_nat (n : ℕ) (data : List α) (i : ℕ) (hi : i < n) (v : α) :
    setRow [n] data (i : ℤ) v = .ok (data.set i v) := by
  rw [setRow_one, if_neg (by omega : ¬ ((i : ℤ) < 0)), if_neg (by omega)]
  simp

private theorem fill_nat (n : ℕ) (es : List (ℕ × α)) (hn : (es.map Prod.fst).Nodup) (hr : ∀ e ∈ es, e.1 < n) (data : List α)
    (hl : data.length = n) :
    ∃ d, fill [n] data (es.map fun e => (e.2, [(e.1 : ℤ)])) = .ok d ∧ d.length = n ∧ (∀ e ∈ es, d[e.1]? = some e.2) ∧
      ∀ j, (∀ e ∈ es, e.1 ≠ j) → d[j]? = data[j]? := by
  induction es generalizing data with
  | nil => exact ⟨data, rfl, hl, by simp, fun _ _ => rfl⟩
  | cons e es ih =>
    simp only [List.map_cons, List.nodup_cons] at hn
    obtain ⟨d, h1, h2, h3, h4⟩ := ih hn.2 (fun e' he' => hr e' (by simp [he'])) (data.set e.1 e.2) (by simpa using hl)
    refine ⟨d, ?_, h2, ?_, ?_⟩
    · simp only [List.map_cons, fill, setRows]
      rw [setRow_nat n data e.1 (hr e (by simp)) e.2]
      exact h1
    · intro e' he'
      rcases List.mem_cons.1 he' with rfl | he'
      · rw [h4 e'.1 (fun x hx hxe => hn.1 (List.mem_map.2 ⟨x, hx, hxe⟩))]
        simp [hl, hr e' (by simp)]
      · exact h3 e' he'
    · intro j hj
      rw [h4 j fun e' he' => hj e' (by simp [he'])]
      rw [List.getElem?_set_ne (hj e (by simp))]

private theorem fill_error (n : ℕ) (es : List (α × List ℤ)) (data : List α)
    (h : ∃ e ∈ es, ∃ i : ℤ, e.2 = [i] ∧ (i < -(n : ℤ) ∨ (n : ℤ) ≤ i)) (hs : ∀ e ∈ es, ∃ i, e.2 = [i]) :
    fill [n] data es = .error .indexError := by
  induction es generalizing data with
  | nil => obtain ⟨e, he, -⟩ := h; cases he
  | cons e es ih =>
    obtain ⟨i, hi⟩ := hs e (by simp)
    obtain ⟨v, is⟩ := e
    simp only at hi
    subst hi
    simp only [fill, setRows, setRow_one]
    by_cases hbad : i < -(n : ℤ) ∨ (n : ℤ) ≤ i
    · rw [if_pos]
      split <;> omega
    · rw [if_neg]
      · apply ih
        · obtain ⟨e', he', i', h1, h2⟩ := h
          rcases List.mem_cons.1 he' with rfl | he'
          · simp only [List.cons.injEq, and_true] at h1
            subst h1
            exact absurd h2 hbad
          · exact ⟨e', he', i', h1, h2⟩
        · exact fun e' he' => hs e' (by simp [he'])
      · split <;> omega

private theorem zip_entries {β : Type} (vs : List ℚ) (is : List β) (f : β → List ℤ) :
    vs.zip (is.map f) = (vs.zip is).map fun e => (e.1, f e.2) := by
  induction vs generalizing is with
  | nil => rfl
  | cons v vs ih => cases is with
    | nil => rfl
    | cons i is => simp [ih]

private theorem items_row {ishape : List ℕ} {k : ℕ} (h : OneRow ishape k) (is : List ℤ) :
    indexItems ⟨ishape, is⟩ = .ok (is.map fun i => [i]) := by
  simp only [indexItems, (oneRow_squeeze h is).1]

/-- **C86**: a sparse label for predictions of `n` classes has its values at its indices and zeros elsewhere. -/
theorem C86_sparse (vocab : Option (List String)) (entries : List (ℕ × ℚ)) (hn : (entries.map Prod.fst).Nodup) (n : ℕ) (h0 : 0 < n)
    (hr : ∀ e ∈ entries, e.1 < n) (ishape pshape : List ℕ) (hi : OneRow ishape entries.length) (hp : OneRow pshape n) (ps : List β)
    (hl : ps.length = n) :
    ∃ d, prepareLabels vocab (.sparseNumbers (entries.map Prod.snd) ⟨ishape, entries.map fun e => (e.1 : ℤ)⟩) (some ⟨pshape, ps⟩) =
      .ok (.numbers ⟨pshape, d⟩) ∧ Scattered 0 n entries d := by
  obtain ⟨d, h1, h2, h3, h4⟩ := fill_nat n entries hn hr (List.replicate n 0) (by simp)
  refine ⟨d, ?_, h2, h3, ?_⟩
  · simp only [prepareLabels]
    rw [if_neg (show ¬ (Arr.size (⟨_, ps⟩ : Arr β) = 0) by simp only [Arr.size]; omega)]
    simp only [toDense, (oneRow_squeeze hp _).1, (oneRow_squeeze hp ([] : List ℚ)).2, items_row hi, bind, Except.bind, pure, Except.pure]
    have : (entries.map Prod.snd).zip ((entries.map fun e => (e.1 : ℤ)).map fun i => [i]) =
        entries.map fun e => (e.2, [(e.1 : ℤ)]) := by
      rw [List.map_map, List.zip_map']
      rfl
    rw [this, h1]
    rfl
  · intro j hj hne
    rw [h4 j hne]
    simp [hj]

/-- **C86**: without a vocabulary a sparse label of texts has its texts at its indices and empty texts elsewhere. -/
theorem C86_sparse_texts_kept (entries : List (ℕ × String)) (hn : (entries.map Prod.fst).Nodup) (n : ℕ) (h0 : 0 < n)
    (hr : ∀ e ∈ entries, e.1 < n) (ishape pshape : List ℕ) (hi : OneRow ishape entries.length) (hp : OneRow pshape n) (ps : List β)
    (hl : ps.length = n) :
    ∃ d, prepareLabels none (.sparseTexts (entries.map Prod.snd) ⟨ishape, entries.map fun e => (e.1 : ℤ)⟩) (some ⟨pshape, ps⟩) =
      .ok (.texts ⟨pshape, d⟩) ∧ Scattered "" n entries d := by
  obtain ⟨d, h1, h2, h3, h4⟩ := fill_nat n entries hn hr (List.replicate n "") (by simp)
  refine ⟨d, ?_, h2, h3, ?_⟩
  · simp only [prepareLabels]
    rw [if_neg (show ¬ (Arr.size (⟨_, ps⟩ : Arr β) = 0) by simp only [Arr.size]; omega)]
    simp only [toDense, (oneRow_squeeze hp _).1, (oneRow_squeeze hp ([] : List String)).2, items_row hi, bind, Except.bind, pure,
      Except.pure]
    have : (entries.map Prod.snd).zip ((entries.map fun e => (e.1 : ℤ)).map fun i => [i]) =
        entries.map fun e => (e.2, [(e.1 : ℤ)]) := by
      rw [List.map_map, List.zip_map']
      rfl
    rw [this, h1]
    rfl
  · intro j hj hne
    rw [h4 j hne]
    simp [hj]

/-- **C86**: an index outside of the classes raises IndexError; an index between -n and -1 does not, it counts from the end. -/
theorem C86_sparse_range (vocab : Option (List String)) (vs : List ℚ) (is : List ℤ) (hlen : vs.length = is.length) (n : ℕ) (h0 : 0 < n)
    (i : ℤ) (him : i ∈ is) (hbad : i < -(n : ℤ) ∨ (n : ℤ) ≤ i) (ishape pshape : List ℕ) (hi : OneRow ishape is.length)
    (hp : OneRow pshape n) (ps : List β) (hl : ps.length = n) :
    prepareLabels vocab (.sparseNumbers vs ⟨ishape, is⟩) (some ⟨pshape, ps⟩) = .error .indexError := by
  simp only [prepareLabels]
  rw [if_neg (show ¬ (Arr.size (⟨_, ps⟩ : Arr β) = 0) by simp only [Arr.size]; omega)]
  simp only [toDense, (oneRow_squeeze hp _).1, items_row hi, bind, Except.bind, pure, Except.pure]
  rw [fill_error]
  · rfl
  · obtain ⟨j, hj⟩ := List.mem_iff_getElem.1 him
    obtain ⟨hj, hje⟩ := hj
    refine ⟨(vs[j], [i]), ?_, i, rfl, hbad⟩
    rw [List.mem_iff_getElem]
    refine ⟨j, by simp [hlen, hj], ?_⟩
    simp [hje]
  · rintro ⟨v, l⟩ he
    have := (List.of_mem_zip he).2
    obtain ⟨i', -, rfl⟩ := List.mem_map.1 this
    exact ⟨i', rfl⟩

private theorem not_all_minus (d : List ℚ) (x : ℚ) (hx : x ∈ d) (h : x ≠ -1) :
    ¬ (d ≠ [] ∧ d.all (fun x => decide (x = -1)) = true) := by
  rintro ⟨-, h2⟩
  rw [List.all_eq_true] at h2
  exact h (by simpa using h2 x hx)

/-- **C86**: a sparse label of known texts marks exactly their classes with one.  Missing: unknown texts, see
`C86_unknown_marks_last`. -/
theorem C86_sparse_texts_partial (vocab : List String) (ts : List String) (cs : List ℕ)
    (h : List.Forall₂ (fun t (c : ℕ) => ClassOf vocab t (c : ℤ)) ts cs) (hn : cs.Nodup) (n : ℕ) (h0 : 0 < n) (hr : ∀ c ∈ cs, c < n)
    (indices : Arr ℤ) (pshape : List ℕ) (hp : OneRow pshape n) (ps : List β) (hl : ps.length = n) :
    ∃ d, prepareLabels (some vocab) (.sparseTexts ts indices) (some ⟨pshape, ps⟩) = .ok (.numbers ⟨pshape, d⟩) ∧
      Scattered 0 n (cs.map fun c => (c, 1)) d := by
  have hids : toClassIds vocab ts = cs.map fun c : ℕ => (c : ℤ) := by
    apply classIds
    clear hn hr
    induction h with
    | nil => exact .nil
    | cons hh _ ih => exact .cons hh ih
  have hlen : ts.length = cs.length := h.length_eq
  obtain ⟨d, h1, h2, h3, h4⟩ := fill_nat n (cs.map fun c => (c, (1 : ℚ))) (by simpa [List.map_map, Function.comp_def] using hn)
    (by simpa using hr) (List.replicate n 0) (by simp)
  refine ⟨d, ?_, h2, h3, ?_⟩
  · simp only [prepareLabels]
    rw [if_neg (show ¬ (Arr.size (⟨_, ps⟩ : Arr β) = 0) by simp only [Arr.size]; omega)]
    have hrow : OneRow [ts.length] (cs.map fun c : ℕ => (c : ℤ)).length := by
      refine ⟨by simp, [], [], by simp [hlen], by simp, by simp⟩
    have hz : (List.replicate ts.length (1 : ℚ)).zip ((cs.map fun c : ℕ => (c : ℤ)).map fun i => [i]) =
        (cs.map fun c => (c, (1 : ℚ))).map fun e => (e.2, [(e.1 : ℤ)]) := by
      rw [hlen]
      clear * -
      induction cs with
      | nil => rfl
      | cons c cs ih => simpa [List.replicate_succ] using ih
    simp only [toDense, (oneRow_squeeze hp _).1, (oneRow_squeeze hp ([] : List ℚ)).2, hids, items_row hrow, bind, Except.bind, pure,
      Except.pure, hz, h1]
    have hne : ∃ x ∈ d, x ≠ -1 := by
      have hd0 : d ≠ [] := by intro hd; rw [hd] at h2; simp at h2; omega
      obtain ⟨x, xs, rfl⟩ := List.exists_cons_of_ne_nil hd0
      refine ⟨x, by simp, ?_⟩
      by_cases hc : 0 ∈ cs
      · have := h3 (0, 1) (by simpa using hc)
        simp only [List.getElem?_cons_zero, Option.some.injEq] at this
        rw [this]; norm_num
      · have := h4 0 (by
          rintro ⟨c, x⟩ hx e
          obtain ⟨c', hc', he⟩ := List.mem_map.1 hx
          cases he
          exact hc (e ▸ hc'))
        simp only [List.getElem?_cons_zero] at this
        rw [List.getElem?_replicate, if_pos h0] at this
        cases this
        norm_num
    obtain ⟨x, hx, hx1⟩ := hne
    simp only [maybeOneHot]
    rw [if_neg (not_all_minus d x hx hx1)]
    rfl
  · intro j hj hne
    rw [h4 j hne]
    simp [hj]

/-- **C86** (negation): a sparse label with a text that is not in the vocabulary marks the last class. -/
theorem C86_unknown_marks_last (vocab : List String) (t : String) (ht : t ∉ vocab) (n : ℕ) (indices : Arr ℤ) (ps : List β)
    (hl : ps.length = n + 1) :
    prepareLabels (some vocab) (.sparseTexts [t] indices) (some ⟨[n + 1], ps⟩) = .ok (.numbers ⟨[n + 1], List.replicate n 0 ++ [1]⟩) := by
  have hids : toClassIds vocab [t] = [-1] := classIds (.cons (.inr ⟨rfl, ht⟩) .nil)
  have hp : OneRow [n + 1] (n + 1) := ⟨by simp, [], [], rfl, by simp, by simp⟩
  have hrow : OneRow [1] ([-1] : List ℤ).length := ⟨by simp, [], [], rfl, by simp, by simp⟩
  simp only [prepareLabels]
  rw [if_neg (show ¬ (Arr.size (⟨_, ps⟩ : Arr β) = 0) by simp only [Arr.size]; omega)]
  simp only [toDense, (oneRow_squeeze hp _).1, (oneRow_squeeze hp ([] : List ℚ)).2, hids, List.length_singleton, items_row hrow, bind,
    Except.bind, pure, Except.pure, List.replicate_one, List.map_cons, List.map_nil, List.zip_cons_cons, List.zip_nil_left, fill, setRows,
    setRow_one]
  rw [if_neg (by push_cast; omega)]
  simp only
  have : (List.replicate (n + 1) (0 : ℚ)).set (if (-1 : ℤ) < 0 then -1 + ((n + 1 : ℕ) : ℤ) else -1).toNat 1 = List.replicate n 0 ++ [1] := by
    have e : (if (-1 : ℤ) < 0 then -1 + ((n + 1 : ℕ) : ℤ) else -1).toNat = n := by rw [if_pos (by norm_num)]; omega
    rw [e, List.replicate_succ']
    simp
  rw [this]
  simp only [maybeOneHot]
  rw [if_neg (not_all_minus _ 1 (by simp) (by norm_num))]
  rfl

/-- **C86** (negation): for predictions with rows of classes a sparse label with an index pair sets all of the row. -/
theorem C86_matrix_row (vocab : Option (List String)) (m n : ℕ) (hm : 2 ≤ m) (hn : 2 ≤ n) (i j : ℕ) (hi : i < m) (v : ℚ)
    (ps : List β) (hl : ps.length = m * n) :
    prepareLabels vocab (.sparseNumbers [v] ⟨[1, 2], [(i : ℤ), j]⟩) (some ⟨[m, n], ps⟩) =
      .ok (.numbers ⟨[m, n], (List.range (m * n)).map fun p => if p / n = i then v else 0⟩) := by
  have hpos : 0 < m * n := Nat.mul_pos (by omega) (by omega)
  simp only [prepareLabels]
  rw [if_neg (show ¬ (Arr.size (⟨_, ps⟩ : Arr β) = 0) by simp only [Arr.size]; omega)]
  have hs : squeeze (⟨[m, n], List.replicate ([m, n] : List ℕ).prod 0⟩ : Arr ℚ) = ⟨[m, n], List.replicate (m * n) 0⟩ := by
    unfold squeeze
    have h1 : m ≠ 1 := by omega
    have h2 : n ≠ 1 := by omega
    simp [h1, h2]
  have hitems : indexItems ⟨[1, 2], [(i : ℤ), j]⟩ = .ok [[(i : ℤ)], [(j : ℤ)]] := by
    simp [indexItems, squeeze]
  simp only [toDense, hs, hitems, bind, Except.bind, pure, Except.pure, List.zip_cons_cons, List.zip_nil_left, fill, setRows, setRow]
  rw [if_neg (by rw [if_neg (by omega)]; omega)]
  simp only [Except.map]
  congr 3
  apply List.ext_getElem?
  intro p
  rw [List.getElem?_mapIdx, List.getElem?_map]
  have e : (if (i : ℤ) < 0 then (i : ℤ) + m else i).toNat = i := by rw [if_neg (by omega)]; simp
  rw [e]
  by_cases hp : p < m * n
  · simp [hp]
  · simp [hp]

/-! ### Predictions -/

/-- **C86**: with a prediction key its entry is used, otherwise the first of the common keys present; there is no other way
to get an array of predictions. -/
theorem C86_prediction (key : String) (d : Dict String Pred) (a : Arr Fl ⊕ Arr String) :
    choosePrediction key d = .ok a ↔
      ((key ≠ "" ∧ Dict.get? d key = some (a.elim .floats .texts)) ∨
        (key = "" ∧ ∃ pre k post, ["scores", "outputs", "predictions", "logistic", "probabilities", "logits"] = pre ++ k :: post ∧
          (∀ j ∈ pre, Dict.get? d j = none) ∧ Dict.get? d k = some (a.elim .floats .texts))) := by
  have hlast : ∀ o : Option Pred, asArray o = .ok a ↔ o = some (a.elim .floats .texts) := by
    intro o
    rcases o with _ | ⟨b⟩ | ⟨b⟩ | _ <;> cases a <;> simp [asArray, eq_comm]
  unfold choosePrediction
  simp only [hlast]
  by_cases hk : key = ""
  · rw [if_pos hk, List.findSome?_eq_some_iff]
    simp only [hk, ne_eq, not_true, false_and, true_and, false_or, commonKeys]
    constructor
    · rintro ⟨pre, k, post, h1, h2, h3⟩
      exact ⟨pre, k, post, h1, h3, h2⟩
    · rintro ⟨pre, k, post, h1, h2, h3⟩
      exact ⟨pre, k, post, h1, h3, h2⟩
  · rw [if_neg hk]
    simp [hk]

private theorem prod_pos' (l : List ℕ) (h : ∀ k ∈ l, 0 < k) : 0 < l.prod := by
  induction l with
  | nil => simp
  | cons k l ih =>
    rw [List.prod_cons]
    exact Nat.mul_pos (h k (by simp)) (ih fun j hj => h j (by simp [hj]))

/-- The vocabulary in the predictions: that under the key "all_classes", else that under "classes" if there are scores. -/
def HasVocabulary (d : Dict String Pred) (a : Arr String) : Prop :=
  Dict.get? d "all_classes" = some (.texts a) ∨
    (Dict.get? d "all_classes" = none ∧ (∃ p, Dict.get? d "scores" = some p) ∧ Dict.get? d "classes" = some (.texts a))

/-- **C86**: of a vocabulary with batch dimensions the first row is used. -/
theorem C86_vocabulary (d : Dict String Pred) (a : Arr String) (h : HasVocabulary d a) (n : ℕ) (pre : List ℕ)
    (hs : a.shape = pre ++ [n]) (hpos : ∀ k ∈ pre, 0 < k) (hw : a.WF) : vocabulary d = .ok (some (a.data.take n)) := by
  have hun : ∀ (pre : List ℕ) (data : List String), (∀ k ∈ pre, 0 < k) → data.length = (pre ++ [n]).prod →
      unbatch (pre ++ [n]) data = .ok (data.take n) := by
    intro pre
    induction pre with
    | nil => intro data _ hl; simp at hl; simp [unbatch, hl]
    | cons k pre ih =>
      intro data hk hl
      obtain ⟨m, rest, hm⟩ := List.exists_cons_of_ne_nil (l := pre ++ [n]) (by simp)
      rw [List.cons_append, hm]
      have hk0 : k ≠ 0 := by have := hk k (by simp); omega
      simp only [unbatch]
      rw [if_neg hk0, ← hm]
      have hle : (pre ++ [n]).prod ≤ data.length := by
        rw [hl, List.cons_append, List.prod_cons]
        exact Nat.le_mul_of_pos_left _ (by omega)
      rw [ih _ (fun j hj => hk j (by simp [hj])) (by rw [List.length_take]; omega)]
      congr 1
      rw [List.take_take, Nat.min_eq_left]
      rw [List.prod_append, List.prod_singleton]
      exact Nat.le_mul_of_pos_left _ (prod_pos' pre fun j hj => hk j (by simp [hj]))
  have hu := hun pre a.data hpos (by rw [← hs]; exact hw)
  unfold vocabulary
  rcases h with h | ⟨h1, ⟨p, h2⟩, h3⟩
  · simp only [Dict.has, h, Option.isSome_some, if_true, hs, hu, Except.map]
  · simp only [Dict.has, h1, h2, h3, Option.isSome_none, Option.isSome_some, Bool.false_eq_true, if_false, Bool.and_self, if_true, hs,
      hu, Except.map]

/-! ### Examples -/

/-- Two labels, one of them unknown. -/
example : prepare (.texts ⟨[2], ["cat", "bird"]⟩) [("all_classes", .texts ⟨[1, 3], ["dog", "cat", "cow"]⟩),
      ("probabilities", .floats ⟨[2, 3], List.replicate 6 (.fin 0)⟩)] "" =
    .ok (.numbers ⟨[2], [1, -1]⟩, .inl ⟨[2, 3], List.replicate 6 (.fin 0)⟩) := by
  decide +kernel

/-- A sparse label with the values 2 at index 0 and 3 at index 2, with batch dimension. -/
example : prepareLabels none (.sparseNumbers [2, 3] ⟨[2, 1], [0, 2]⟩) (some ⟨[1, 3], [Fl.fin 0, .fin 1, .fin 0]⟩) =
    .ok (.numbers ⟨[1, 3], [2, 0, 3]⟩) := by
  decide +kernel

/-- A sparse label of texts without a vocabulary, for predictions that are texts. -/
example : prepare (.sparseTexts ["b", "a"] ⟨[2], [2, 0]⟩) [("x", .texts ⟨[3], ["p", "q", "r"]⟩)] "x" =
    .ok (.texts ⟨[3], ["a", "", "b"]⟩, .inr ⟨[3], ["p", "q", "r"]⟩) := by
  decide +kernel

/-- The unknown text "bird" is taken for "cow". -/
example : prepareLabels (some ["dog", "cat", "cow"]) (.sparseTexts ["bird"] ⟨[1, 1], [0]⟩) (some ⟨[3], [Fl.fin 0, .fin 1, .fin 0]⟩) =
    .ok (.numbers ⟨[3], [0, 0, 1]⟩) := by
  decide +kernel

end Labels
end TFMA
