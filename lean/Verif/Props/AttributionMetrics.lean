import Verif.Model.AttributionMetrics
import Verif.Props.Attributions
import Verif.Props.InputsTopK
import Verif.Props.ExampleCount

/-!
# C127: total and mean attributions
-/

namespace TFMA
namespace AttributionMetrics

open Inputs Attributions MetricKeys Combiners Beam

/-! ### specification -/

/-- The values of `l` from the largest to the smallest. -/
def Ranked (l d : List ℚ) : Prop := d.Perm l ∧ d.Pairwise (· ≥ ·)

/-- The part `s` of the scores `v` that the sub key stands for: those of a class, the k-th largest, the k largest in
descending order, or all. -/
inductive Selected : Option SubKey → Score → Score → Prop
  | all (v) : Selected none v v
  | classId {c : ℤ} {k t l q} : 0 ≤ c → l[c.toNat]? = some q → Selected (some ⟨some c, k, t⟩) (.vector l) (.scalar q)
  | kth {k : ℤ} {t l d q} : Ranked l d → d[(k - 1).toNat]? = some q → k ≤ l.length →
      Selected (some ⟨none, some k, t⟩) (.vector l) (.scalar q)
  | top {k : ℤ} {l d} : Ranked l d → k ≤ l.length → Selected (some ⟨none, none, some k⟩) (.vector l) (.vector (d.take k.toNat))
  | unset (v) : Selected (some ⟨none, none, none⟩) v v

/-- The sub key has no k below 1. (sub keys are made so, C83) -/
def Valid : Option SubKey → Prop
  | none => True
  | some sk => (∀ k, sk.k = some k → 1 ≤ k) ∧ ∀ k, sk.topK = some k → 1 ≤ k

/-- All features of a dictionary with the selected scores. -/
inductive Selects (sk : Option SubKey) : Forest Score → List (String × Score) → Prop
  | nil : Selects sk .nil []
  | cons {k v s f l} : Selected sk v s → Selects sk f l → Selects sk (.cons k (.leaf v) f) ((k, s) :: l)

/-- The entry of a name, or everything if there is no name. -/
def Below (t : Tree Score) (name : String) (t' : Tree Score) : Prop :=
  (name = "" ∧ t' = t) ∨ (name ≠ "" ∧ ∃ f, t = .node f ∧ f.find? name = some t' ∧ t' ≠ .node .nil)

/-- The example has the weight `w` and, for the model and the output, features with the selected scores `l`. -/
structure Example (model output : String) (sk : Option SubKey) (r : Raw) (w : ℚ) (l : List (String × Score)) : Prop where
  weight : r.weight = .ok w
  place : ∃ t t1 f, r.attributions = some t ∧ Below t model t1 ∧ Below t1 output (.node f) ∧ Selects sk f l

/-- The scores of feature `k` at position `i` that are summed up, each with its weight. -/
def terms (absolute : Bool) (ex : List (ℚ × List (String × Score))) (k : String) (i : ℕ) : List ℚ :=
  ex.flatMap fun e => (e.2.filter fun p => p.1 = k).map fun p =>
    if absolute then |p.2.values.getD i 0 * e.1| else p.2.values.getD i 0 * e.1

/-- Some example has the feature. -/
def Mentioned (ex : List (ℚ × List (String × Score))) (k : String) : Prop := ∃ e ∈ ex, ∃ p ∈ e.2, p.1 = k

/-- All scores of the feature have size `n`. -/
def Sized (ex : List (ℚ × List (String × Score))) (k : String) (n : ℕ) : Prop :=
  ∀ e ∈ ex, ∀ p ∈ e.2, p.1 = k → p.2.values.length = n

/-! ### the scores selected -/

private theorem ranked_unique {l d d' : List ℚ} (h : Ranked l d) (h' : Ranked l d') : d = d' :=
  (h.1.trans h'.1.symm).eq_of_pairwise (fun a b _ _ h1 h2 => le_antisymm h2 h1) h.2 h'.2

private theorem ranked_exists (l : List ℚ) : ∃ d, Ranked l d := by
  refine ⟨l.mergeSort fun a b => decide (b ≤ a), List.mergeSort_perm _ _, ?_⟩
  refine (List.pairwise_mergeSort ?_ ?_ _).imp (fun {x y} hxy => of_decide_eq_true hxy)
  · intro a b c h1 h2
    simp only [decide_eq_true_eq] at *
    exact le_trans h2 h1
  · intro a b
    simp only [Bool.or_eq_true, decide_eq_true_eq]
    exact le_total b a

private theorem pick_range (l : List ℚ) : pick l (List.range l.length) = l := by
  unfold pick
  induction l using List.reverseRecOn with
  | nil => rfl
  | append_singleton l a ih =>
    rw [List.length_append, List.length_singleton, List.range_succ, List.filterMap_append]
    congr 1
    · refine Eq.trans (List.filterMap_congr fun i hi => ?_) ih
      exact List.getElem?_append_left (List.mem_range.1 hi)
    · simp

private theorem topK_ranked {part : ℕ → List Fl → List ℕ} (hp : Partition part) {l d : List ℚ} (hd : Ranked l d) {k : ℕ}
    (hk : 1 ≤ k) (hkl : k ≤ l.length) :
    (pick l ((part k (l.map Fl.fin)).drop (l.length - k))).mergeSort (fun a b => decide (b ≤ a)) = d.take k := by
  have hlen : (l.map Fl.fin).length = l.length := List.length_map _
  have htop := part_top hp k (l.map Fl.fin) hk (by rw [hlen]; exact hkl)
  rw [hlen] at htop
  have hperm := hp.perm k (l.map Fl.fin)
  rw [hlen] at hperm
  generalize hP : part k (l.map Fl.fin) = P at htop hperm
  obtain ⟨dt, hdt⟩ := ranked_exists (pick l (P.drop (l.length - k)))
  obtain ⟨dr, hdr⟩ := ranked_exists (pick l (P.take (l.length - k)))
  have e1 : (pick l (P.drop (l.length - k))).mergeSort (fun a b => decide (b ≤ a)) = dt := by
    refine ranked_unique ⟨List.mergeSort_perm _ _, ?_⟩ hdt
    refine (List.pairwise_mergeSort ?_ ?_ _).imp (fun {x y} hxy => of_decide_eq_true hxy)
    · intro a b c h1 h2
      simp only [decide_eq_true_eq] at *
      exact le_trans h2 h1
    · intro a b
      simp only [Bool.or_eq_true, decide_eq_true_eq]
      exact le_total b a
  have hlt : ∀ i ∈ P, i < l.length := fun i hi => List.mem_range.1 (hperm.mem_iff.1 hi)
  have hlenpick : ∀ is : List ℕ, (∀ i ∈ is, i < l.length) → (pick l is).length = is.length := by
    intro is his
    unfold pick
    induction is with
    | nil => rfl
    | cons i is ih =>
      have h1 := List.getElem?_eq_getElem (his i (by simp))
      rw [List.filterMap_cons_some h1, List.length_cons, List.length_cons, ih fun j hj => his j (by simp [hj])]
  have hall : (dt ++ dr).Perm l := by
    have h1 : (dt ++ dr).Perm (pick l (P.drop (l.length - k)) ++ pick l (P.take (l.length - k))) := hdt.1.append hdr.1
    refine h1.trans ?_
    have h2 : pick l (P.drop (l.length - k)) ++ pick l (P.take (l.length - k)) =
        pick l (P.drop (l.length - k) ++ P.take (l.length - k)) := by simp [pick]
    rw [h2]
    have h3 : (P.drop (l.length - k) ++ P.take (l.length - k)).Perm (List.range l.length) :=
      (List.perm_append_comm.trans (.of_eq (List.take_append_drop _ _))).trans hperm
    exact (h3.filterMap _).trans (.of_eq (pick_range l))
  have hsorted : (dt ++ dr).Pairwise (· ≥ ·) := by
    refine List.pairwise_append.2 ⟨hdt.2, hdr.2, ?_⟩
    intro x hx y hy
    have hx' := hdt.1.mem_iff.1 hx
    have hy' := hdr.1.mem_iff.1 hy
    obtain ⟨j, hj, hjx⟩ := List.mem_filterMap.1 hx'
    obtain ⟨i, hi, hiy⟩ := List.mem_filterMap.1 hy'
    have hnd : P.Nodup := hperm.nodup_iff.2 List.nodup_range
    have hni : i ∉ P.drop (l.length - k) := by
      intro h
      have := List.disjoint_take_drop hnd (le_refl (l.length - k))
      exact this hi h
    have := htop.2.2.2 i j (.fin y) (.fin x) hni hj (by rw [List.getElem?_map, hiy]; rfl) (by rw [List.getElem?_map, hjx]; rfl)
    simpa [sortLe, Fl.le] using this
  have hdd : dt ++ dr = d := ranked_unique ⟨hall, hsorted⟩ hd
  have hdtl : dt.length = k := by
    rw [hdt.1.length_eq, hlenpick _ fun i hi => hlt i (List.mem_of_mem_drop hi), List.length_drop, hperm.length_eq,
      List.length_range]
    omega
  rw [e1, ← hdd, List.take_left' hdtl]

/-- **C127 (sub keys).**  The scores used are those of the sub key: those of its class, the k-th largest, or the k largest
in descending order; otherwise the example is refused. -/
theorem C127_select {part : ℕ → List Fl → List ℕ} (hp : Partition part) (sk : Option SubKey) (hv : Valid sk) (v s : Score) :
    select part sk v = .ok s ↔ Selected sk v s := by
  cases sk with
  | none =>
    constructor
    · intro h; cases h; exact .all v
    · intro h; cases h; rfl
  | some sk =>
    obtain ⟨c, k, t⟩ := sk
    cases c with
    | some c =>
      cases v with
      | scalar q => exact ⟨fun h => (by cases h), fun h => (by cases h)⟩
      | vector l =>
        show byClassId c (.vector l) = .ok s ↔ _
        unfold byClassId
        constructor
        · intro h
          simp only at h
          split at h
          · cases h
          · rename_i hc
            have h := Except.ok.inj h
            subst h
            push Not at hc
            refine .classId hc.1 ?_
            have : c.toNat < l.length := by omega
            simp [List.getD_eq_getElem?_getD, this]
        · intro h
          cases h with
          | classId h1 h2 =>
            have h3 := (List.getElem?_eq_some_iff.1 h2).1
            simp only
            rw [if_neg (by omega)]
            simp [List.getD_eq_getElem?_getD, h2]
    | none =>
      cases k with
      | some k =>
        have hk : 1 ≤ k := hv.1 k rfl
        cases v with
        | scalar q => exact ⟨fun h => (by cases h), fun h => (by cases h)⟩
        | vector l =>
          simp only [select, byTopK]
          by_cases hl : (l.length : ℤ) < k
          · rw [if_pos hl]
            refine ⟨fun h => (by cases h), fun h => ?_⟩
            cases h with
            | kth _ _ h3 => omega
          · rw [if_neg hl]
            simp only
            obtain ⟨d, hd⟩ := ranked_exists l
            rw [topK_ranked hp hd (by omega) (by omega)]
            have hidx : (d.take k.toNat)[(k - 1).toNat]? = d[(k - 1).toNat]? := by
              rw [List.getElem?_take, if_pos (by omega)]
            rw [hidx]
            have hlt : (k - 1).toNat < d.length := by rw [hd.1.length_eq]; omega
            rw [List.getElem?_eq_getElem hlt]
            simp only
            constructor
            · intro h
              have h := Except.ok.inj h
              subst h
              exact .kth hd (List.getElem?_eq_getElem hlt) (by omega)
            · intro h
              cases h with
              | kth h1 h2 h3 =>
                rw [ranked_unique h1 hd, List.getElem?_eq_getElem hlt] at h2
                rw [Option.some.inj h2]
      | none =>
        cases t with
        | some k =>
          have hk : 1 ≤ k := hv.2 k rfl
          cases v with
          | scalar q => exact ⟨fun h => (by cases h), fun h => (by cases h)⟩
          | vector l =>
            simp only [select, byTopK]
            by_cases hl : (l.length : ℤ) < k
            · rw [if_pos hl]
              refine ⟨fun h => (by cases h), fun h => ?_⟩
              cases h with
              | top _ h3 => omega
            · rw [if_neg hl]
              simp only
              obtain ⟨d, hd⟩ := ranked_exists l
              rw [topK_ranked hp hd (by omega) (by omega)]
              constructor
              · intro h
                have h := Except.ok.inj h
                subst h
                exact .top hd (by omega)
              · intro h
                cases h with
                | top h1 h3 => rw [ranked_unique h1 hd]
        | none =>
          constructor
          · intro h; cases h; exact .unset v
          · intro h; cases h; rfl

/-! ### totals -/

private theorem features_selects {part : ℕ → List Fl → List ℕ} (hp : Partition part) {sk : Option SubKey} (hv : Valid sk)
    {f : Forest Score} {l : List (String × Score)} (h : Selects sk f l) :
    features part sk f = .ok (l.map fun p => (p.1, p.2.values)) := by
  induction h with
  | nil => rfl
  | cons h1 _ ih =>
    rw [features, (C127_select hp sk hv _ _).2 h1]
    simp only
    rw [ih]
    rfl

private theorem level_below {t t' : Tree Score} {name : String} (h : Below t name t') : level t name = .ok t' := by
  unfold level
  rcases h with ⟨h1, h2⟩ | ⟨h1, f, h2, h3, h4⟩
  · rw [if_neg (by simp [h1]), h2]
  · rw [if_pos h1, h2]
    unfold requireKey
    simp only [getByKey, h3]
    rw [if_neg]
    cases t' with
    | leaf v => simp [isEmptyNode]
    | node g =>
      cases g with
      | nil => exact absurd rfl h4
      | cons k x g => simp [isEmptyNode]

private theorem element_example {part : ℕ → List Fl → List ℕ} (hp : Partition part) {model output : String} {sk : Option SubKey}
    (hv : Valid sk) {r : Raw} {w : ℚ} {l : List (String × Score)} (h : Example model output sk r w l) :
    element part model output sk r = .ok ⟨l.map fun p => (p.1, p.2.values), w⟩ := by
  obtain ⟨t, t1, f, h1, h2, h3, h4⟩ := h.place
  unfold element
  rw [h1]
  simp only
  rw [level_below h2]
  simp only
  rw [level_below h3]
  simp only
  rw [h.weight]
  simp only
  rw [features_selects hp hv h4]
  rfl

private def elems (ex : List (ℚ × List (String × Score))) : List Elem :=
  ex.map fun e => ⟨e.2.map fun p => (p.1, p.2.values), e.1⟩

private theorem elements_examples {part : ℕ → List Fl → List ℕ} (hp : Partition part) {model output : String}
    {sk : Option SubKey} (hv : Valid sk) {data : List Raw} {ex : List (ℚ × List (String × Score))}
    (h : List.Forall₂ (fun r e => Example model output sk r e.1 e.2) data ex) :
    data.map (element part model output sk) = (elems ex).map Except.ok := by
  induction h with
  | nil => rfl
  | cons h1 _ ih =>
    rw [List.map_cons, element_example hp hv h1, ih]
    rfl

private theorem contributions_elems (absolute : Bool) (ex : List (ℚ × List (String × Score))) (k : String) :
    contributions absolute (elems ex) k = ex.flatMap fun e => (e.2.filter fun p => p.1 = k).map fun p =>
      p.2.values.map fun v => if absolute then |v * e.1| else v * e.1 := by
  unfold contributions elems
  rw [List.flatMap_map]
  refine List.flatMap_congr fun e _ => ?_
  induction e.2 with
  | nil => rfl
  | cons p l ih =>
    rw [List.map_cons, List.filterMap_cons, List.filter_cons]
    by_cases hk : p.1 = k
    · simp only [hk, if_true, decide_true, List.map_cons]
      rw [ih]
    · simp only [hk, if_false, decide_false, Bool.false_eq_true]
      exact ih

private theorem terms_eq (absolute : Bool) (ex : List (ℚ × List (String × Score))) (k : String) (i : ℕ) :
    (contributions absolute (elems ex) k).map (fun v => v.getD i 0) = terms absolute ex k i := by
  rw [contributions_elems, List.map_flatMap]
  unfold terms
  refine List.flatMap_congr fun e _ => ?_
  rw [List.map_map]
  refine List.map_congr_left fun p _ => ?_
  simp only [Function.comp_apply, List.getD_eq_getElem?_getD, List.getElem?_map]
  cases p.2.values[i]? with
  | none => simp
  | some v => simp

private theorem mem_contributions {absolute : Bool} {ex : List (ℚ × List (String × Score))} {k : String} {v : List ℚ} :
    v ∈ contributions absolute (elems ex) k ↔
      ∃ e ∈ ex, ∃ p ∈ e.2, p.1 = k ∧ v = p.2.values.map fun x => if absolute then |x * e.1| else x * e.1 := by
  rw [contributions_elems]
  simp only [List.mem_flatMap, List.mem_map, List.mem_filter, decide_eq_true_eq]
  constructor
  · rintro ⟨e, he, p, ⟨hp, hk⟩, rfl⟩; exact ⟨e, he, p, hp, hk, rfl⟩
  · rintro ⟨e, he, p, hp, hk, rfl⟩; exact ⟨e, he, p, ⟨hp, hk⟩, rfl⟩

private def scoreOf (l : List ℚ) : Score := match l with | [q] => .scalar q | l => .vector l

private theorem get?_extract (a : Acc) (k : String) : Dict.get? (extract a) k = (Dict.get? a k).map scoreOf := by
  have he : extract a = a.map fun e => (e.1, scoreOf e.2) := rfl
  rw [he]
  clear he
  induction a with
  | nil => rfl
  | cons p a ih =>
    obtain ⟨k', l⟩ := p
    simp only [List.map_cons, Dict.get?]
    by_cases h : k' = k
    · simp [h]
    · simp only [h, if_false]
      exact ih

private theorem values_extract (l : List ℚ) : (scoreOf l).values = l := by
  unfold scoreOf
  split <;> rfl

/-- **C127 (totals).**  However the examples are distributed, the total reported for a feature is, position by position,
the sum of the selected scores times the weights of their examples (or of the absolute values of these products), over
the examples that have the feature; other features are not reported. -/
theorem C127_total {part : ℕ → List Fl → List ℕ} (hp : Partition part) {model output : String} {sk : Option SubKey}
    (hv : Valid sk) (absolute : Bool) {data : List Raw} {ex : List (ℚ × List (String × Score))}
    (h : List.Forall₂ (fun r e => Example model output sk r e.1 e.2) data ex) (s : Sched _)
    (hs : s.inputs.Perm (data.map (element part model output sk))) {acc : Acc} (hr : (combiner absolute).run s = .ok acc)
    (k : String) :
    (¬ Mentioned ex k → Dict.get? (extract acc) k = none) ∧
    (Mentioned ex k → ∃ n v, Sized ex k n ∧ Dict.get? (extract acc) k = some v ∧
      v.values = (List.range n).map fun i => (terms absolute ex k i).sum) := by
  rw [elements_examples hp hv h] at hs
  have hm : Mentioned ex k ↔ contributions absolute (elems ex) k ≠ [] := by
    constructor
    · rintro ⟨e, he, p, hpm, hk⟩
      exact List.ne_nil_of_mem (mem_contributions.2 ⟨e, he, p, hpm, hk, rfl⟩)
    · intro hne
      obtain ⟨v, hv⟩ := List.exists_mem_of_ne_nil _ hne
      obtain ⟨e, he, p, hpm, hk, _⟩ := mem_contributions.1 hv
      exact ⟨e, he, p, hpm, hk⟩
  rcases C15_attributions_value absolute (elems ex) s hs acc hr k with ⟨h1, h2⟩ | ⟨n, h1, h2, h3⟩
  · refine ⟨fun _ => by rw [get?_extract, h2]; rfl, fun hx => absurd h1 (hm.1 hx)⟩
  · refine ⟨fun hx => absurd (hm.2 h1) hx, fun _ => ⟨n, _, ?_, by rw [get?_extract, h3]; rfl, ?_⟩⟩
    · intro e he p hpm hk
      have := h2 _ (mem_contributions.2 ⟨e, he, p, hpm, hk, rfl⟩)
      simpa using this
    · rw [values_extract]
      unfold vecSum
      refine List.map_congr_left fun i _ => ?_
      rw [terms_eq]

/-- **C127 (accepted).**  Such examples are accepted exactly if, for each feature, the selected scores of all examples have
the same size. -/
theorem C127_accepted {part : ℕ → List Fl → List ℕ} (hp : Partition part) {model output : String} {sk : Option SubKey}
    (hv : Valid sk) (absolute : Bool) {data : List Raw} {ex : List (ℚ × List (String × Score))}
    (h : List.Forall₂ (fun r e => Example model output sk r e.1 e.2) data ex) (s : Sched _)
    (hs : s.inputs.Perm (data.map (element part model output sk))) :
    (∃ acc, (combiner absolute).run s = .ok acc) ↔ ∀ k, ∃ n, Sized ex k n := by
  rw [elements_examples hp hv h] at hs
  rw [C15_attributions_accepts absolute (elems ex) s hs]
  constructor
  · intro hall k
    by_cases hm : Mentioned ex k
    · obtain ⟨e, he, p, hpm, hk⟩ := hm
      refine ⟨p.2.values.length, fun e' he' p' hpm' hk' => ?_⟩
      have := hall k _ (mem_contributions.2 ⟨e', he', p', hpm', hk', rfl⟩) _ (mem_contributions.2 ⟨e, he, p, hpm, hk, rfl⟩)
      simpa using this
    · exact ⟨0, fun e he p hpm hk => absurd ⟨e, he, p, hpm, hk⟩ hm⟩
  · intro hall k v hv w hw
    obtain ⟨n, hn⟩ := hall k
    obtain ⟨e, he, p, hpm, hk, rfl⟩ := mem_contributions.1 hv
    obtain ⟨e', he', p', hpm', hk', rfl⟩ := mem_contributions.1 hw
    rw [List.length_map, List.length_map, hn e he p hpm hk, hn e' he' p' hpm' hk']

/-- **C127 (no attributions).**  Examples without attributions are refused. -/
theorem C127_missing (part : ℕ → List Fl → List ℕ) (model output : String) (sk : Option SubKey) (r : Raw)
    (h : r.attributions = none) : element part model output sk r = .error .valueError := by
  unfold element
  rw [h]

/-! ### means -/

private theorem get?_means (d : Dict String Score) (c : ℚ) (k : String) :
    Dict.get? (means d c) k = (Dict.get? d k).map fun s => if |c| ≤ 1 / 100000000 then Mean.nan else .score (s.div c) := by
  unfold means
  induction d with
  | nil => rfl
  | cons p d ih =>
    obtain ⟨k', l⟩ := p
    simp only [List.map_cons, Dict.get?]
    by_cases h : k' = k
    · simp [h]
    · simp only [h, if_false]
      exact ih

/-- **C127 (means).**  With the number of examples, or their total weight if the metric is weighted, counted by
`example_count` over the same examples, the mean of a feature is its total divided by the sum of the weights, unless that
sum is (almost) zero. -/
theorem C127_mean_partial {part : ℕ → List Fl → List ℕ} (hp : Partition part) {model output : String} {sk : Option SubKey}
    (hv : Valid sk) (absolute : Bool) {data : List Raw} {ex : List (ℚ × List (String × Score))}
    (h : List.Forall₂ (fun r e => Example model output sk r e.1 e.2) data ex) (s : Sched _)
    (hs : s.inputs.Perm (data.map (element part model output sk))) {acc : Acc} (hr : (combiner absolute).run s = .ok acc)
    (weighted : Bool) {trees : List (Option (Tree (List ℚ)))}
    (ht : if weighted then List.Forall₂ (Counts model output) trees (ex.map Prod.fst)
      else trees.length = ex.length ∧ ∀ e ∈ ex, e.1 = 1)
    (s' : Sched _) (hs' : s'.inputs.Perm trees) {k : String} (hk : Mentioned ex k)
    (hc : |(ex.map Prod.fst).sum| > 1 / 100000000) :
    ∃ count n v, (exampleCountCombiner weighted model output).run s' = .ok count ∧ Sized ex k n ∧
      Dict.get? (means (extract acc) count) k = some (.score v) ∧
      v.values = (List.range n).map fun i => (terms absolute ex k i).sum / (ex.map Prod.fst).sum := by
  have hcount : (exampleCountCombiner weighted model output).run s' = .ok (ex.map Prod.fst).sum := by
    cases weighted with
    | true => exact C73_weighted_count model output trees _ (by simpa using ht) s' hs'
    | false =>
      simp only [Bool.false_eq_true, if_false] at ht
      have h1 := C15_example_count_unweighted model output trees s' hs'
      have h2 : (ex.map Prod.fst).sum = (trees.length : ℚ) := by
        rw [ht.1]
        have h3 := ht.2
        clear ht hs hr hs' hk hc h1 h
        induction ex with
        | nil => simp
        | cons e ex ih =>
          rw [List.map_cons, List.sum_cons, ih fun x hx => h3 x (by simp [hx]), h3 e (by simp), List.length_cons]
          push_cast
          ring
      rw [h2]
      cases hrun : (exampleCountCombiner false model output).run s' with
      | error e => rw [hrun] at h1; cases h1
      | ok c => rw [hrun] at h1; exact congrArg Except.ok (Option.some.inj h1)
  obtain ⟨n, v, h1, h2, h3⟩ := (C127_total hp hv absolute h s hs hr k).2 hk
  refine ⟨_, n, v.div (ex.map Prod.fst).sum, hcount, h1, ?_, ?_⟩
  · rw [get?_means, h2, Option.map_some, if_neg (not_le.2 hc)]
  · have : ∀ c, (v.div c).values = v.values.map (· / c) := by
      intro c; cases v <;> rfl
    rw [this, h3, List.map_map]
    rfl

/-- **C127 fails for small weights:** with weights of a billionth, the mean of the only score is reported as not a
number. -/
theorem C127_small_weights_fails :
    (combiner false).run (.bundle [.ok ⟨[("a", [3])], 1 / 1000000000⟩]) = .ok [("a", [3 / 1000000000])] ∧
    means (extract [("a", [3 / 1000000000])]) (1 / 1000000000) = [("a", .nan)] := by
  constructor <;> decide +kernel

/-! ### values in files -/

/-- **C127 (written).**  A mean is written as the number, or as the array of numbers, that it is. -/
theorem C127_written (acc : Acc) (c : ℚ) (k : String) (m : Mean) (h : Dict.get? (means (extract acc) c) k = some m) :
    (m = .nan → writeAttribution m.value = .ok (.doubleValue none)) ∧
    (∀ v, m = .score v → ∀ q, v.values = [q] → writeAttribution m.value = .ok (.doubleValue (some q))) ∧
    ∀ v, m = .score v → v.values.length ≠ 1 → writeAttribution m.value = .ok (.arrayValue [v.values.length] v.values) := by
  refine ⟨?_, ?_, ?_⟩
  · rintro rfl; rfl
  · rintro v rfl q hq
    cases v with
    | scalar x => cases hq; rfl
    | vector l =>
      simp only [Score.values] at hq
      subst hq
      rfl
  · rintro v rfl hl
    cases v with
    | scalar x => exact absurd rfl hl
    | vector l =>
      simp only [Score.values] at hl
      simp [Mean.value, writeAttribution, hl, Score.values]

/-- **C127 fails for other values:** where a metric whose value is no number is written as a value of unknown type, an
attribution like that makes the writer fail. -/
theorem C127_unknown_fails : writeMetric .other = .ok .unknown ∧ writeAttribution .other = .error .attributeError := ⟨rfl, rfl⟩

/-! ### cases that meet the hypotheses -/

/-- The second largest score of two models' attributions. -/
private def someRaw : Raw :=
  ⟨some (.node (.cons "m" (.node (.cons "age" (.leaf (.vector [1, 5, 3])) (.cons "size" (.leaf (.vector [2, 2, 0])) .nil)))
    (.cons "n" (.node .nil) .nil))), .ok 2⟩

example : Example "m" "" (some ⟨none, some 2, none⟩) someRaw 2 [("age", .scalar 3), ("size", .scalar 2)] where
  weight := rfl
  place := by
    refine ⟨_, _, _, rfl, .inr ⟨by decide, _, rfl, rfl, by simp⟩, .inl ⟨rfl, rfl⟩, ?_⟩
    refine .cons (.kth (d := [5, 3, 1]) ⟨by decide, by decide⟩ rfl (by decide)) (.cons ?_ .nil)
    exact .kth (d := [2, 2, 0]) ⟨by decide, by decide⟩ rfl (by decide)

example : Selected (some ⟨none, none, some 2⟩) (.vector [1, 5, 3]) (.vector [5, 3]) :=
  .top (k := 2) (d := [5, 3, 1]) ⟨by decide, by decide⟩ (by decide)

/-- The mean over two examples of which one has the feature. -/
example : Mentioned [((2 : ℚ), [("age", Score.scalar 3)]), (1, [])] "age" ∧
    |(([((2 : ℚ), [("age", Score.scalar 3)]), (1, [])]).map Prod.fst).sum| > 1 / 100000000 ∧
    (terms false [((2 : ℚ), [("age", Score.scalar 3)]), (1, [])] "age" 0).sum / 3 = 2 := by
  refine ⟨⟨_, List.mem_cons_self, _, List.mem_cons_self, rfl⟩, ?_, ?_⟩
  · norm_num
  · norm_num [terms, Score.values]

end AttributionMetrics
end TFMA
