import Verif.Model.SetMatchMetrics
import Verif.Props.FractionalFlow
import Verif.Props.ConfusionMatrices
import Verif.Props.HistogramMatrices

/-!
# Confusion matrices of items with a label, a prediction and a weight
-/

namespace TFMA
namespace SetMatch

open Beam MatrixSetup

/-! ### Schedules -/

mutual
def smap {δ ε : Type} (g : δ → ε) : Sched δ → Sched ε
  | .bundle xs => .bundle (xs.map g)
  | .extend s xs => .extend (smap g s) (xs.map g)
  | .merge ss => .merge (smaps g ss)
def smaps {δ ε : Type} (g : δ → ε) : Scheds δ → Scheds ε
  | .one s => .one (smap g s)
  | .cons s ss => .cons (smap g s) (smaps g ss)
end

mutual
theorem smap_inputs {δ ε : Type} (g : δ → ε) : ∀ s : Sched δ, (smap g s).inputs = s.inputs.map g
  | .bundle xs => rfl
  | .extend s xs => by simp [smap, Sched.inputs, smap_inputs g s]
  | .merge ss => by simp [smap, Sched.inputs, smaps_inputs g ss]
theorem smaps_inputs {δ ε : Type} (g : δ → ε) : ∀ s : Scheds δ, (smaps g s).inputs = s.inputs.map g
  | .one s => by simp [smaps, Scheds.inputs, smap_inputs g s]
  | .cons s ss => by simp [smaps, Scheds.inputs, smap_inputs g s, smaps_inputs g ss]
end

theorem comap_addAll {δ ε α : Type} (g : δ → ε) (c : CombineFn ε α) (xs : List δ) :
    ∀ a, (comap g c).addAll a xs = c.addAll a (xs.map g) := by
  induction xs with
  | nil => intro a; rfl
  | cons x xs ih =>
    intro a
    simp only [CombineFn.addAll, List.map_cons, comap]
    cases c.addInput a (g x) with
    | error e => rfl
    | ok b => exact ih b

mutual
theorem comap_run {δ ε α : Type} (g : δ → ε) (c : CombineFn ε α) : ∀ s, (comap g c).run s = c.run (smap g s)
  | .bundle xs => comap_addAll g c xs _
  | .extend s xs => by
    simp only [CombineFn.run, smap, comap_run g c s]
    cases c.run (smap g s) with
    | error e => rfl
    | ok b => exact comap_addAll g c xs b
  | .merge ss => by simp only [CombineFn.run, smap, comap_runs g c ss]; rfl
theorem comap_runs {δ ε α : Type} (g : δ → ε) (c : CombineFn ε α) : ∀ s, (comap g c).runs s = c.runs (smaps g s)
  | .one s => by simp only [CombineFn.runs, smaps, comap_run g c s]
  | .cons s ss => by simp only [CombineFn.runs, smaps, comap_run g c s, comap_runs g c ss]
end

/-! ### Reading an item -/

/-- The arguments for the only model. -/
def only (specs : List Inputs.ModelSpec) (weighted : Bool) : Inputs.Args := { specs := specs, exampleWeighted := weighted }

/-- The weight of an item. -/
def itemWeight (b : Bool) (i : Item) : ℚ := if b then i.weight.getD 1 else 1

theorem read_item (part) (sp : List Inputs.ModelSpec) (b : Bool) (i : Item) (hl : i.label = 0 ∨ i.label = 1) :
    Inputs.toLabelPredictionWeight part { only sp b with fractional := true } (inputsOf i) =
      .ok (Inputs.splitSpec (itemWeight b i) i.label i.prediction) := by
  obtain ⟨ws, hws⟩ : ∃ ws, Inputs.find { only sp b with fractional := true } (inputsOf i) =
      Inputs.find { Inputs.weighted with fractional := true }
        (Inputs.raw ⟨[1], [i.label]⟩ ⟨[1], [i.prediction]⟩ ⟨ws, [itemWeight b i]⟩) := by
    cases b with
    | false => exact ⟨[], by
        simp [Inputs.find, only, inputsOf, Inputs.raw, Inputs.weighted, Inputs.byName, Inputs.optionalKey, itemWeight,
          Inputs.isNoneLeaf, Inputs.specKeys, bind, Except.bind, Inputs.requireLeaf, Inputs.preparePrediction]⟩
    | true =>
      cases hw : i.weight with
      | none => exact ⟨[], by
          simp [Inputs.find, only, inputsOf, Inputs.raw, Inputs.weighted, Inputs.byName, Inputs.optionalKey, itemWeight, hw,
            Inputs.isNoneLeaf, Inputs.specKeys, bind, Except.bind, Inputs.requireLeaf, Inputs.preparePrediction]⟩
      | some w => exact ⟨[1], by
          simp [Inputs.find, only, inputsOf, Inputs.raw, Inputs.weighted, Inputs.byName, Inputs.optionalKey, itemWeight, hw,
            Inputs.isNoneLeaf, Inputs.specKeys, bind, Except.bind, Inputs.requireLeaf, Inputs.preparePrediction]⟩
  have h := Inputs.C27_flow part ⟨[1], [i.label]⟩ ⟨[1], [i.prediction]⟩ ws (itemWeight b i) (by simp [Inputs.Arr.WF])
    (by simp [Inputs.Arr.WF]) rfl (by simp [Inputs.Arr.size]) (by
      intro y hy
      simp only [List.mem_singleton] at hy
      rcases hl with h | h <;> rw [hy, h] <;> norm_num)
  have e : Inputs.toLabelPredictionWeight part { only sp b with fractional := true } (inputsOf i) =
      Inputs.toLabelPredictionWeight part { Inputs.weighted with fractional := true }
        (Inputs.raw ⟨[1], [i.label]⟩ ⟨[1], [i.prediction]⟩ ⟨ws, [itemWeight b i]⟩) := by
    unfold Inputs.toLabelPredictionWeight
    rw [hws]
    rfl
  rw [e, h]
  simp

/-- The triple of an item. -/
def triple (b : Bool) (i : Item) : ℚ × Fl × ℚ := (i.label, i.prediction, itemWeight b i)

def sumIf (P : ℚ × Fl × ℚ → Bool) (L : List (ℚ × Fl × ℚ)) : ℚ := ((L.filter P).map fun x => x.2.2).sum

theorem sumIf_cons (P : ℚ × Fl × ℚ → Bool) (x) (L) :
    sumIf P (x :: L) = (if P x then x.2.2 else 0) + sumIf P L := by
  unfold sumIf
  by_cases h : P x <;> simp [h]

theorem sumIf_append (P : ℚ × Fl × ℚ → Bool) (L M) : sumIf P (L ++ M) = sumIf P L + sumIf P M := by
  simp [sumIf]

theorem sumIf_perm (P : ℚ × Fl × ℚ → Bool) {L M} (h : L.Perm M) : sumIf P L = sumIf P M :=
  ((h.filter P).map _).sum_eq

/-- The rows of an item. -/
def itemRows (b : Bool) (i : Item) : List Bcm.Row :=
  (Inputs.splitSpec (itemWeight b i) i.label i.prediction).filterMap rowOf

theorem itemRows_eq (b : Bool) (i : Item) (hl : i.label = 0 ∨ i.label = 1) :
    itemRows b i = if itemWeight b i = 0 then [] else [⟨.fin i.label, i.prediction, itemWeight b i⟩] := by
  unfold itemRows
  rcases hl with h | h <;> by_cases hw : itemWeight b i = 0 <;> simp [Inputs.splitSpec, h, hw, rowOf, Inputs.one]

theorem weight_rows (b : Bool) (items : List Item) (hl : ∀ i ∈ items, i.label = 0 ∨ i.label = 1) (P : Bcm.Row → Prop)
    [DecidablePred P] :
    Bcm.weightWhere P (items.map (itemRows b)).flatten =
      sumIf (fun x => decide (P ⟨.fin x.1, x.2.1, x.2.2⟩)) (items.map (triple b)) := by
  induction items with
  | nil => rfl
  | cons i items ih =>
    have ih := ih fun j hj => hl j (by simp [hj])
    rw [List.map_cons, List.map_cons, sumIf_cons, ← ih, List.flatten_cons]
    unfold Bcm.weightWhere
    rw [List.filter_append, List.map_append, List.sum_append, itemRows_eq b i (hl i (by simp))]
    congr 1
    by_cases hw : itemWeight b i = 0
    · simp [hw, triple]
    · by_cases hp : P ⟨.fin i.label, i.prediction, itemWeight b i⟩ <;> simp [hw, triple, hp]

theorem collect_ok {ε : Type} (xs : List ε) : Bcm.allOk (xs.map (Except.ok : ε → Except Err ε)) = some xs := by
  unfold Bcm.allOk
  induction xs with
  | nil => rfl
  | cons x xs ih => simp [Combiners.collect, ih, Except.toOption]

theorem toOption_some {α : Type} {x : Except Err α} {a : α} (h : x.toOption = some a) : x = .ok a := by
  cases x with
  | error e => cases h
  | ok b => cases h; rfl

theorem choose_given {ts : List Fl} (hn : ts ≠ []) (h : ts ≠ interpolated ts.length) :
    choose none (some ts) = .ok (none, ts) := by
  cases ts with
  | nil => exact absurd rfl hn
  | cons t l =>
    simp only [choose, reset]
    rw [if_neg (by rintro ⟨-, h'⟩; exact h h'), if_neg (by simp)]
    rfl

/-- The examples of an item in the histogram. -/
def itemHist (b : Bool) (i : Item) : List Histogram.HExample :=
  (Inputs.splitSpec (itemWeight b i) i.label i.prediction).filterMap hexampleOf

theorem itemHist_eq (b : Bool) (i : Item) (hl : i.label = 0 ∨ i.label = 1) :
    itemHist b i = if itemWeight b i = 0 then [] else [⟨i.label, i.prediction, itemWeight b i⟩] := by
  unfold itemHist
  rcases hl with h | h <;> by_cases hw : itemWeight b i = 0 <;> simp [Inputs.splitSpec, h, hw, hexampleOf, Inputs.one]

theorem flat_ok {T : Type} (xs : List (List T)) : allFlat (xs.map (Except.ok : List T → Except Err (List T))) = some xs.flatten := by
  induction xs with
  | nil => rfl
  | cons x xs ih => simp [allFlat, ih]

theorem hist_sum (b : Bool) (items : List Item) (hl : ∀ i ∈ items, i.label = 0 ∨ i.label = 1) (S : Fl → Bool) :
    (((items.map (itemHist b)).flatten.filter fun e => S e.pred).map fun e => e.label * e.weight).sum =
      sumIf (fun x => decide (x.1 = 1) && S x.2.1) (items.map (triple b)) ∧
    (((items.map (itemHist b)).flatten.filter fun e => S e.pred).map fun e => e.weight - e.label * e.weight).sum =
      sumIf (fun x => !decide (x.1 = 1) && S x.2.1) (items.map (triple b)) := by
  induction items with
  | nil => exact ⟨rfl, rfl⟩
  | cons i items ih =>
    obtain ⟨h1, h2⟩ := ih fun j hj => hl j (by simp [hj])
    have hi := hl i (by simp)
    rw [List.map_cons, List.map_cons, sumIf_cons, sumIf_cons, ← h1, ← h2, List.flatten_cons, List.filter_append, List.map_append,
      List.sum_append, List.map_append, List.sum_append, itemHist_eq b i hi]
    by_cases hw : itemWeight b i = 0
    · simp [hw, triple]
    · by_cases hS : S i.prediction <;> rcases hi with h | h <;> simp [hw, triple, hS, h]

/-- The matrix of the items for which `S` says which predictions count as positive. -/
def matrixBy (b : Bool) (items : List Item) (S : Fl → Bool) : Bcm.Matrix :=
  ⟨sumIf (fun x => decide (x.1 = 1) && S x.2.1) (items.map (triple b)),
    sumIf (fun x => !decide (x.1 = 1) && !S x.2.1) (items.map (triple b)),
    sumIf (fun x => !decide (x.1 = 1) && S x.2.1) (items.map (triple b)),
    sumIf (fun x => decide (x.1 = 1) && !S x.2.1) (items.map (triple b))⟩

theorem matrixOf_items (b : Bool) (items : List Item) (hl : ∀ i ∈ items, i.label = 0 ∨ i.label = 1) (t : Fl) :
    Bcm.matrixOf true t (items.map (itemRows b)).flatten = matrixBy b items fun v => Fl.lt t v := by
  have hpos : ∀ q : ℚ, Bcm.LabelPos true t (.fin q) ↔ q = 1 := by intro q; simp [Bcm.LabelPos]
  unfold Bcm.matrixOf matrixBy
  congr 1 <;> rw [weight_rows b items hl] <;>
    simp only [hpos, Bool.decide_and, Bool.decide_eq_true] <;> simp

/-- The counted matrices. -/
theorem matrices_counted (part) (sp : List Inputs.ModelSpec) (b : Bool) (items : List Item)
    (hl : ∀ i ∈ items, i.label = 0 ∨ i.label = 1) (num : Option ℤ) (tso : Option (List Fl)) (ts : List Fl)
    (hch : choose num tso = .ok (none, ts)) (hnd : ts.Nodup) (hh : histogramDefault none ts = false)
    (s : Sched Item) (hs : s.inputs.Perm items) :
    matricesWith part (only sp b) num tso s = .ok (ts.map fun t => (t, matrixBy b items fun v => Fl.lt t v)) := by
  unfold matricesWith
  simp only [hch, hh, Bool.false_eq_true, if_false]
  rw [comap_run]
  obtain ⟨g, hg⟩ : ∃ g : Item → Except Err Bcm.Example, g = fun i =>
      (Inputs.toLabelPredictionWeight part { only sp b with fractional := true } (inputsOf i)).map
        fun l => (⟨l.filterMap rowOf, none⟩ : Bcm.Example) := ⟨_, rfl⟩
  rw [← hg]
  have hgi : items.map g = (items.map fun i => (⟨itemRows b i, none⟩ : Bcm.Example)).map Except.ok := by
    rw [List.map_map]
    refine List.map_congr_left fun i hi => ?_
    rw [hg]
    simp only [read_item part sp b i (hl i hi), Except.map, Function.comp_apply, itemRows]
  have h := Bcm.C17_matrices ⟨ts, 100, true⟩ hnd (items.map g) (smap g s) (by rw [smap_inputs]; exact hs.map g)
  rw [hgi, collect_ok, Option.map_some, List.map_map] at h
  refine toOption_some ?_
  have hf : (Bcm.Example.rows ∘ fun i => (⟨itemRows b i, none⟩ : Bcm.Example)) = itemRows b := rfl
  rw [hf] at h
  simp only [matrixOf_items b items hl] at h
  rw [← h]
  cases ((Bcm.combiner ⟨ts, 100, true⟩).run (smap g s)) with
  | error e => rfl
  | ok a =>
    simp only [Except.bind]
    cases Bcm.toMatrices (Bcm.extract ⟨ts, 100, true⟩ a) ts <;> rfl

/-- The matrices derived from a histogram. -/
theorem matrices_histogram (part) (sp : List Inputs.ModelSpec) (b : Bool) (items : List Item)
    (hl : ∀ i ∈ items, i.label = 0 ∨ i.label = 1) (hnan : ∀ i ∈ items, i.prediction ≠ .nan) (num num' : Option ℤ)
    (tso : Option (List Fl)) (ts : List Fl) (hch : choose num tso = .ok (num', ts)) (hh : histogramDefault num' ts = true)
    (cfg : Histogram.Config) (hcfg : cfg = ⟨numBuckets ts, 0, 1, true⟩) (hpos : 0 < numBuckets ts) (S : ℕ → Fl → Bool)
    (hsel : ∃ c, Bcm.histogramResult ts (Histogram.histogramOf cfg (items.map (itemHist b)).flatten) = .ok c ∧
      ∀ (i : ℕ) (t : Fl), ts[i]? = some t → Bcm.CellsBy c i (items.map (itemHist b)).flatten fun e => S i e.pred)
    (s : Sched Item) (hs : s.inputs.Perm items) :
    matricesWith part (only sp b) num tso s = .ok (ts.zipIdx.map fun x => (x.1, matrixBy b items (S x.2))) := by
  unfold matricesWith
  simp only [hch, hh, if_true]
  rw [comap_run, ← hcfg]
  obtain ⟨g, hg⟩ : ∃ g : Item → Except Err (List Histogram.HExample), g = fun i =>
      (Inputs.toLabelPredictionWeight part { only sp b with fractional := true } (inputsOf i)).map
        (·.filterMap hexampleOf) := ⟨_, rfl⟩
  rw [← hg]
  have hgi : items.map g = (items.map (itemHist b)).map Except.ok := by
    rw [List.map_map]
    refine List.map_congr_left fun i hi => ?_
    rw [hg]
    simp only [read_item part sp b i (hl i hi), Except.map, Function.comp_apply, itemHist]
  have h := Histogram.C18_histogram cfg (by rw [hcfg]; constructor <;> simp [hpos]) (items.map g) (smap g s)
    (by rw [smap_inputs]; exact hs.map g)
  rw [hgi, flat_ok, Option.bind_some, if_neg] at h
  · obtain ⟨cols, hr, hc⟩ := hsel
    cases hrun : (Histogram.combiner cfg).run (smap g s) with
    | error e => rw [hrun] at h; cases h
    | ok a =>
      rw [hrun] at h
      have he : Histogram.extract a = Histogram.histogramOf cfg (items.map (itemHist b)).flatten := by
        simpa [Except.toOption] using h
      simp only [Except.bind, he, hr, Except.map]
      refine congrArg Except.ok (List.ext_getElem? fun i => ?_)
      cases ht : ts[i]? with
      | none =>
        have hlen := List.getElem?_eq_none_iff.1 ht
        rw [List.getElem?_eq_none (by simp only [List.length_zip]; omega), List.getElem?_eq_none (by simpa using hlen)]
      | some t =>
        obtain ⟨c1, c2, c3, c4⟩ := hc i t ht
        have g1 := (hist_sum b items hl (S i)).1
        have g2 := (hist_sum b items hl (S i)).2
        have g3 := (hist_sum b items hl fun v => !S i v).1
        have g4 := (hist_sum b items hl fun v => !S i v).2
        rw [g1] at c1; rw [g2] at c2; rw [g4] at c3; rw [g3] at c4
        have hz : (ts.zip ((cols.tp.zip (cols.tn.zip (cols.fp.zip cols.fn))).map
            fun x => (⟨x.1, x.2.1, x.2.2.1, x.2.2.2⟩ : Bcm.Matrix)))[i]? = some (t, matrixBy b items (S i)) := by
          rw [List.getElem?_zip_eq_some]
          refine ⟨ht, ?_⟩
          have zip : ∀ {α β : Type} {l : List α} {m : List β} {x : α} {y : β}, l[i]? = some x → m[i]? = some y →
              (l.zip m)[i]? = some (x, y) := fun hx hy => List.getElem?_zip_eq_some.2 ⟨hx, hy⟩
          rw [List.getElem?_map, zip c1 (zip c3 (zip c2 c4))]
          rfl
        rw [hz]
        simp [ht]
  · rintro ⟨e, he, hv⟩
    obtain ⟨l, hl', hel⟩ := List.mem_flatten.1 he
    obtain ⟨i, hi, rfl⟩ := List.mem_map.1 hl'
    rw [itemHist_eq b i (hl i hi)] at hel
    split_ifs at hel
    · cases hel
    · rw [List.mem_singleton] at hel
      subst hel
      rw [hcfg] at hv
      exact hnan i hi hv

end SetMatch
end TFMA
