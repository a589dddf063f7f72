import Verif.Lemmas.TfMetrics
import Verif.Py.DictLemmas
import Mathlib.Tactic.Ring
import Mathlib.Tactic.FieldSimp
import Mathlib.Algebra.Group.Prod

/-!
# C92: Keras metrics do not depend on batches and bundles
-/

namespace TFMA
namespace TfMetrics

open MetricKeys Beam

variable {W V : Type} [AddCommMonoid W]

/-- The elements a runner has added, without its compactions. -/
def elements (xs : List Event) : List (List (Except Err (List Row))) :=
  xs.filterMap fun e => match e with
    | .add x => some x
    | .compact => none

/-- The execution `s` processes the data: each element is given by its rows for each output. -/
def Processes (s : Sched Event) (data : List (List (List Row))) : Prop :=
  (elements s.inputs).Perm (data.map fun x => x.map .ok)

/-- The rows of the data for output `i`. -/
def column (i : ℕ) (data : List (List (List Row))) : List Row := data.flatMap fun x => x[i]?.getD []

/-- Every element has rows for each of the `n` outputs (for the outcome of `to_label_prediction_example_weight` this is
`C60_nonempty`), and the rows of output `i` satisfy `P i`. -/
def Complete (n : ℕ) (P : ℕ → Row → Prop) (data : List (List (List Row))) : Prop :=
  ∀ x ∈ data, x.length = n ∧ ∀ i rows, x[i]? = some rows → rows ≠ [] ∧ ∀ r ∈ rows, P i r

/-- The metric adds up contributions `f` of the single rows, as long as the rows satisfy `P` and have the same shape. -/
def Additive (m : Metric W V) (f : Row → W) (P : Row → Prop) : Prop :=
  m.initial = 0 ∧ ∀ rows : List Row, rows ≠ [] → (∀ r ∈ rows, P r) →
    (∀ r ∈ rows, ∀ r' ∈ rows, r.label.vals.length = r'.label.vals.length ∧ r.pred.vals.length = r'.pred.vals.length) →
    m.update rows = .ok (rows.map f).sum

/-- The names of the outputs, and of the metrics of an output, are distinct, and each metric yields one number. -/
def Plain (c : Combiner W V) : Prop :=
  c.outputs ≠ [] ∧ (c.outputs.map Prod.fst).Nodup ∧ ∀ o ∈ c.outputs, (o.2.map Metric.name).Nodup ∧
    ∀ m ∈ o.2, ∀ w, ∃ v, m.result w = .single v

/-- The key a metric of output `name` is reported under. -/
def reported (c : Combiner W V) (name : String) (m : Metric W V) : MetricKey :=
  ⟨m.name, c.modelName, name, c.subKey, none, some c.exampleWeighted, false⟩

/-- The values of the extracted dictionary are those of the metrics over all the rows of their output. -/
def Computes (c : Combiner W V) (f : Metric W V → Row → W) (data : List (List (List Row))) (s : Sched Event) : Prop :=
  ∃ a d, (combineFn c).run s = .ok a ∧ extract c a = .ok d ∧
    ∀ i name ms m, c.outputs[i]? = some (name, ms) → m ∈ ms →
      ∃ v, m.result ((column i data).map (f m)).sum = .single v ∧
        Dict.get? d (reported c name m) = some v

/-! ### Helpers -/

private theorem rows_elements (i : ℕ) (xs : List Event) :
    rowsOf i xs = (elements xs).flatMap fun x => Event.rows i (.add x) := by
  induction xs with
  | nil => rfl
  | cons e xs ih =>
    cases e with
    | compact => simpa [rowsOf, elements, Event.rows] using ih
    | add x => simp only [rowsOf, elements, List.flatMap_cons, List.filterMap_cons] at ih ⊢; rw [ih]

private theorem rowsOf_perm {s : Sched Event} {data : List (List (List Row))} (h : Processes s data) (i : ℕ) :
    (rowsOf i s.inputs).Perm (column i data) := by
  rw [rows_elements]
  refine (h.flatMap_right _).trans (List.Perm.of_eq ?_)
  rw [List.flatMap_map]
  unfold column
  congr 1
  funext x
  simp only [Event.rows, List.getElem?_map]
  cases x[i]? <;> rfl

private theorem good_events {s : Sched Event} {data : List (List (List Row))} (h : Processes s data) {n : ℕ}
    {P : ℕ → Row → Prop} (hd : Complete n P data) : ∀ e ∈ s.inputs, GoodEvent n P e := by
  intro e he
  cases e with
  | compact => trivial
  | add x =>
    have hx : x ∈ elements s.inputs := List.mem_filterMap.2 ⟨.add x, he, rfl⟩
    obtain ⟨y, hy, rfl⟩ := List.mem_map.1 (h.mem_iff.1 hx)
    obtain ⟨h1, h2⟩ := hd y hy
    refine ⟨by simpa using h1, fun i hi => ?_⟩
    obtain ⟨rows, hr⟩ : ∃ rows, y[i]? = some rows := ⟨y[i], List.getElem?_eq_getElem (by omega)⟩
    exact ⟨rows, by simp [hr], (h2 i rows hr).1, (h2 i rows hr).2⟩

private theorem foldl_set_get {K X : Type} [DecidableEq K] (l : List (K × X)) (d : Dict K X) (hl : (l.map Prod.fst).Nodup) (k : K) (v : X)
    (h : (k, v) ∈ l) : Dict.get? (l.foldl (fun d p => Dict.set d p.1 p.2) d) k = some v := by
  induction l generalizing d with
  | nil => simp at h
  | cons p l ih =>
    simp only [List.map_cons, List.nodup_cons] at hl
    rcases List.mem_cons.1 h with rfl | h
    · have other : ∀ (l : List (K × X)) (d : Dict K X), k ∉ l.map Prod.fst →
          Dict.get? (l.foldl (fun d p => Dict.set d p.1 p.2) d) k = Dict.get? d k := by
        intro l
        induction l with
        | nil => intro d _; rfl
        | cons q l ih =>
          intro d hq
          simp only [List.map_cons, List.mem_cons, not_or] at hq
          rw [List.foldl_cons, ih _ hq.2, Dict.get?_set_ne _ _ (Ne.symm hq.1)]
      rw [List.foldl_cons, other l _ hl.1, Dict.get?_set_self]
    · exact ih _ hl.2 h

/-- The pairs of one output. -/
private def pairs (c : Combiner W V) (o : String × List (Metric W V)) (ws : List (Option W)) : List (MetricKey × V) :=
  (List.zipWith (metricResults c o.1) o.2 ws).flatten

private theorem pairs_keys (c : Combiner W V) (name : String) : ∀ (ms : List (Metric W V)) (ws : List (Option W)),
    (∀ m ∈ ms, ∀ w, ∃ v, m.result w = .single v) → ms.length = ws.length →
    (pairs c (name, ms) ws).map Prod.fst = ms.map (reported c name)
  | [], [], _, _ => rfl
  | m :: ms, w :: ws, h, hl => by
    obtain ⟨v, hv⟩ := h m (by simp) (w.getD m.initial)
    have ih := pairs_keys c name ms ws (fun m' h' => h m' (by simp [h'])) (by simpa using hl)
    simp only [pairs, List.zipWith_cons_cons, List.flatten_cons, List.map_append, List.map_cons] at ih ⊢
    rw [ih, metricResults, hv]
    rfl

private theorem pairs_mem (c : Combiner W V) (name : String) (X : Metric W V → W) : ∀ (ms : List (Metric W V)) (ws : List (Option W)),
    (∀ m ∈ ms, ∀ w, ∃ v, m.result w = .single v) → List.Forall₂ (fun m w => w.getD m.initial = X m) ms ws →
    ∀ m ∈ ms, ∃ v, m.result (X m) = .single v ∧ (reported c name m, v) ∈ pairs c (name, ms) ws
  | m :: ms, w :: ws, h, .cons hw hws, m', hm' => by
    rcases List.mem_cons.1 hm' with rfl | hm'
    · obtain ⟨v, hv⟩ := h m' (by simp) (X m')
      refine ⟨v, hv, ?_⟩
      simp only [pairs, List.zipWith_cons_cons, List.flatten_cons, List.mem_append]
      left
      rw [metricResults, hw, hv]
      simp [reported, resultKey]
    · obtain ⟨v, hv, hp⟩ := pairs_mem c name X ms ws (fun m' h' => h m' (by simp [h'])) hws m' hm'
      refine ⟨v, hv, ?_⟩
      simp only [pairs, List.zipWith_cons_cons, List.flatten_cons, List.mem_append] at hp ⊢
      exact .inr hp

private theorem all_keys (c : Combiner W V) : ∀ (os : List (String × List (Metric W V))) (ws : List (List (Option W))),
    (os.map Prod.fst).Nodup → (∀ o ∈ os, (o.2.map Metric.name).Nodup ∧ ∀ m ∈ o.2, ∀ w, ∃ v, m.result w = .single v) →
    List.Forall₂ (fun o w => o.2.length = w.length) os ws →
    ((List.zipWith (pairs c) os ws).flatten.map Prod.fst).Nodup ∧
      ∀ k ∈ (List.zipWith (pairs c) os ws).flatten.map Prod.fst, k.outputName ∈ os.map Prod.fst
  | [], [], _, _, _ => by simp
  | o :: os, w :: ws, hn, h, .cons hl hls => by
    simp only [List.map_cons, List.nodup_cons] at hn
    obtain ⟨i1, i2⟩ := all_keys c os ws hn.2 (fun o' h' => h o' (by simp [h'])) hls
    have hk := pairs_keys c o.1 o.2 w (h o (by simp)).2 hl
    simp only [List.zipWith_cons_cons, List.flatten_cons, List.map_append, List.nodup_append]
    rw [show pairs c o w = pairs c (o.1, o.2) w from rfl, hk]
    refine ⟨⟨?_, i1, ?_⟩, ?_⟩
    · have := (h o (by simp)).1
      rw [List.nodup_map_iff_inj_on (List.Nodup.of_map _ this)]
      intro x hx y hy e
      exact List.inj_on_of_nodup_map this hx hy (congrArg MetricKey.name e)
    · intro a ha b hb e
      subst e
      obtain ⟨m, -, rfl⟩ := List.mem_map.1 ha
      exact hn.1 (i2 _ hb)
    · intro k hk
      rcases List.mem_append.1 hk with hk | hk
      · obtain ⟨m, -, rfl⟩ := List.mem_map.1 hk
        simp [reported]
      · simp only [List.map_cons, List.mem_cons]
        exact .inr (i2 k hk)

private theorem computes (c : Combiner W V) (f : Metric W V → Row → W) (P : ℕ → Row → Prop) (hc : Plain c)
    (h0 : ∀ o ∈ c.outputs, ∀ m ∈ o.2, m.initial = 0) (hb : BatchSums c f P) (data : List (List (List Row)))
    (hd : Complete c.outputs.length P data) (s : Sched Event) (hs : Processes s data) : Computes c f data s := by
  obtain ⟨hne, hnames, hout⟩ := hc
  obtain ⟨a, ha, hinv⟩ := run_ok hne hb s (good_events hs hd)
  obtain ⟨ws, he, hl, hw⟩ := extract_ok hne hb hinv h0
  refine ⟨a, _, ha, he, fun i name ms m hi hm => ?_⟩
  have hlens : List.Forall₂ (fun o w => o.2.length = w.length) c.outputs ws := by
    rw [List.forall₂_iff_get]
    refine ⟨hl.symm, fun j h1 h2 => ?_⟩
    obtain ⟨w, e1, e2⟩ := hw j _ (List.getElem?_eq_getElem h1)
    rw [List.getElem?_eq_getElem h2] at e1
    cases e1
    exact e2.length_eq
  obtain ⟨w, e1, e2⟩ := hw i _ hi
  have hmem : (name, ms) ∈ c.outputs := List.mem_of_getElem? hi
  obtain ⟨v, hv, hp⟩ := pairs_mem c name (fun m => ((rowsOf i s.inputs).map (f m)).sum) ms w (hout _ hmem).2 e2 m hm
  refine ⟨v, ?_, ?_⟩
  · rw [← hv, List.Perm.sum_eq ((rowsOf_perm hs i).map (f m))]
  · refine foldl_set_get _ [] (all_keys c c.outputs ws hnames hout hlens).1 _ v (List.mem_flatten.2 ⟨_, ?_, hp⟩)
    refine List.mem_of_getElem? (i := i) ?_
    rw [List.getElem?_zipWith, hi, e1]

/-! ### The property -/

private theorem rebuild_self : ∀ rows : List Row, rebuild rows (rows.map Row.label) (rows.map Row.pred) = rows
  | [] => rfl
  | _ :: rows => by simp only [List.map_cons, rebuild, rebuild_self rows]

private theorem sameLength_of {n : ℕ} : ∀ (l : List Vec), (∀ v ∈ l, v.vals.length = n) → sameLength l = true
  | [], _ => rfl
  | v :: l, h => by
    simp only [sameLength, List.all_eq_true, decide_eq_true_eq]
    intro w hw
    rw [h v (by simp), h w (by simp [hw])]

/-- C92: without padding, and if the rows of an output have the same width, the results of the metrics are those of all the rows:
for every batch size, every way of splitting the data into bundles, merging and compacting, and whatever sizes in bytes the estimator
reports.  The metrics must add up contributions of the single rows.  Missing: Keras is not modelled, so that its metrics add up is an
assumption (see `C92_loss` for losses), as is one dimension for labels and predictions. -/
theorem C92_value_partial (c : Combiner W V) (hc : Plain c) (hpad : c.padding = none) (f : Metric W V → Row → W) (P : Row → Prop)
    (hadd : ∀ o ∈ c.outputs, ∀ m ∈ o.2, Additive m (f m) P) (lw pw : ℕ → ℕ) (data : List (List (List Row)))
    (hd : Complete c.outputs.length (fun i r => P r ∧ r.label.vals.length = lw i ∧ r.pred.vals.length = pw i) data)
    (s : Sched Event) (hs : Processes s data) : Computes c f data s := by
  refine computes c f _ hc (fun o ho m hm => (hadd o ho m hm).1) ?_ data hd s hs
  intro i o hio batch padTo hne hbatch
  refine ⟨batch, ?_, fun m hm => ?_⟩
  · have h1 : sameLength (batch.map Row.label) = true := sameLength_of (n := lw i) _ (by
      intro v hv; obtain ⟨r, hr, rfl⟩ := List.mem_map.1 hv; exact (hbatch r hr).1.2.1)
    have h2 : sameLength (batch.map Row.pred) = true := sameLength_of (n := pw i) _ (by
      intro v hv; obtain ⟨r, hr, rfl⟩ := List.mem_map.1 hv; exact (hbatch r hr).1.2.2)
    simp [getInputs, hpad, h1, h2, rebuild_self, bind, Except.bind]
  · refine (hadd o (List.mem_of_getElem? hio) m hm).2 batch hne (fun r hr => (hbatch r hr).1.1) fun r hr r' hr' => ?_
    rw [(hbatch r hr).1.2.1, (hbatch r hr).1.2.2, (hbatch r' hr').1.2.1, (hbatch r' hr').1.2.2]
    exact ⟨rfl, rfl⟩

private theorem sameLength_iff : ∀ l : List Vec, sameLength l = true ↔ ∀ v ∈ l, ∀ w ∈ l, v.vals.length = w.vals.length
  | [] => by simp [sameLength]
  | v :: l => by
    simp only [sameLength, List.all_eq_true, decide_eq_true_eq]
    constructor
    · intro h
      have h' : ∀ w ∈ v :: l, w.vals.length = v.vals.length := fun w hw => by
        rcases List.mem_cons.mp hw with rfl | hw
        · rfl
        · exact h w hw
      exact fun a ha b hb => (h' a ha).trans (h' b hb).symm
    · exact fun h w hw => h w (by simp [hw]) v (by simp)

/-- **C92**: without padding, a batch is handed to the metrics as it is if its labels have the same width and its predictions have the
same width, and is refused otherwise. -/
theorem C92_rectangular (padTo : ℕ) (rows : List Row) :
    ((∀ r ∈ rows, ∀ r' ∈ rows, r.label.vals.length = r'.label.vals.length ∧ r.pred.vals.length = r'.pred.vals.length) →
      getInputs none padTo rows = .ok rows) ∧
    ((∃ r ∈ rows, ∃ r' ∈ rows, r.label.vals.length ≠ r'.label.vals.length ∨ r.pred.vals.length ≠ r'.pred.vals.length) →
      getInputs none padTo rows = .error .valueError) := by
  have hl : sameLength (rows.map Row.label) = true ↔ ∀ r ∈ rows, ∀ r' ∈ rows, r.label.vals.length = r'.label.vals.length := by
    rw [sameLength_iff]; simp
  have hp : sameLength (rows.map Row.pred) = true ↔ ∀ r ∈ rows, ∀ r' ∈ rows, r.pred.vals.length = r'.pred.vals.length := by
    rw [sameLength_iff]; simp
  constructor
  · intro h
    have h1 := hl.mpr fun r hr r' hr' => (h r hr r' hr').1
    have h2 := hp.mpr fun r hr r' hr' => (h r hr r' hr').2
    simp [getInputs, h1, h2, rebuild_self, bind, Except.bind]
  · rintro ⟨r, hr, r', hr', h⟩
    have : ¬ (sameLength (rows.map Row.label) = true ∧ sameLength (rows.map Row.pred) = true) := fun ⟨h1, h2⟩ =>
      h.elim (fun h => h (hl.mp h1 r hr r' hr')) fun h => h (hp.mp h2 r hr r' hr')
    simp only [getInputs, bind, Except.bind, Bool.and_eq_true]
    rw [if_neg this]

/-- An array of this kind is padded with `q`. -/
def PadsWith (o : Option PadValue) (k : Kind) (q : ℚ) : Prop :=
  match o with
  | none => q = 0
  | some (.int i) => k = .i ∧ q = i
  | some (.float x) => k = .f ∧ q = x

/-- A row with `n` more label values `l` and `k` more prediction values `p`. -/
def longer (r : Row) (n k : ℕ) (l p : ℚ) : Row :=
  { r with
    label := { r.label with vals := r.label.vals ++ List.replicate n l }
    pred := { r.pred with vals := r.pred.vals ++ List.replicate k p } }

private theorem padVec_eq {o : Option PadValue} {v : Vec} {q : ℚ} (h : PadsWith o v.kind q) {n : ℕ} (hn : v.vals.length ≤ n) :
    padVec n o v = .ok { v with vals := v.vals ++ List.replicate (n - v.vals.length) q } := by
  have hv : padValue v o = .ok q := by
    unfold PadsWith at h
    unfold padValue
    rcases o with - | (x | x)
    · simp [h]
    · simp only at h ⊢; rw [if_pos h.1, h.2]
    · simp only at h ⊢; rw [if_pos h.1, h.2]
  unfold padVec
  rw [hv]
  simp only [pad]
  split_ifs with h1 h2
  · simp [← h1]
  · omega
  · rfl

private theorem padAll_eq {o : Option PadValue} {q : ℚ} {n : ℕ} : ∀ (l : List Vec),
    (∀ v ∈ l, PadsWith o v.kind q ∧ v.vals.length ≤ n) →
    padAll n o l = .ok (l.map fun v => { v with vals := v.vals ++ List.replicate (n - v.vals.length) q })
  | [], _ => rfl
  | v :: l, h => by
    simp only [padAll, padVec_eq (h v (by simp)).1 (h v (by simp)).2, padAll_eq l fun v' h' => h v' (by simp [h']), List.map_cons]

private theorem rebuild_map (g h : Vec → Vec) : ∀ rows : List Row,
    rebuild rows ((rows.map Row.label).map g) ((rows.map Row.pred).map h) =
      rows.map fun r => { r with label := g r.label, pred := h r.pred }
  | [] => rfl
  | _ :: rows => by simp only [List.map_cons, rebuild, rebuild_map g h rows]

/-- C92: with padding, rows of any widths, for metrics whose contributions do not change when a row is padded.  Missing: as above. -/
theorem C92_padded_partial (c : Combiner W V) (hc : Plain c) (o : Padding) (hpad : c.padding = some o) (f : Metric W V → Row → W)
    (l p : ℚ) (hadd : ∀ o ∈ c.outputs, ∀ m ∈ o.2, Additive m (f m) fun _ => True)
    (hins : ∀ o ∈ c.outputs, ∀ m ∈ o.2, ∀ r n k, f m (longer r n k l p) = f m r) (data : List (List (List Row)))
    (hd : Complete c.outputs.length (fun _ r => PadsWith o.label r.label.kind l ∧ PadsWith o.pred r.pred.kind p) data)
    (s : Sched Event) (hs : Processes s data) : Computes c f data s := by
  refine computes c f _ hc (fun o ho m hm => (hadd o ho m hm).1) ?_ data hd s hs
  intro i out hio batch padTo hne hbatch
  have hfit : ∀ r ∈ batch, r.label.vals.length ≤ padTo ∧ r.pred.vals.length ≤ padTo := fun r hr => (hbatch r hr).2 (by simp [hpad])
  have e1 := padAll_eq (n := padTo) (o := o.label) (q := l) (batch.map Row.label) (by
    intro v hv; obtain ⟨r, hr, rfl⟩ := List.mem_map.1 hv; exact ⟨(hbatch r hr).1.1, (hfit r hr).1⟩)
  have e2 := padAll_eq (n := padTo) (o := o.pred) (q := p) (batch.map Row.pred) (by
    intro v hv; obtain ⟨r, hr, rfl⟩ := List.mem_map.1 hv; exact ⟨(hbatch r hr).1.2, (hfit r hr).2⟩)
  have len : ∀ (v : Vec) (q : ℚ), v.vals.length ≤ padTo →
      (v.vals ++ List.replicate (padTo - v.vals.length) q).length = padTo := by
    intro v q hv; rw [List.length_append, List.length_replicate]; omega
  refine ⟨batch.map fun r => longer r (padTo - r.label.vals.length) (padTo - r.pred.vals.length) l p, ?_, fun m hm => ?_⟩
  · have h1 : sameLength ((batch.map Row.label).map fun v => { v with vals := v.vals ++ List.replicate (padTo - v.vals.length) l })
        = true := sameLength_of (n := padTo) _ (by
      intro v hv
      simp only [List.map_map, List.mem_map, Function.comp_apply] at hv
      obtain ⟨r, hr, rfl⟩ := hv
      exact len _ _ (hfit r hr).1)
    have h2 : sameLength ((batch.map Row.pred).map fun v => { v with vals := v.vals ++ List.replicate (padTo - v.vals.length) p })
        = true := sameLength_of (n := padTo) _ (by
      intro v hv
      simp only [List.map_map, List.mem_map, Function.comp_apply] at hv
      obtain ⟨r, hr, rfl⟩ := hv
      exact len _ _ (hfit r hr).2)
    simp only [getInputs, hpad, e1, e2, bind, Except.bind]
    rw [h1, h2, rebuild_map]
    rfl
  · have hmem := List.mem_of_getElem? hio
    rw [(hadd out hmem m hm).2 _ (by simpa using hne) (fun _ _ => trivial), List.map_map]
    · congr 2
      exact List.map_congr_left fun r _ => hins out hmem m hm r _ _
    · intro a ha b hb
      obtain ⟨r, hr, rfl⟩ := List.mem_map.1 ha
      obtain ⟨r', hr', rfl⟩ := List.mem_map.1 hb
      exact ⟨(len _ _ (hfit r hr).1).trans (len _ _ (hfit r' hr').1).symm, (len _ _ (hfit r hr).2).trans (len _ _ (hfit r' hr').2).symm⟩

/-- Non-vacuous: the sum of the predictions is not changed by padding with zeros; rows of widths 1 and 2 in one batch. -/
example : ∃ s data, Processes s data ∧ Computes (W := ℚ) (V := ℚ)
    { outputs := [("", [{ name := "sum", initial := 0, update := fun rows => .ok (rows.map fun r => r.pred.vals.sum).sum, result := .single }])],
      padding := some { label := some (.float 0) } } (fun _ r => r.pred.vals.sum) data s := by
  refine ⟨.bundle [.add [.ok [{ label := { vals := [1] }, pred := { vals := [2] }, weight := 1 }]],
      .add [.ok [{ label := { vals := [1, 2] }, pred := { vals := [3, 4] }, weight := 1 }]]],
    [[[{ label := { vals := [1] }, pred := { vals := [2] }, weight := 1 }]],
      [[{ label := { vals := [1, 2] }, pred := { vals := [3, 4] }, weight := 1 }]]], List.Perm.refl _, ?_⟩
  refine C92_padded_partial _ ⟨by simp, by simp, ?_⟩ _ rfl _ 0 0 ?_ ?_ _ ?_ _ (List.Perm.refl _)
  · intro o ho
    simp only [List.mem_singleton] at ho
    subst ho
    exact ⟨by simp, fun m hm w => by simp only [List.mem_singleton] at hm; subst hm; exact ⟨_, rfl⟩⟩
  · intro o ho m hm
    simp only [List.mem_singleton] at ho
    subst ho
    simp only [List.mem_singleton] at hm
    subst hm
    exact ⟨rfl, fun _ _ _ _ => rfl⟩
  · intro o ho m hm r n k
    simp [longer]
  · intro x hx
    simp only [List.mem_cons, List.not_mem_nil, or_false] at hx
    refine ⟨by rcases hx with rfl | rfl <;> rfl, fun i rows hr => ?_⟩
    rcases hx with rfl | rfl <;> rcases i with - | i <;> simp at hr <;> subst hr <;> simp [PadsWith]

/-! ### Where it fails -/

/-- The result of an execution, if it does not raise. -/
def outcome (c : Combiner W V) (s : Sched Event) : Option (Dict MetricKey V) :=
  ((combineFn c).run s).toOption.bind fun a => (extract c a).toOption

/-- C92: a loss is averaged correctly if all the example weights are equal. -/
theorem C92_loss (name : String) (loss : List ℚ → List ℚ → ℚ) (w : ℚ) :
    Additive (lossMetric name loss) (fun r => (loss r.label.vals r.pred.vals * r.weight, r.weight)) (fun r => r.weight = w) := by
  refine ⟨rfl, fun rows hne hw _ => ?_⟩
  have hlen : (rows.length : ℚ) ≠ 0 := by
    have : rows.length ≠ 0 := by simpa using hne
    exact_mod_cast this
  have pair : ∀ (g h : Row → ℚ) (l : List Row), (l.map fun r => (g r, h r)).sum = ((l.map g).sum, (l.map h).sum) := by
    intro g h l
    induction l with
    | nil => rfl
    | cons r l ih => simp [ih]
  have consts : ∀ (m : ℚ) (l : List Row), (∀ r ∈ l, r.weight = w) → (l.map fun r => m * r.weight).sum = l.length * (m * w) := by
    intro m l hl
    induction l with
    | nil => simp
    | cons r l ih =>
      simp only [List.map_cons, List.sum_cons, ih fun r' h' => hl r' (by simp [h']), hl r (by simp), List.length_cons]
      push_cast
      ring
  have factor : ∀ (l : List Row), (∀ r ∈ l, r.weight = w) →
      (l.map fun r => loss r.label.vals r.pred.vals * r.weight).sum = (l.map fun r => loss r.label.vals r.pred.vals).sum * w := by
    intro l hl
    induction l with
    | nil => simp
    | cons r l ih =>
      simp only [List.map_cons, List.sum_cons, ih fun r' h' => hl r' (by simp [h']), hl r (by simp)]
      ring
  simp only [lossMetric]
  rw [pair, consts _ _ hw, factor _ hw]
  congr 2
  field_simp

/-- One output with one metric. -/
def oneMetric (m : Metric W V) (padding : Option Padding) : Combiner W V := { outputs := [("", [m])], padding := padding }

/-- An element with one row for the one output. -/
def element (l p : List ℚ) (w : ℚ) : Event := .add [.ok [{ label := { vals := l }, pred := { vals := p }, weight := w }]]

/-- C92: with different example weights a loss depends on the batches: the examples with losses 0 and 1 and weights 1 and 3 have the
weighted mean 3/4, but a loss of 1/2 if they are in one batch. -/
theorem C92_loss_depends_on_batches : ∃ (loss : List ℚ → List ℚ → ℚ) (s s' : Sched Event) (data : List (List (List Row))),
    Processes s data ∧ Processes s' data ∧
      outcome (oneMetric (lossMetric "loss" loss) none) s = some [({ name := "loss" }, 1 / 2)] ∧
      outcome (oneMetric (lossMetric "loss" loss) none) s' = some [({ name := "loss" }, 3 / 4)] := by
  refine ⟨fun l p => if l = p then 0 else 1, .bundle [element [1] [1] 1, element [1] [0] 3],
    .merge (.cons (.bundle [element [1] [1] 1]) (.one (.bundle [element [1] [0] 3]))),
    [[[{ label := { vals := [1] }, pred := { vals := [1] }, weight := 1 }]],
      [[{ label := { vals := [1] }, pred := { vals := [0] }, weight := 3 }]]], List.Perm.refl _, List.Perm.refl _, ?_, ?_⟩
  · decide +kernel
  · decide +kernel

/-- The contribution of a row to the mean squared error. -/
def squared (r : Row) : ℚ × ℚ :=
  (r.weight * ((List.zipWith (fun l p : ℚ => (l - p) * (l - p)) r.label.vals r.pred.vals).sum / (r.pred.vals.length : ℚ)), r.weight)

/-- The weighted mean over the examples of the mean squared error over the values, as in Keras. -/
def meanError : Metric (ℚ × ℚ) ℚ where
  name := "error"
  initial := 0
  update rows := .ok (rows.map squared).sum
  result w := .single (w.1 / w.2)

/-- `meanError` adds up contributions of the rows. -/
private theorem meanError_additive : Additive meanError squared (fun _ => True) := ⟨rfl, fun _ _ _ _ => rfl⟩

/-- C92: a metric that averages over the values of an example is changed by padding, and since rows are padded to the largest width in
their batch, its value depends on the batches. -/
theorem C92_padding_depends_on_batches : ∃ (s s' : Sched Event) (data : List (List (List Row))),
    Processes s data ∧ Processes s' data ∧
      outcome (oneMetric meanError (some {})) s = some [({ name := "error" }, 1 / 4)] ∧
      outcome (oneMetric meanError (some {})) s' = some [({ name := "error" }, 1 / 2)] := by
  refine ⟨.bundle [element [1] [0] 1, element [0, 0] [0, 0] 1],
    .merge (.cons (.bundle [element [1] [0] 1]) (.one (.bundle [element [0, 0] [0, 0] 1]))),
    [[[{ label := { vals := [1] }, pred := { vals := [0] }, weight := 1 }]],
      [[{ label := { vals := [0, 0] }, pred := { vals := [0, 0] }, weight := 1 }]]], List.Perm.refl _, List.Perm.refl _, ?_, ?_⟩
  · decide +kernel
  · decide +kernel

/-- C92: without padding, rows of different widths make an evaluation fail or not, depending on the batches. -/
theorem C92_ragged_depends_on_batches : ∃ (s s' : Sched Event) (data : List (List (List Row))),
    Processes s data ∧ Processes s' data ∧
      outcome (oneMetric meanError none) s = none ∧
      outcome (oneMetric meanError none) s' = some [({ name := "error" }, 1 / 2)] := by
  refine ⟨.bundle [element [1] [0] 1, element [0, 0] [0, 0] 1],
    .merge (.cons (.bundle [element [1] [0] 1]) (.one (.bundle [element [0, 0] [0, 0] 1]))),
    [[[{ label := { vals := [1] }, pred := { vals := [0] }, weight := 1 }]],
      [[{ label := { vals := [0, 0] }, pred := { vals := [0, 0] }, weight := 1 }]]], List.Perm.refl _, List.Perm.refl _, ?_, ?_⟩
  · decide +kernel
  · decide +kernel

/-- Non-vacuous: the mean error satisfies the hypotheses of `C92_value_partial`, with two bundles and a compaction. -/
example : ∃ s data, Processes s data ∧ Computes (oneMetric meanError none) (fun _ => squared) data s := by
  refine ⟨.merge (.cons (.bundle [element [1] [0] 1, .compact, element [1] [1] 2]) (.one (.bundle [element [0] [1] 3]))),
    [[[{ label := { vals := [1] }, pred := { vals := [0] }, weight := 1 }]],
      [[{ label := { vals := [1] }, pred := { vals := [1] }, weight := 2 }]],
      [[{ label := { vals := [0] }, pred := { vals := [1] }, weight := 3 }]]], List.Perm.refl _, ?_⟩
  refine C92_value_partial _ ⟨by simp [oneMetric], by simp [oneMetric], ?_⟩ rfl _ (fun _ => True) ?_ (fun _ => 1) (fun _ => 1) _ ?_ _
    (List.Perm.refl _)
  · intro o ho
    simp only [oneMetric, List.mem_singleton] at ho
    subst ho
    exact ⟨by simp, fun m hm w => by simp only [List.mem_singleton] at hm; subst hm; exact ⟨_, rfl⟩⟩
  · intro o ho m hm
    simp only [oneMetric, List.mem_singleton] at ho
    subst ho
    simp only [List.mem_singleton] at hm
    subst hm
    exact meanError_additive
  · intro x hx
    simp only [List.mem_cons, List.not_mem_nil, or_false] at hx
    refine ⟨by rcases hx with rfl | rfl | rfl <;> rfl, fun i rows hr => ?_⟩
    rcases hx with rfl | rfl | rfl <;> rcases i with - | i <;> simp at hr <;> subst hr <;> simp

/-- Non-vacuous: two rows of weight 2. -/
example : (lossMetric "loss" fun l p => if l = p then 0 else 1).update
    [{ label := { vals := [1] }, pred := { vals := [1] }, weight := 2 }, { label := { vals := [1] }, pred := { vals := [0] }, weight := 2 }] =
      .ok (2, 4) := by
  rw [(C92_loss "loss" (fun l p => if l = p then 0 else 1) 2).2 _ (by simp) (by simp) (by simp)]
  norm_num

end TfMetrics
end TFMA
