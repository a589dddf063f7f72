import Verif.Model.Views
import Verif.Props.Slicer

/-!
# C114: the slicing view and the time series view show the slices that were asked for
-/

namespace TFMA
namespace Views

open Slicer

variable {V : Type}

/-! ## Specification -/

/-- The slice keys that a column and a list of feature values ask for: in some order, exactly the (different) feature values and one
value of every column.  Numbers given as text count as numbers. -/
def AskedFor (c : NumCodec) (cols : List String) (feats : List Entry) (key : SliceKey) : Prop :=
  ∃ choice : String → CVal,
    (key.map fun e => (e.1, (toType c e.2).canon)).Perm
      ((feats.map fun e => (e.1, (toType c e.2).canon)).dedup ++ cols.dedup.map fun k => (k, choice k))

open Classical in
/-- Name and value of the records whose slice key satisfies `P`, in order. -/
noncomputable def recordsWith (name : SliceKey → String) (P : SliceKey → Prop) (results : List (ResultKey × V)) : List (String × V) :=
  results.filterMap fun r => match r.1 with
    | .slice k => if P k then some (name k, r.2) else none
    | .cross _ _ => none

/-- No record is about a cross slice whose baseline is the overall slice. -/
def NoOverallBaseline (results : List (ResultKey × V)) : Prop :=
  ∀ r ∈ results, ∀ b, r.1 ≠ .cross [] b

/-! ## Lemmas -/

private theorem find_ok (c : NumCodec) (name : SliceKey → String) (s : Spec) (P : SliceKey → Prop)
    (hP : ∀ k, s.isSliceApplicable c k = true ↔ P k) (results : List (ResultKey × V)) (h : NoOverallBaseline results) :
    findAllSlices c name s results = .ok (recordsWith name P results) := by
  induction results with
  | nil => rfl
  | cons r rest ih =>
    have ih := ih fun x hx => h x (List.mem_cons_of_mem _ hx)
    obtain ⟨k, v⟩ := r
    cases k with
    | slice k =>
      by_cases hk : P k
      · have h1 := (hP k).2 hk
        simp [findAllSlices, isApplicable, h1, ih, recordsWith, hk]
      · have h1 : s.isSliceApplicable c k = false := by
          rw [← Bool.not_eq_true]
          exact fun h => hk ((hP k).1 h)
        simp [findAllSlices, isApplicable, h1, ih, recordsWith, hk]
    | cross a b =>
      cases a with
      | nil => exact absurd rfl (h _ List.mem_cons_self b)
      | cons e es => simp [findAllSlices, isApplicable, ih, recordsWith]

private theorem find_index (c : NumCodec) (name : SliceKey → String) (s : Spec) (results : List (ResultKey × V))
    (h : ¬ NoOverallBaseline results) : findAllSlices c name s results = .error .indexError := by
  induction results with
  | nil => exact absurd (fun r hr => absurd hr List.not_mem_nil) h
  | cons r rest ih =>
    obtain ⟨k, v⟩ := r
    by_cases hr : NoOverallBaseline rest
    · have : ∃ b, k = .cross [] b := by
        by_contra hne
        apply h
        intro x hx b hb
        rcases List.mem_cons.1 hx with rfl | hx
        · exact hne ⟨b, hb⟩
        · exact hr x hx b hb
      obtain ⟨b, rfl⟩ := this
      simp [findAllSlices, isApplicable]
    · have ih := ih hr
      cases k with
      | slice k => cases hk : s.isSliceApplicable c k <;> simp [findAllSlices, isApplicable, hk, ih]
      | cross a b => cases a <;> simp [findAllSlices, isApplicable, ih]

private theorem column_iff (c : NumCodec) (col : String) (k : SliceKey) :
    (⟨[col], []⟩ : Spec).isSliceApplicable c k = true ↔ ∃ v, k = [(col, v)] := by
  unfold Spec.isSliceApplicable
  match k with
  | [] => simp [applicableLoop]
  | [(n, v)] => by_cases hn : n = col <;> simp [applicableLoop, hn]
  | (n, v) :: e :: rest => by_cases hn : n = col <;> simp [applicableLoop, hn]

private theorem overall_iff (c : NumCodec) (k : SliceKey) : (⟨[], []⟩ : Spec).isSliceApplicable c k = true ↔ k = [] :=
  C03_overall_only_empty c _ rfl k

private theorem spec_iff (c : NumCodec) (cols : List String) (feats : List Entry) (s : Spec) (hs : mkSpec c cols feats = .ok s)
    (k : SliceKey) : s.isSliceApplicable c k = true ↔ AskedFor c cols feats k := by
  have h1 : (s.features.map fun e => (e.1, e.2.canon)).Perm (feats.map fun e => (e.1, (toType c e.2).canon)).dedup := by
    have hn := frozensetE_canon_nodup (feats.map fun e => (e.1, toType c e.2))
    rw [← (mkSpec_ok hs).2.1] at hn
    refine (List.perm_ext_iff_of_nodup hn (List.nodup_dedup _)).2 fun x => ?_
    have hm := frozensetE_canon_mem (feats.map fun e => (e.1, toType c e.2)) x
    rw [← (mkSpec_ok hs).2.1] at hm
    rw [List.mem_dedup]
    simpa [canonE, List.map_map, Function.comp_def] using hm
  have h2 : s.columns.Perm cols.dedup := by
    refine (List.perm_ext_iff_of_nodup (mkSpec_columns_nodup hs) (List.nodup_dedup _)).2 fun x => ?_
    rw [(mkSpec_ok hs).1, List.mem_eraseDups, List.mem_dedup]
  rw [C03_applicable_iff c cols feats s hs]
  exact exists_congr fun g => ⟨fun h => h.trans (h1.append (h2.map _)), fun h => h.trans (h1.append (h2.map _)).symm⟩

/-! ## Theorems -/

/-- **C114** (a column): the slicing view of a column shows exactly the slices of that column alone, each once per record and in
the order of the results; it is an error if there is none.  A spec given besides the column has no effect. -/
theorem C114_column (c : NumCodec) (name : SliceKey → String) (results : List (ResultKey × V)) (col : String) (spec : Option Spec)
    (hc : col ≠ "") (h : NoOverallBaseline results) :
    getSlicingMetrics c name results (some col) spec =
      if recordsWith name (fun k => ∃ v, k = [(col, v)]) results = [] then .error .valueError
      else .ok (recordsWith name (fun k => ∃ v, k = [(col, v)]) results) := by
  have hf := find_ok c name ⟨[col], []⟩ _ (column_iff c col) results h
  simp only [getSlicingMetrics, Option.filter_some, hc, ne_eq, not_false_eq_true, decide_true, if_true, hf, List.isEmpty_iff]
  split <;> simp

/-- **C114** (a spec): the view of a spec shows exactly the slices that the spec asks for. -/
theorem C114_spec (c : NumCodec) (name : SliceKey → String) (results : List (ResultKey × V)) (cols : List String)
    (feats : List Entry) (s : Spec) (hs : mkSpec c cols feats = .ok s) (h : NoOverallBaseline results) :
    getSlicingMetrics c name results none (some s) =
      if recordsWith name (AskedFor c cols feats) results = [] then .error .valueError
      else .ok (recordsWith name (AskedFor c cols feats) results) := by
  have hP := spec_iff c cols feats s hs
  have hf := find_ok c name s _ hP results h
  simp only [getSlicingMetrics, Option.filter_none, Option.getD_some, hf, List.isEmpty_iff]
  split <;> simp

/-- **C114** (nothing asked for): the view shows the overall slice; it is an error if it is missing or there are several. -/
theorem C114_overall (c : NumCodec) (name : SliceKey → String) (results : List (ResultKey × V)) (col : Option String)
    (hc : col = none ∨ col = some "") (h : NoOverallBaseline results) :
    getSlicingMetrics c name results col none =
      match recordsWith name (fun k => k = []) results with
      | [x] => .ok [x]
      | _ => .error .valueError := by
  have hf := find_ok c name ⟨[], []⟩ _ (overall_iff c) results h
  have hcol : (col.filter fun s => decide (s ≠ "")) = none := by rcases hc with rfl | rfl <;> simp
  simp only [getSlicingMetrics, hcol, Option.getD_none, hf]
  match recordsWith name (fun k => k = []) results with
  | [] => simp
  | [x] => simp
  | x :: y :: l => simp

/-- **C114** fails for cross slices: results that contain a comparison with the overall slice cannot be viewed at all, whatever is
asked for. -/
theorem C114_cross_fails (c : NumCodec) (name : SliceKey → String) (results : List (ResultKey × V)) (col : Option String)
    (spec : Option Spec) (b : SliceKey) (v : V) (h : (ResultKey.cross [] b, v) ∈ results) :
    getSlicingMetrics c name results col spec = .error .indexError := by
  have : ¬ NoOverallBaseline results := fun hn => hn _ h b rfl
  simp only [getSlicingMetrics, find_index c name _ results this]

/-- The points of the time series of a slice: one for every run that has the slice once. -/
noncomputable def pointsOf (name : SliceKey → String) (ident : String → String) (P : SliceKey → Prop) (runs : List (Run V)) :
    List (Point V) :=
  runs.filterMap fun r => match recordsWith name P r.slicingMetrics with
    | [m] => some ⟨m.2, ident r.modelLocation, ident r.dataLocation⟩
    | _ => none

private theorem loop_eq (c : NumCodec) (name : SliceKey → String) (ident : String → String) (s : Spec) (P : SliceKey → Prop)
    (hP : ∀ k, s.isSliceApplicable c k = true ↔ P k) (runs : List (Run V)) (h : ∀ r ∈ runs, NoOverallBaseline r.slicingMetrics)
    (hone : ∀ r ∈ runs, (recordsWith name P r.slicingMetrics).length ≤ 1) (data : List (Point V)) :
    timeSeriesLoop c name ident s runs data = .ok (data ++ pointsOf name ident P runs) := by
  induction runs generalizing data with
  | nil => simp [timeSeriesLoop, pointsOf]
  | cons r rest ih =>
    have ih := ih (fun x hx => h x (List.mem_cons_of_mem _ hx)) (fun x hx => hone x (List.mem_cons_of_mem _ hx))
    have hf := find_ok c name s P hP r.slicingMetrics (h r List.mem_cons_self)
    have hl := hone r List.mem_cons_self
    simp only [timeSeriesLoop, hf, pointsOf, List.filterMap_cons]
    match hm : recordsWith name P r.slicingMetrics with
    | [] => simpa [pointsOf] using ih data
    | [m] =>
      simp only []
      rw [ih]
      simp [pointsOf]
    | _ :: _ :: _ => simp [hm] at hl

private theorem loop_error (c : NumCodec) (name : SliceKey → String) (ident : String → String) (s : Spec) (P : SliceKey → Prop)
    (hP : ∀ k, s.isSliceApplicable c k = true ↔ P k) (runs : List (Run V)) (h : ∀ r ∈ runs, NoOverallBaseline r.slicingMetrics)
    (hmany : ∃ r ∈ runs, 1 < (recordsWith name P r.slicingMetrics).length) (data : List (Point V)) :
    timeSeriesLoop c name ident s runs data = .error .valueError := by
  induction runs generalizing data with
  | nil => obtain ⟨r, hr, _⟩ := hmany; exact absurd hr List.not_mem_nil
  | cons r rest ih =>
    have ih := ih (fun x hx => h x (List.mem_cons_of_mem _ hx))
    have hf := find_ok c name s P hP r.slicingMetrics (h r List.mem_cons_self)
    have tail : (recordsWith name P r.slicingMetrics).length ≤ 1 →
        ∃ r ∈ rest, 1 < (recordsWith name P r.slicingMetrics).length := by
      intro hl
      obtain ⟨x, hx, hlen⟩ := hmany
      rcases List.mem_cons.1 hx with rfl | hx
      · omega
      · exact ⟨x, hx, hlen⟩
    simp only [timeSeriesLoop, hf]
    match hm : recordsWith name P r.slicingMetrics with
    | [] => exact ih (tail (by simp [hm])) data
    | [m] => exact ih (tail (by simp [hm])) _
    | _ :: _ :: _ => rfl

/-- **C114** (time series): if no run has several slices that the spec asks for, the time series has a point for every run that has
such a slice, in the order of the runs, with that run's metrics, model and data; runs without the slice are left out.  It is an error
if no run has it, or if some run has several. -/
theorem C114_time_series (c : NumCodec) (name : SliceKey → String) (ident : String → String) (runs : List (Run V))
    (cols : List String) (feats : List Entry) (s : Spec) (hs : mkSpec c cols feats = .ok s)
    (h : ∀ r ∈ runs, NoOverallBaseline r.slicingMetrics) :
    ((∃ r ∈ runs, 1 < (recordsWith name (AskedFor c cols feats) r.slicingMetrics).length) →
      (getTimeSeries c name ident runs s).toOption = none) ∧
    ((∀ r ∈ runs, (recordsWith name (AskedFor c cols feats) r.slicingMetrics).length ≤ 1) →
      getTimeSeries c name ident runs s =
        if pointsOf name ident (AskedFor c cols feats) runs = [] then .error .valueError
        else .ok (pointsOf name ident (AskedFor c cols feats) runs)) := by
  have hP := spec_iff c cols feats s hs
  refine ⟨fun hm => ?_, fun ho => ?_⟩
  · simp [getTimeSeries, loop_error c name ident s _ hP runs h hm, Except.toOption]
  · simp only [getTimeSeries, loop_eq c name ident s _ hP runs h ho, List.nil_append]
    match pointsOf name ident (AskedFor c cols feats) runs with
    | [] => simp
    | _ :: _ => simp

private theorem loop_bad (c : NumCodec) (name : SliceKey → String) (ident : String → String) (s : Spec) (runs : List (Run V))
    (h : ∃ r ∈ runs, ¬ NoOverallBaseline r.slicingMetrics) (data : List (Point V)) :
    ∃ e, timeSeriesLoop c name ident s runs data = .error e := by
  induction runs generalizing data with
  | nil => obtain ⟨r, hr, _⟩ := h; exact absurd hr List.not_mem_nil
  | cons r rest ih =>
    by_cases hr : NoOverallBaseline r.slicingMetrics
    · have ih := ih (by
        obtain ⟨x, hx, hb⟩ := h
        rcases List.mem_cons.1 hx with rfl | hx
        · exact absurd hr hb
        · exact ⟨x, hx, hb⟩)
      simp only [timeSeriesLoop]
      split
      · exact ⟨_, rfl⟩
      · exact ih _
      · exact ih _
      · exact ⟨_, rfl⟩
    · exact ⟨.indexError, by simp only [timeSeriesLoop, find_index c name s _ hr]⟩

/-- **C114** fails for cross slices (time series): one run that has a comparison with the overall slice makes every time series fail. -/
theorem C114_time_series_cross_fails (c : NumCodec) (name : SliceKey → String) (ident : String → String) (runs : List (Run V))
    (s : Spec) (r : Run V) (hr : r ∈ runs) (b : SliceKey) (v : V) (h : (ResultKey.cross [] b, v) ∈ r.slicingMetrics) :
    (getTimeSeries c name ident runs s).toOption = none := by
  obtain ⟨e, he⟩ := loop_bad c name ident s runs ⟨r, hr, fun hn => hn _ h b rfl⟩ []
  simp [getTimeSeries, he, Except.toOption]

/-! ## Examples -/

private def demo : List (ResultKey × ℕ) :=
  [(.slice [], 1), (.slice [("gender", .str "f")], 2), (.slice [("gender", .str "m")], 3),
    (.slice [("age", .str "5"), ("gender", .str "m")], 4), (.cross [("gender", .str "m")] [], 5)]

private def showKey (k : SliceKey) : String := " ".intercalate (k.map Prod.fst)

example : NoOverallBaseline demo := by
  intro r hr b
  simp only [demo, List.mem_cons, List.not_mem_nil, or_false] at hr
  rcases hr with rfl | rfl | rfl | rfl | rfl <;> simp

example : getSlicingMetrics demoCodec showKey demo (some "gender") none = .ok [("gender", 2), ("gender", 3)] := by decide +kernel

example : getSlicingMetrics demoCodec showKey demo (some "age") none = .error .valueError := by decide +kernel

example : getSlicingMetrics demoCodec showKey demo none (some ⟨["gender"], [("age", .int 5)]⟩) = .ok [("age gender", 4)] := by
  decide +kernel

example : getSlicingMetrics demoCodec showKey demo none none = .ok [("", 1)] := by decide +kernel

example : (.cross [] [("gender", .str "m")], 6) ∈ demo ++ [(ResultKey.cross [] [("gender", .str "m")], 6)] := by simp

/-- The second run has no such slice and is left out. -/
example : (getTimeSeries demoCodec showKey id [⟨demo, "m1", "d1"⟩, ⟨[(.slice [], 7)], "m2", "d2"⟩, ⟨demo, "m3", "d3"⟩]
      ⟨[], [("gender", .str "f")]⟩).map (fun l => l.map fun p => (p.metrics, p.model, p.data)) =
    .ok [(2, "m1", "d1"), (2, "m3", "d3")] := by decide +kernel

example : (getTimeSeries demoCodec showKey id [⟨demo, "m1", "d1"⟩] ⟨["gender"], []⟩).toOption.isNone := by decide +kernel

end Views
end TFMA
