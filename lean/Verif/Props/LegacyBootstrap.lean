import Verif.Model.LegacyBootstrap
import Verif.Py.DictLemmas
import Mathlib.Data.List.Nodup
import Mathlib.Tactic.FieldSimp
import Mathlib.Tactic.Ring
import Mathlib.Tactic.Linarith

/-!
# C142: confidence intervals of the legacy Poisson bootstrap
-/

namespace TFMA
namespace LegacyBootstrap

open Beam

/-! ## Specification -/

/-- What is found at a path of indices. -/
def Datum.at : Datum → List ℕ → Option Datum
  | d, [] => some d
  | .arr xs, i :: p => (xs[i]?).bind fun d => d.at p
  | .num _, _ :: _ => none
  | .text _, _ :: _ => none

/-- What is found at a path of indices of a result. -/
def Res.at : Res → List ℕ → Option Res
  | r, [] => some r
  | .arr rs, i :: p => (rs[i]?).bind fun r => r.at p
  | .dist _, _ :: _ => none

/-- A number, an array of some length or something else. -/
def Datum.kind : Datum → Option ℕ ⊕ Unit
  | .num _ => .inl none
  | .arr xs => .inl (some xs.length)
  | .text _ => .inr ()

/-- Arrays of the same shape (or numbers). -/
def Alike (d e : Datum) : Prop := ∀ p, (d.at p).map Datum.kind = (e.at p).map Datum.kind

/-- Only numbers. -/
def Numeric (d : Datum) : Prop := ∀ p s, d.at p ≠ some (.text s)

/-- The numbers at a path, without NaN. -/
def numbersAt (p : List ℕ) (samples : List Datum) : List ℝ := samples.filterMap fun d => match d.at p with
  | some (.num x) => x
  | _ => none

/-- Mean, standard deviation and degrees of freedom of numbers: the standard deviation of a single number is undefined. -/
structure Fit (vs : List ℝ) (d : TDist) : Prop where
  dof : d.dof = (vs.length : ℤ) - 1
  mean : ∃ m, d.mean = some m ∧ vs.length * m = vs.sum ∧
    (vs.length = 1 → d.std = none) ∧
    (2 ≤ vs.length → ∃ s, d.std = some s ∧ 0 ≤ s ∧ (vs.length - 1) * s ^ 2 = (vs.map fun v => (v - m) ^ 2).sum)

/-- The values of a metric in the samples which have it. -/
def valuesOfMetric {K : Type} [DecidableEq K] (k : K) (metrics : List (Dict K Val)) : List Val := metrics.filterMap fun m => Dict.get? m k

/-! ## Lemmas -/

private theorem mapE_ok {α β : Type} {f : α → Except Err β} {g : α → β} : ∀ {xs : List α}, (∀ x ∈ xs, f x = .ok (g x)) →
    mapE f xs = .ok (xs.map g)
  | [], _ => rfl
  | x :: xs, h => by
    simp only [mapE]
    rw [h x (by simp), mapE_ok fun y hy => h y (by simp [hy])]
    rfl

private theorem mapE_error {α β : Type} {f : α → Except Err β} : ∀ {xs : List α} {x : α}, x ∈ xs → (∃ e, f x = .error e) →
    ∃ e, mapE f xs = .error e
  | y :: ys, x, hx, ⟨e, he⟩ => by
    simp only [mapE]
    cases hy : f y with
    | error e' => exact ⟨e', rfl⟩
    | ok z =>
      rcases List.mem_cons.1 hx with rfl | hx
      · rw [he] at hy; cases hy
      · obtain ⟨e', h'⟩ := mapE_error hx ⟨e, he⟩
        exact ⟨e', by rw [h']⟩

private theorem fit_of {vs : List ℝ} (h : vs.length ≠ 0) (u : Datum) :
    Fit vs ⟨some (mean vs), std vs, vs.length - 1, u⟩ := by
  have h0 : (vs.length : ℝ) ≠ 0 := by exact_mod_cast h
  refine ⟨rfl, mean vs, rfl, ?_, ?_, ?_⟩
  · unfold mean
    field_simp
  · intro h1
    simp [std, h1]
  · intro h2
    have h3 : vs.length ≠ 1 := by omega
    have h4 : (0 : ℝ) < vs.length - 1 := by
      have : (2 : ℝ) ≤ vs.length := by exact_mod_cast h2
      linarith
    have h5 : 0 ≤ (vs.map fun x => (x - mean vs) ^ 2).sum / ((vs.length : ℝ) - 1) := by
      refine div_nonneg (List.sum_nonneg ?_) h4.le
      intro x hx
      obtain ⟨y, _, rfl⟩ := List.mem_map.1 hx
      positivity
    refine ⟨Real.sqrt ((vs.map fun x => (x - mean vs) ^ 2).sum / (vs.length - 1)), by simp [std, h3], Real.sqrt_nonneg _, ?_⟩
    rw [Real.sq_sqrt h5]
    field_simp

private theorem kind_num {d : Datum} (h : d.kind = .inl none) : ∃ x, d = .num x := by
  cases d <;> simp_all [Datum.kind]

private theorem kind_arr {d : Datum} {n : ℕ} (h : d.kind = .inl (some n)) : ∃ xs, d = .arr xs ∧ xs.length = n := by
  cases d <;> simp_all [Datum.kind]

private theorem Alike.kind {d e : Datum} (h : Alike d e) : d.kind = e.kind := by
  have := h []
  simpa [Datum.at] using this

private theorem Alike.elem {xs ys : List Datum} (h : Alike (.arr xs) (.arr ys)) {i : ℕ} (hi : i < xs.length) (hj : i < ys.length) :
    Alike xs[i] ys[i] := by
  intro p
  have := h (i :: p)
  simpa [Datum.at, List.getElem?_eq_getElem, hi, hj] using this

/-- What the summary of numbers is. -/
private def Result (vs : List ℝ) (x : Option ℝ) (d : TDist) : Prop :=
  (vs = [] → d = ⟨none, none, -1, .num none⟩) ∧ (vs ≠ [] → Fit vs d ∧ d.unsampled = .num x)

private def elemAt (i : ℕ) : Datum → Datum
  | .arr xs => xs.getD i (.num none)
  | d => d

private theorem numbersAt_elem {i : ℕ} {n : ℕ} (hi : i < n) (p : List ℕ) : ∀ {samples : List Datum},
    (∀ s ∈ samples, s.kind = .inl (some n)) → numbersAt p (samples.map (elemAt i)) = numbersAt (i :: p) samples
  | [], _ => rfl
  | s :: ss, h => by
    obtain ⟨xs, rfl, hx⟩ := kind_arr (h s (by simp))
    have ih := numbersAt_elem hi p (samples := ss) fun t ht => h t (by simp [ht])
    unfold numbersAt at ih ⊢
    have hi' : i < xs.length := by omega
    simp only [List.map_cons, List.filterMap_cons, ih, elemAt, Datum.at, List.getElem?_eq_getElem hi', Option.bind_some,
      List.getD_eq_getElem?_getD, Option.getD_some]

private theorem summary_spec (z : Option ℝ) {samples : List Datum} (hs : ∀ s ∈ samples, ∃ x, s = .num x) :
    ∃ d, summary samples (.num z) = .ok (.dist d) ∧ Result (numbersAt [] samples) z d := by
  have h1 : mapE number samples = .ok (samples.map fun s => match s with | .num x => x | _ => none) := by
    refine mapE_ok fun s h => ?_
    obtain ⟨x, rfl⟩ := hs s h
    rfl
  have h2 : (samples.map fun s => match s with | .num x => x | _ => none).filterMap id = numbersAt [] samples := by
    unfold numbersAt
    rw [List.filterMap_map]
    refine List.filterMap_congr fun s h => ?_
    obtain ⟨x, rfl⟩ := hs s h
    rfl
  unfold summary
  rw [h1]
  simp only [h2]
  by_cases h : numbersAt [] samples = []
  · rw [if_neg (by simp [h])]
    exact ⟨_, rfl, fun _ => rfl, fun h' => absurd h h'⟩
  · have h' : (numbersAt [] samples).length ≠ 0 := by simpa using h
    rw [if_pos h']
    exact ⟨_, rfl, fun e => absurd e h, fun _ => ⟨fit_of h' _, rfl⟩⟩

mutual
private theorem calculate_spec : ∀ (first : Datum) (samples : List Datum) (u : Datum), samples.head? = some first →
    (∀ s ∈ samples, Alike s u) → Numeric u →
    ∃ r, calculate first samples u = .ok r ∧ (∀ p, (r.at p).isSome = (u.at p).isSome) ∧
      ∀ p x, u.at p = some (.num x) → ∃ d, r.at p = some (.dist d) ∧ Result (numbersAt p samples) x d
  | .arr xs, samples, u, hf, hal, hn => by
    have hmem : Datum.arr xs ∈ samples := List.mem_of_mem_head? hf
    have hk := (hal _ hmem).kind
    obtain ⟨us, rfl, hus⟩ := kind_arr (d := u) (n := xs.length) (by rw [← hk]; rfl)
    obtain ⟨rs, h1, h3, h2⟩ := calculateAll_spec xs 0 samples us (by omega) ⟨xs, hf, rfl⟩ hal hn
    refine ⟨.arr rs, by simp only [calculate, h1], ?_, ?_⟩
    · intro p
      cases p with
      | nil => simp [Datum.at, Res.at]
      | cons j p => simpa [Datum.at, Res.at] using h3 j p
    intro p x hp
    cases p with
    | nil => simp [Datum.at] at hp
    | cons j p =>
      simp only [Datum.at] at hp
      cases hj : us[j]? with
      | none => rw [hj] at hp; simp at hp
      | some v =>
        rw [hj] at hp
        obtain ⟨r, d, g1, g2, g3⟩ := h2 j p x v (by simpa using hj) hp
        refine ⟨d, ?_, by simpa using g3⟩
        simp [Res.at, g1, g2]
  | .num y, samples, u, hf, hal, hn => by
    have hk := (hal _ (List.mem_of_mem_head? hf)).kind
    obtain ⟨z, rfl⟩ := kind_num (d := u) hk.symm
    have hs : ∀ s ∈ samples, ∃ x, s = .num x := fun s hs => kind_num (hal s hs).kind
    obtain ⟨r, h1, h2⟩ := summary_spec z hs
    refine ⟨.dist r, by simp only [calculate, h1], ?_, ?_⟩
    · intro p
      cases p <;> simp [Datum.at, Res.at]
    intro p x hp
    cases p with
    | cons j p => simp [Datum.at] at hp
    | nil =>
      simp only [Datum.at, Option.some.injEq, Datum.num.injEq] at hp
      subst hp
      exact ⟨r, rfl, h2⟩
  | .text s, samples, u, hf, hal, hn => by
    have := (hal _ (List.mem_of_mem_head? hf)).kind
    cases u with
    | num x => simp [Datum.kind] at this
    | arr x => simp [Datum.kind] at this
    | text t => exact absurd rfl (hn [] t)
private theorem calculateAll_spec : ∀ (xs : List Datum) (i : ℕ) (samples : List Datum) (us : List Datum), us.length = i + xs.length →
    (∃ zs, samples.head? = some (.arr zs) ∧ zs.drop i = xs) →
    (∀ s ∈ samples, Alike s (.arr us)) → Numeric (.arr us) →
    ∃ rs, calculateAll xs i samples (.arr us) = .ok rs ∧
      (∀ j p, ((rs[j]?).bind fun r => r.at p).isSome = ((us[i + j]?).bind fun d => d.at p).isSome) ∧
      ∀ j p x v, us[i + j]? = some v → v.at p = some (.num x) →
        ∃ r d, rs[j]? = some r ∧ r.at p = some (.dist d) ∧ Result (numbersAt ((i + j) :: p) samples) x d
  | [], i, samples, us, hl, hf, hal, hn => by
    refine ⟨[], rfl, ?_, ?_⟩
    · intro j p
      rw [List.getElem?_eq_none (l := us) (by simp at hl; omega)]
      simp
    intro j p x v hv
    rw [List.getElem?_eq_none (by simp at hl; omega)] at hv
    cases hv
  | y :: xs, i, samples, us, hl, ⟨zs, hz, hd⟩, hal, hn => by
    simp only [List.length_cons] at hl
    have hi : i < us.length := by omega
    have hkind : ∀ s ∈ samples, s.kind = .inl (some us.length) := fun s hs => (hal s hs).kind
    have hcol : mapE (index i) samples = .ok (samples.map (elemAt i)) := by
      refine mapE_ok fun s hs => ?_
      obtain ⟨ss, rfl, hss⟩ := kind_arr (hkind s hs)
      have hi' : i < ss.length := by omega
      simp [index, elemAt, List.getElem?_eq_getElem hi']
    have hu : index i (.arr us) = .ok us[i] := by simp [index, List.getElem?_eq_getElem hi]
    have hy : zs[i]? = some y := by
      have : (zs.drop i)[0]? = some y := by rw [hd]; rfl
      simpa using this
    have hhead : (samples.map (elemAt i)).head? = some y := by
      rw [List.head?_map, hz]
      simp [elemAt, hy]
    have hal' : ∀ s ∈ samples.map (elemAt i), Alike s us[i] := by
      intro s hs
      obtain ⟨t, ht, rfl⟩ := List.mem_map.1 hs
      obtain ⟨ss, rfl, hss⟩ := kind_arr (hkind t ht)
      have hi' : i < ss.length := by omega
      have := (hal _ ht).elem hi' hi
      simpa [elemAt, List.getElem?_eq_getElem hi'] using this
    have hn' : Numeric us[i] := by
      intro p s hp
      refine hn (i :: p) s ?_
      simp [Datum.at, List.getElem?_eq_getElem hi, hp]
    obtain ⟨r, h1, h3, h2⟩ := calculate_spec y (samples.map (elemAt i)) us[i] hhead hal' hn'
    have hd' : zs.drop (i + 1) = xs := by
      rw [← List.drop_drop, hd]
      rfl
    obtain ⟨rs, g1, g3, g2⟩ := calculateAll_spec xs (i + 1) samples us (by omega) ⟨zs, hz, hd'⟩ hal hn
    refine ⟨r :: rs, by simp only [calculateAll, hcol, hu, h1, g1], ?_, ?_⟩
    · intro j p
      cases j with
      | zero => simpa [List.getElem?_eq_getElem hi] using h3 p
      | succ j =>
        have := g3 j p
        rw [show i + (j + 1) = i + 1 + j by omega]
        simpa using this
    intro j p x v hv hp
    cases j with
    | zero =>
      rw [Nat.add_zero, List.getElem?_eq_getElem hi, Option.some.injEq] at hv
      subst hv
      obtain ⟨d, k1, k2⟩ := h2 p x hp
      rw [numbersAt_elem hi p hkind] at k2
      exact ⟨r, d, rfl, k1, k2⟩
    | succ j =>
      obtain ⟨r', d, k1, k2, k3⟩ := g2 j p x v (by rw [← hv]; congr 1; omega) hp
      refine ⟨r', d, by simpa using k1, k2, ?_⟩
      have : i + (j + 1) = i + 1 + j := by omega
      rw [this]
      exact k3
end

/-! ### metrics of a slice -/

section

variable {S K : Type} [DecidableEq S] [DecidableEq K]

private theorem groupOne_get (k : K) : ∀ (m : Dict K Val), m.WF → ∀ d : Dict K (List Val),
    Dict.get? (groupOne m d) k = match Dict.get? m k with
      | some v => some ((Dict.get? d k).getD [] ++ [v])
      | none => Dict.get? d k
  | [], _, d => by simp [groupOne, Dict.get?]
  | (k', v) :: m, hw, d => by
    have hw' : (m.map Prod.fst).Nodup ∧ k' ∉ m.map Prod.fst := by
      have : ((k', v) :: m).map Prod.fst = k' :: m.map Prod.fst := rfl
      have hw : (((k', v) :: m).map Prod.fst).Nodup := hw
      rw [this, List.nodup_cons] at hw
      exact ⟨hw.2, hw.1⟩
    rw [groupOne, groupOne_get k m hw'.1, Dict.get?_cons, Dict.get?_set]
    by_cases h : k' = k
    · subst h
      have : Dict.get? m k' = none := (Dict.get?_eq_none_iff m k').2 hw'.2
      simp [this]
    · simp [h]

private theorem groupOne_wf : ∀ (m : Dict K Val) (d : Dict K (List Val)), d.WF → (groupOne m d).WF
  | [], _, h => h
  | (k, v) :: m, d, h => groupOne_wf m _ (Dict.WF_set h _ _)

private theorem groupAll_wf : ∀ (ms : List (Dict K Val)) (d : Dict K (List Val)), d.WF → (groupAll ms d).WF
  | [], _, h => h
  | m :: ms, d, h => groupAll_wf ms _ (groupOne_wf m d h)

private theorem groupAll_get (k : K) : ∀ (ms : List (Dict K Val)), (∀ m ∈ ms, m.WF) → ∀ d : Dict K (List Val),
    Dict.get? (groupAll ms d) k = if valuesOfMetric k ms = [] then Dict.get? d k
      else some ((Dict.get? d k).getD [] ++ valuesOfMetric k ms)
  | [], _, d => by simp [groupAll, valuesOfMetric]
  | m :: ms, hw, d => by
    rw [groupAll, groupAll_get k ms (fun m' h => hw m' (by simp [h])), groupOne_get k m (hw m (by simp))]
    have hc : valuesOfMetric k (m :: ms) = match Dict.get? m k with
        | some v => v :: valuesOfMetric k ms
        | none => valuesOfMetric k ms := by
      unfold valuesOfMetric
      rw [List.filterMap_cons]
      cases Dict.get? m k <;> rfl
    rw [hc]
    cases Dict.get? m k with
    | none => rfl
    | some v =>
      by_cases h : valuesOfMetric k ms = []
      · simp [h]
      · simp [h]

private theorem valuesOfMetric_ne (k : K) (ms : List (Dict K Val)) : valuesOfMetric k ms ≠ [] ↔ ∃ m ∈ ms, k ∈ Dict.keys m := by
  unfold valuesOfMetric
  rw [Ne, List.filterMap_eq_nil_iff]
  push Not
  constructor
  · rintro ⟨m, hm, h⟩
    exact ⟨m, hm, (Dict.mem_keys_iff m k).2 (Option.ne_none_iff_exists'.1 h)⟩
  · rintro ⟨m, hm, h⟩
    obtain ⟨v, hv⟩ := (Dict.mem_keys_iff m k).1 h
    exact ⟨m, hm, by rw [hv]; simp⟩

private theorem grouped_keys (ms : List (Dict K Val)) (hw : ∀ m ∈ ms, m.WF) (k : K) :
    k ∈ Dict.keys (groupAll ms []) ↔ ∃ m ∈ ms, k ∈ Dict.keys m := by
  rw [Dict.mem_keys_iff, groupAll_get k ms hw, ← valuesOfMetric_ne]
  by_cases h : valuesOfMetric k ms = []
  · simp [h, Dict.get?]
  · simp [h, Dict.get?]

/-- The numbers of a metric at a path in the samples that have it, without NaN. -/
def numbersOf (n : K) (p : List ℕ) (metrics : List (Dict K Val)) : List ℝ := (valuesOfMetric n metrics).filterMap fun v => match v with
  | .data d => match d.at p with
    | some (.num x) => x
    | _ => none
  | .proto _ => none

private theorem numbersOf_eq {n : K} {metrics : List (Dict K Val)} {ds : List Datum} (h : valuesOfMetric n metrics = ds.map .data)
    (p : List ℕ) : numbersOf n p metrics = numbersAt p ds := by
  unfold numbersOf numbersAt
  rw [h, List.filterMap_map]
  rfl

/-- Metrics of a slice in samples that fit those in all data: the same metrics, and for a metric which is no message only numbers in
arrays of the same shape. -/
structure Fits (metrics : List (Dict K Val)) (u : Dict K Val) : Prop where
  wf : ∀ m ∈ metrics, m.WF
  uwf : u.WF
  keys : ∀ n, n ∈ Dict.keys u ↔ ∃ m ∈ metrics, n ∈ Dict.keys m
  shapes : ∀ n d, Dict.get? u n = some (.data d) → Numeric d ∧ ∀ v ∈ valuesOfMetric n metrics, ∃ e, v = .data e ∧ Alike e d

private theorem all_data : ∀ {vs : List Val} {d : Datum}, (∀ v ∈ vs, ∃ e, v = .data e ∧ Alike e d) →
    ∃ ds, vs = ds.map .data ∧ (∀ e ∈ ds, Alike e d) ∧ mapE dataOf vs = .ok ds
  | [], _, _ => ⟨[], rfl, by simp, rfl⟩
  | v :: vs, d, h => by
    obtain ⟨e, rfl, he⟩ := h v (by simp)
    obtain ⟨ds, h1, h2, h3⟩ := all_data (vs := vs) (d := d) fun v hv => h v (by simp [hv])
    refine ⟨e :: ds, by rw [h1]; rfl, ?_, ?_⟩
    · intro e' he'
      rcases List.mem_cons.1 he' with rfl | he'
      · exact he
      · exact h2 e' he'
    · simp only [mapE, dataOf, h3]

private theorem confidence_spec {metrics : List (Dict K Val)} {u : Dict K Val} (h : Fits metrics u) {n : K} {d : Datum}
    (hu : Dict.get? u n = some (.data d)) : ∃ r, confidence (valuesOfMetric n metrics) (.data d) = .ok (.res r) ∧
      (∀ p, (r.at p).isSome = (d.at p).isSome) ∧
      ∀ p x, d.at p = some (.num x) → ∃ t, r.at p = some (.dist t) ∧ Result (numbersOf n p metrics) x t := by
  obtain ⟨hn, hv⟩ := h.shapes n d hu
  obtain ⟨ds, h1, h2, h3⟩ := all_data hv
  have hne : ds ≠ [] := by
    rintro rfl
    exact (valuesOfMetric_ne n metrics).2 ((h.keys n).1 ((Dict.mem_keys_iff u n).2 ⟨_, hu⟩)) (by simpa using h1)
  obtain ⟨e, es, rfl⟩ := List.exists_cons_of_ne_nil hne
  obtain ⟨r, g1, g2, g3⟩ := calculate_spec e (e :: es) d rfl h2 hn
  refine ⟨r, by simp only [confidence, h3, g1], g2, ?_⟩
  intro p x hp
  rw [numbersOf_eq h1]
  exact g3 p x hp

private theorem confidences_ok {u : Dict K Val} : ∀ {g : Dict K (List Val)},
    (∀ n vs, (n, vs) ∈ g → ∃ v o, Dict.get? u n = some v ∧ confidence vs v = .ok o) →
    ∃ out, confidences u g = .ok out ∧ Dict.keys out = Dict.keys g ∧
      ∀ n vs, Dict.get? g n = some vs → ∃ v o, Dict.get? u n = some v ∧ confidence vs v = .ok o ∧ Dict.get? out n = some o
  | [], _ => ⟨[], rfl, rfl, by simp [Dict.get?]⟩
  | (k, ws) :: g, h => by
    obtain ⟨v, o, h1, h2⟩ := h k ws (by simp)
    obtain ⟨out, h3, h4, h5⟩ := confidences_ok (g := g) fun n vs hm => h n vs (by simp [hm])
    refine ⟨(k, o) :: out, by simp only [confidences, h1, h2, h3], ?_, ?_⟩
    · simp only [Dict.keys, List.map_cons] at h4 ⊢
      rw [h4]
    · intro n vs hn
      rw [Dict.get?_cons] at hn
      by_cases hk : k = n
      · subst hk
        rw [if_pos rfl, Option.some.injEq] at hn
        subst hn
        exact ⟨v, o, h1, h2, by simp [Dict.get?_cons]⟩
      · rw [if_neg hk] at hn
        obtain ⟨v', o', k1, k2, k3⟩ := h5 n vs hn
        exact ⟨v', o', k1, k2, by rw [Dict.get?_cons, if_neg hk]; exact k3⟩

/-! ## Theorems -/

private theorem merge_spec {metrics : List (Dict K Val)} (h2 : 2 ≤ metrics.length) {u : Dict K Val} (h : Fits metrics u) {k : S}
    {results : Dict S (Dict K Val)} (hu : Dict.get? results k = some u) :
    ∃ out, merge metrics k results = .ok out ∧ out.WF ∧ (∀ n, n ∈ Dict.keys out ↔ n ∈ Dict.keys u) ∧
      (∀ n s, Dict.get? u n = some (.proto s) → Dict.get? out n = some (.asIs (.proto s))) ∧
      ∀ n d, Dict.get? u n = some (.data d) → ∃ r, Dict.get? out n = some (.res r) ∧ (∀ p, (r.at p).isSome = (d.at p).isSome) ∧
        ∀ p x, d.at p = some (.num x) → ∃ t, r.at p = some (.dist t) ∧ Result (numbersOf n p metrics) x t := by
  have hg : ∀ n, n ∈ Dict.keys (groupAll metrics []) ↔ n ∈ Dict.keys u := fun n => by rw [grouped_keys _ h.wf, h.keys]
  have hval : ∀ n vs, Dict.get? (groupAll metrics []) n = some vs → vs = valuesOfMetric n metrics := by
    intro n vs hn
    rw [groupAll_get n metrics h.wf] at hn
    split at hn
    · simp [Dict.get?] at hn
    · simpa [Dict.get?] using hn.symm
  have hwf := groupAll_wf metrics [] Dict.WF_nil
  obtain ⟨out, g1, g2, g3⟩ := confidences_ok (u := u) (g := groupAll metrics []) (by
    intro n vs hm
    have hget := Dict.get?_of_mem hwf hm
    obtain ⟨v, hv⟩ := (Dict.mem_keys_iff u n).1 ((hg n).1 ((Dict.mem_keys_iff _ n).2 ⟨vs, hget⟩))
    cases v with
    | proto s => exact ⟨_, _, hv, rfl⟩
    | data d =>
      obtain ⟨r, k1, _⟩ := confidence_spec h hv
      rw [hval n vs hget]
      exact ⟨_, _, hv, k1⟩)
  have hget : ∀ n v, Dict.get? u n = some v → Dict.get? (groupAll metrics []) n = some (valuesOfMetric n metrics) := by
    intro n v hn
    obtain ⟨vs, hvs⟩ := (Dict.mem_keys_iff _ n).1 ((hg n).2 ((Dict.mem_keys_iff _ n).2 ⟨v, hn⟩))
    rw [hvs, hval n vs hvs]
  refine ⟨out, ?_, ?_, ?_, ?_, ?_⟩
  · obtain ⟨m₁, m₂, ms, rfl⟩ : ∃ m₁ m₂ ms, metrics = m₁ :: m₂ :: ms := by
      match metrics, h2 with
      | m₁ :: m₂ :: ms, _ => exact ⟨m₁, m₂, ms, rfl⟩
    unfold merge
    simp only [hu, Option.getD_some]
    rw [if_neg, g1]
    rw [not_not]
    exact ⟨fun x hx => (hg x).1 hx, fun x hx => (hg x).2 hx⟩
  · unfold Dict.WF
    rw [g2]
    exact hwf
  · intro n
    rw [g2, hg]
  · intro n s hn
    obtain ⟨v, o, k1, k2, k3⟩ := g3 n _ (hget n _ hn)
    rw [hn, Option.some.injEq] at k1
    subst k1
    simp only [confidence, Except.ok.injEq] at k2
    subst k2
    exact k3
  · intro n d hn
    obtain ⟨v, o, k1, k2, k3⟩ := g3 n _ (hget n _ hn)
    rw [hn, Option.some.injEq] at k1
    subst k1
    obtain ⟨r, j1, j2⟩ := confidence_spec h hn
    rw [j1, Except.ok.injEq] at k2
    subst k2
    exact ⟨r, k3, j2⟩

/-- **C142 (the part that holds).**  For a slice which is in several samples, with metrics that fit: the same metrics as in all data are
reported; messages as they are in all data; other metrics with the shape they have there, and each number with mean, standard deviation and
degrees of freedom of the samples that have the metric and a number (not NaN) there, and with the number in all data.
Missing: numbers which are NaN in all samples (`C142_all_nan_fails`), slices in one sample (`C142_one_sample_fails`) or in no sample
(`C142_lost_slice_fails`). -/
theorem C142_slice_partial {metrics : List (Dict K Val)} (h2 : 2 ≤ metrics.length) {u : Dict K Val} (h : Fits metrics u) {k : S}
    {results : Dict S (Dict K Val)} (hu : Dict.get? results k = some u) :
    ∃ out, merge metrics k results = .ok out ∧ out.WF ∧ (∀ n, n ∈ Dict.keys out ↔ n ∈ Dict.keys u) ∧
      (∀ n s, Dict.get? u n = some (.proto s) → Dict.get? out n = some (.asIs (.proto s))) ∧
      ∀ n d, Dict.get? u n = some (.data d) → ∃ r, Dict.get? out n = some (.res r) ∧ (∀ p, (r.at p).isSome = (d.at p).isSome) ∧
        ∀ p x, d.at p = some (.num x) → numbersOf n p metrics ≠ [] →
          ∃ t, r.at p = some (.dist t) ∧ Fit (numbersOf n p metrics) t ∧ t.unsampled = .num x := by
  obtain ⟨out, g1, g2, g3, g4, g5⟩ := merge_spec h2 h hu
  refine ⟨out, g1, g2, g3, g4, fun n d hn => ?_⟩
  obtain ⟨r, k1, k2, k3⟩ := g5 n d hn
  refine ⟨r, k1, k2, fun p x hp hne => ?_⟩
  obtain ⟨t, j1, j2⟩ := k3 p x hp
  exact ⟨t, j1, j2.2 hne⟩

/-- C142 does not hold in full: if a number is NaN in all samples, NaN is reported also in place of the number in all data, with -1 degrees of
freedom. -/
theorem C142_all_nan_fails {metrics : List (Dict K Val)} (h2 : 2 ≤ metrics.length) {u : Dict K Val} (h : Fits metrics u) {k : S}
    {results : Dict S (Dict K Val)} (hu : Dict.get? results k = some u) {n : K} {d : Datum} (hn : Dict.get? u n = some (.data d))
    {p : List ℕ} {x : Option ℝ} (hp : d.at p = some (.num x)) (hnan : numbersOf n p metrics = []) :
    ∃ out r, merge metrics k results = .ok out ∧ Dict.get? out n = some (.res r) ∧ r.at p = some (.dist ⟨none, none, -1, .num none⟩) := by
  obtain ⟨out, g1, _, _, _, g5⟩ := merge_spec h2 h hu
  obtain ⟨r, k1, _, k3⟩ := g5 n d hn
  obtain ⟨t, j1, j2⟩ := k3 p x hp
  rw [j2.1 hnan] at j1
  exact ⟨out, r, g1, k1, j1⟩

/-- C142 does not hold in full: for a slice that is in one sample only, the metrics of that sample are reported, without an interval and
whatever the metrics in all data are. -/
theorem C142_one_sample_fails (m : Dict K Val) (k : S) (results : Dict S (Dict K Val)) :
    merge [m] k results = .ok (m.map fun p => (p.1, .asIs p.2)) := rfl

/-- C142 (refused): a slice whose samples do not have the metrics that there are in all data. -/
theorem C142_refused {metrics : List (Dict K Val)} (h2 : metrics.length ≠ 1) (hw : ∀ m ∈ metrics, m.WF) {k : S}
    {results : Dict S (Dict K Val)} {n : K}
    (hn : ¬ ((∃ m ∈ metrics, n ∈ Dict.keys m) ↔ ∃ u, Dict.get? results k = some u ∧ n ∈ Dict.keys u)) :
    merge metrics k results = .error .valueError := by
  have : merge metrics k results =
      (let grouped := groupAll metrics []
       let unsampled := (Dict.get? results k).getD []
       if ¬ ((∀ x ∈ Dict.keys grouped, x ∈ Dict.keys unsampled) ∧ ∀ x ∈ Dict.keys unsampled, x ∈ Dict.keys grouped) then .error .valueError
       else confidences unsampled grouped) := by
    unfold merge
    split
    · simp at h2
    · rfl
  rw [this]
  simp only
  rw [if_pos]
  rintro ⟨h3, h4⟩
  apply hn
  rw [← grouped_keys metrics hw]
  have hu : n ∈ Dict.keys ((Dict.get? results k).getD []) ↔ ∃ u, Dict.get? results k = some u ∧ n ∈ Dict.keys u := by
    cases Dict.get? results k <;> simp [Dict.keys]
  rw [← hu]
  exact ⟨h3 n, h4 n⟩

private theorem mapE_mem {α β : Type} {f : α → Except Err β} : ∀ {xs : List α} {ys : List β}, mapE f xs = .ok ys →
    ∀ x ∈ xs, ∃ y ∈ ys, f x = .ok y
  | [], _, _, _, hx => by cases hx
  | x :: xs, ys, h, z, hz => by
    unfold mapE at h
    cases hx : f x with
    | error e => rw [hx] at h; cases h
    | ok y =>
      rw [hx] at h
      simp only at h
      cases hs : mapE f xs with
      | error e => rw [hs] at h; cases h
      | ok zs =>
        rw [hs] at h
        cases h
        rcases List.mem_cons.1 hz with rfl | hz
        · exact ⟨y, by simp, hx⟩
        · obtain ⟨w, h1, h2⟩ := mapE_mem hs z hz
          exact ⟨w, by simp [h1], h2⟩

private theorem index_ok {i : ℕ} {d e : Datum} (h : index i d = .ok e) : ∃ xs, d = .arr xs ∧ xs[i]? = some e := by
  cases d with
  | num _ => cases h
  | text _ => cases h
  | arr xs =>
    refine ⟨xs, rfl, ?_⟩
    unfold index at h
    cases hx : xs[i]? with
    | none => simp only [hx] at h; cases h
    | some x => simp only [hx] at h; cases h; rfl

private theorem calculateAll_elem : ∀ (xs : List Datum) (i : ℕ) (samples : List Datum) (u : Datum) (rs : List Res),
    calculateAll xs i samples u = .ok rs → ∀ j x, xs[j]? = some x →
    ∃ col u' r, mapE (index (i + j)) samples = .ok col ∧ index (i + j) u = .ok u' ∧ calculate x col u' = .ok r
  | [], _, _, _, _, _, _, _, hj => by simp at hj
  | x :: xs, i, samples, u, rs, h, j, y, hj => by
    unfold calculateAll at h
    cases h1 : mapE (index i) samples with
    | error e => simp only [h1] at h; cases h
    | ok col =>
      simp only [h1] at h
      cases h2 : index i u with
      | error e => simp only [h2] at h; cases h
      | ok u' =>
        simp only [h2] at h
        cases h3 : calculate x col u' with
        | error e => simp only [h3] at h; cases h
        | ok r =>
          simp only [h3] at h
          cases h4 : calculateAll xs (i + 1) samples u with
          | error e => simp only [h4] at h; cases h
          | ok rs' =>
            cases j with
            | zero =>
              simp only [List.getElem?_cons_zero, Option.some.injEq] at hj
              subst hj
              exact ⟨col, u', r, h1, h2, h3⟩
            | succ j =>
              simp only [List.getElem?_cons_succ] at hj
              have := calculateAll_elem xs (i + 1) samples u rs' h4 j y hj
              rwa [show i + 1 + j = i + (j + 1) by omega] at this

/-- **C142 (shapes).**  If samples are summarised at all, then where the first sample has a number (or anything but an array), each sample
has a number, and there is a value in all data: samples whose arrays are shorter or of other shapes are refused. -/
theorem C142_shapes (p : List ℕ) : ∀ {first : Datum} {samples : List Datum} {u : Datum} {r : Res}, calculate first samples u = .ok r →
    ∀ z, first.at p = some z → (∀ xs, z ≠ .arr xs) → (∀ s ∈ samples, ∃ y, s.at p = some (.num y)) ∧ (u.at p).isSome := by
  induction p with
  | nil =>
    intro first samples u r h z hz hna
    have hz : first = z := by cases first <;> simpa [Datum.at] using hz
    subst hz
    have hs : summary samples u = .ok r := by
      cases first with
      | num _ => unfold calculate at h; exact h
      | text _ => unfold calculate at h; exact h
      | arr xs => exact absurd rfl (hna xs)
    refine ⟨fun s hs' => ?_, by cases u <;> rfl⟩
    unfold summary at hs
    cases hm : mapE number samples with
    | error e => rw [hm] at hs; cases hs
    | ok ys =>
      obtain ⟨y, -, hy⟩ := mapE_mem hm s hs'
      cases s with
      | num x => exact ⟨x, rfl⟩
      | arr _ => cases hy
      | text _ => cases hy
  | cons j p ih =>
    intro first samples u r h z hz hna
    cases first with
    | num _ => cases hz
    | text _ => cases hz
    | arr xs =>
      simp only [Datum.at, Option.bind_eq_some_iff] at hz
      obtain ⟨x, hx, hz⟩ := hz
      unfold calculate at h
      cases ha : calculateAll xs 0 samples u with
      | error e => simp only [ha] at h; cases h
      | ok rs =>
        obtain ⟨col, u', r', h1, h2, h3⟩ := calculateAll_elem xs 0 samples u rs ha j x hx
        rw [Nat.zero_add] at h1 h2
        obtain ⟨h4, h5⟩ := ih h3 z hz hna
        constructor
        · intro s hs
          obtain ⟨y, hy, he⟩ := mapE_mem h1 s hs
          obtain ⟨ys, rfl, hi⟩ := index_ok he
          obtain ⟨w, hw⟩ := h4 y hy
          exact ⟨w, by simp only [Datum.at, hi, Option.bind_some, hw]⟩
        · obtain ⟨ys, rfl, hi⟩ := index_ok h2
          simp only [Datum.at, hi, Option.bind_some, h5]

/-- Arrays of different lengths: the second sample has nothing at index 1. -/
example : ∀ r, calculate (.arr [.num (some 1), .num (some 2)]) [.arr [.num (some 1), .num (some 2)], .arr [.num (some 3)]]
    (.arr [.num (some 1), .num (some 2)]) ≠ .ok r := by
  intro r h
  obtain ⟨y, hy⟩ := (C142_shapes [1] h (.num (some 2)) rfl (by intro xs h; cases h)).1 (.arr [.num (some 3)]) (by simp)
  simp [Datum.at] at hy

/-- **C142 (order of the samples).**  Mean, standard deviation and degrees of freedom depend on the numbers, not on their order. -/
theorem C142_order {vs ws : List ℝ} (hp : vs.Perm ws) (hne : vs ≠ []) {d e : TDist} (hd : Fit vs d) (he : Fit ws e) :
    d.mean = e.mean ∧ d.std = e.std ∧ d.dof = e.dof := by
  have hl := hp.length_eq
  obtain ⟨m, d1, d2, d3, d4⟩ := hd.mean
  obtain ⟨m', e1, e2, e3, e4⟩ := he.mean
  have h0 : vs.length ≠ 0 := by simpa using hne
  have h0' : (vs.length : ℝ) ≠ 0 := by exact_mod_cast h0
  have hm : m = m' := by
    have : (vs.length : ℝ) * m = vs.length * m' := by rw [d2, hl, e2, hp.sum_eq]
    exact mul_left_cancel₀ h0' this
  subst hm
  refine ⟨by rw [d1, e1], ?_, by rw [hd.dof, he.dof, hl]⟩
  by_cases h1 : vs.length = 1
  · rw [d3 h1, e3 (by omega)]
  · obtain ⟨s, s1, s2, s3⟩ := d4 (by omega)
    obtain ⟨s', t1, t2, t3⟩ := e4 (by omega)
    have h3 : ((vs.length : ℝ) - 1) ≠ 0 := by
      intro h
      apply h1
      have : (vs.length : ℝ) = 1 := by linarith
      exact_mod_cast this
    have h4 : ((vs.length : ℝ) - 1) * s ^ 2 = (vs.length - 1) * s' ^ 2 := by
      rw [s3, hl, t3]
      exact (hp.map _).sum_eq
    have h5 : s ^ 2 = s' ^ 2 := mul_left_cancel₀ h3 h4
    have h6 : s = s' := by
      rcases sq_eq_sq_iff_eq_or_eq_neg.1 h5 with h | h
      · exact h
      · linarith
    rw [s1, t1, h6]

/-- **C142 (number of samples).**  Without a number of samples, with 0 and with 1 the metrics in all data are reported; a negative number is
refused. -/
theorem C142_number (unsampled : List (S × Dict K Val)) (sampled : ℕ → List (S × Dict K Val)) (out : Except Err (List (S × Dict K Out)))
    (n : Option ℤ) (h : Computes n unsampled sampled out) :
    (n = none ∨ n = some 0 ∨ n = some 1 → out = .ok (unsampled.map fun p => (p.1, p.2.map fun q => (q.1, .asIs q.2)))) ∧
    (∀ k, n = some k → k < 0 → out = .error .valueError) := by
  refine ⟨?_, ?_⟩
  · rintro (rfl | rfl | rfl) <;> simpa [Computes, numSamples] using h
  · rintro k rfl hk
    have : numSamples (some k) = .error .valueError := by
      have h0 : k ≠ 0 := by omega
      have h1 : k < 1 := by omega
      simp only [numSamples, Option.getD_some, h0, if_false, h1, if_true]
    simpa [Computes, this] using h

private theorem mergeAll_fst {u : Dict S (Dict K Val)} : ∀ {g : List (S × List (Dict K Val))} {out}, mergeAll u g = .ok out →
    List.Forall₂ (fun x y => x.1 = y.1 ∧ merge x.2 x.1 u = .ok y.2) g out
  | [], out, h => by cases h; exact .nil
  | (k, ms) :: g, out, h => by
    simp only [mergeAll] at h
    cases h1 : merge ms k u with
    | error e => rw [h1] at h; cases h
    | ok o =>
      rw [h1] at h
      cases h2 : mergeAll u g with
      | error e => rw [h2] at h; cases h
      | ok os =>
        rw [h2] at h
        cases h
        exact .cons ⟨rfl, h1⟩ (mergeAll_fst h2)

/-- **C142 (slices).**  With at least two samples, each slice that is in a sample is reported once and no other slice; what is reported is
merged from the metrics of the slice in the samples, in some order. -/
theorem C142_slices {n : ℕ} (hn : 2 ≤ n) {unsampled : List (S × Dict K Val)} {sampled : ℕ → List (S × Dict K Val)}
    {out : List (S × Dict K Out)} (h : Computes (some n) unsampled sampled (.ok out)) :
    (out.map Prod.fst).Nodup ∧ (∀ k, k ∈ out.map Prod.fst ↔ ∃ i < n, k ∈ (sampled i).map Prod.fst) ∧
    ∀ k o, (k, o) ∈ out → ∃ ms : List (Dict K Val), ms.Perm (valuesOf k ((List.range n).flatMap sampled)) ∧ merge ms k unsampled = .ok o := by
  have hnum : numSamples (some (n : ℤ)) = .ok n := by
    simp only [numSamples, Option.getD_some]
    rw [if_neg (by omega), if_neg (by omega)]
    simp
  unfold Computes at h
  rw [hnum] at h
  obtain ⟨m, rfl⟩ : ∃ m, n = m + 2 := ⟨n - 2, by omega⟩
  obtain ⟨groups, ⟨h1, h2, h3⟩, h4⟩ := h
  have hf := mergeAll_fst h4.symm
  have hfst : out.map Prod.fst = groups.map Prod.fst := by
    clear h1 h2 h3 h4
    induction hf with
    | nil => rfl
    | cons hx _ ih => simp [ih, hx.1]
  refine ⟨by rw [hfst]; exact h1, ?_, ?_⟩
  · intro k
    rw [hfst, h2]
    simp only [List.mem_map, List.mem_flatMap, List.mem_range]
    constructor
    · rintro ⟨p, ⟨i, hi, hp⟩, rfl⟩
      exact ⟨i, hi, p, hp, rfl⟩
    · rintro ⟨i, hi, p, hp, rfl⟩
      exact ⟨p, ⟨i, hi, hp⟩, rfl⟩
  · intro k o ho
    have : ∃ ms, (k, ms) ∈ groups ∧ merge ms k unsampled = .ok o := by
      clear h1 h2 h3 h4 hfst
      induction hf with
      | nil => simp at ho
      | @cons x y xs ys hx _ ih =>
        rcases List.mem_cons.1 ho with rfl | ho
        · refine ⟨x.2, ?_, ?_⟩
          · have : x = (k, x.2) := by rw [← show x.1 = k from hx.1]
            rw [← this]
            simp
          · rw [show k = x.1 from hx.1.symm]
            exact hx.2
        · obtain ⟨ms, g1, g2⟩ := ih ho
          exact ⟨ms, by simp [g1], g2⟩
    obtain ⟨ms, g1, g2⟩ := this
    exact ⟨ms, h3 k ms g1, g2⟩

end

/-- C142 does not hold in full: a slice with metrics in all data which is in no sample (its examples have been drawn zero times) is not
reported at all. -/
theorem C142_lost_slice_fails : ∃ (unsampled : List (String × Dict String Val)) (sampled : ℕ → List (String × Dict String Val))
    (out : List (String × Dict String Out)), Computes (some 2) unsampled sampled (.ok out) ∧
      "rare" ∈ unsampled.map Prod.fst ∧ "rare" ∉ out.map Prod.fst := by
  refine ⟨[("rare", [("auc", .data (.num (some 1)))])], fun _ => [], [], ?_, by simp, by simp⟩
  refine ⟨[], ⟨by simp, by simp, by simp⟩, rfl⟩

/-! ## Examples -/

/-- Two samples of a slice: the second has NaN where the first has 3. -/
private def samples : List (Dict String Val) :=
  [[("a", .data (.arr [.num (some 1), .num (some 3)])), ("plot", .proto "p")],
   [("plot", .proto "q"), ("a", .data (.arr [.num (some 2), .num none]))]]

/-- The metrics of the slice in all data. -/
private def allData : Dict String Val := [("a", .data (.arr [.num (some 5), .num (some 6)])), ("plot", .proto "r")]

private theorem alike_pairs (a b c d : Option ℝ) : Alike (.arr [.num a, .num b]) (.arr [.num c, .num d]) := by
  intro p
  match p with
  | [] => rfl
  | 0 :: p => cases p <;> rfl
  | 1 :: p => cases p <;> rfl
  | (i + 2) :: p => rfl

private theorem samples_fit : Fits samples allData where
  wf m hm := by
    simp only [samples, List.mem_cons, List.not_mem_nil, or_false] at hm
    rcases hm with rfl | rfl <;> simp [Dict.WF, Dict.keys]
  uwf := by simp [allData, Dict.WF, Dict.keys]
  keys n := by
    simp only [samples, allData, Dict.keys, List.mem_cons, List.not_mem_nil, or_false, List.map_cons, List.map_nil, exists_eq_or_imp,
      exists_eq_left]
    tauto
  shapes n d h := by
    simp only [allData, Dict.get?] at h
    split at h
    · rename_i hn
      subst hn
      simp only [Option.some.injEq, Val.data.injEq] at h
      subst h
      refine ⟨?_, ?_⟩
      · intro p s
        match p with
        | [] => simp [Datum.at]
        | 0 :: p => cases p <;> simp [Datum.at]
        | 1 :: p => cases p <;> simp [Datum.at]
        | (i + 2) :: p => simp [Datum.at]
      · intro v hv
        simp only [valuesOfMetric, samples, Dict.get?, List.filterMap_cons, List.filterMap_nil, if_true] at hv
        rw [if_neg (by decide)] at hv
        simp only [List.mem_cons, List.not_mem_nil, or_false] at hv
        rcases hv with rfl | rfl
        · exact ⟨_, rfl, alike_pairs _ _ _ _⟩
        · exact ⟨_, rfl, alike_pairs _ _ _ _⟩
    · split at h <;> simp at h

/-- The hypotheses of the theorems are met; at the first position there are the numbers 1 and 2, at the second one just 3. -/
example : ∃ out, merge samples "s" [("s", allData)] = .ok out ∧ Dict.get? out "plot" = some (.asIs (.proto "r")) ∧
    ∃ r, Dict.get? out "a" = some (.res r) ∧
      (∃ t, r.at [0] = some (.dist t) ∧ Fit [1, 2] t ∧ t.unsampled = .num (some 5)) ∧
      ∃ t, r.at [1] = some (.dist t) ∧ Fit [3] t ∧ t.unsampled = .num (some 6) := by
  obtain ⟨out, h1, _, _, h4, h5⟩ := C142_slice_partial (k := "s") (results := [("s", allData)]) (by decide) samples_fit
    (by simp [Dict.get?])
  obtain ⟨r, g1, _, g3⟩ := h5 "a" (.arr [.num (some 5), .num (some 6)]) (by simp [allData, Dict.get?])
  have n0 : numbersOf "a" [0] samples = [1, 2] := by
    simp [numbersOf, valuesOfMetric, samples, Dict.get?, Datum.at]
  have n1 : numbersOf "a" [1] samples = [3] := by
    simp [numbersOf, valuesOfMetric, samples, Dict.get?, Datum.at]
  refine ⟨out, h1, h4 "plot" "r" (by simp [allData, Dict.get?]), r, g1, ?_, ?_⟩
  · have := g3 [0] (some 5) (by simp [Datum.at]) (by rw [n0]; simp)
    rwa [n0] at this
  · have := g3 [1] (some 6) (by simp [Datum.at]) (by rw [n1]; simp)
    rwa [n1] at this

/-- A metric which is NaN in both samples is one that `C142_all_nan_fails` is about: 1/2 in all data is replaced by NaN. -/
example : ∃ out r, merge (S := String) [[("a", Val.data (.num none))], [("a", .data (.num none))]] "s"
      [("s", [("a", .data (.num (some (1 / 2))))])] = .ok out ∧
    Dict.get? out "a" = some (.res r) ∧ r.at [] = some (.dist ⟨none, none, -1, .num none⟩) := by
  refine C142_all_nan_fails (u := [("a", .data (.num (some (1 / 2))))]) (d := .num (some (1 / 2))) (by simp) ?_ (by simp [Dict.get?])
    (by simp [Dict.get?]) (p := []) (x := some (1 / 2)) rfl ?_
  · refine ⟨?_, ?_, ?_, ?_⟩
    · intro m hm
      simp only [List.mem_cons, List.not_mem_nil, or_false, or_self] at hm
      subst hm
      simp [Dict.WF, Dict.keys]
    · simp [Dict.WF, Dict.keys]
    · simp [Dict.keys]
    · intro n d h
      simp only [Dict.get?] at h
      split at h
      · rename_i hn
        subst hn
        simp only [Option.some.injEq, Val.data.injEq] at h
        subst h
        refine ⟨?_, ?_⟩
        · intro p s
          cases p <;> simp [Datum.at]
        · intro v hv
          simp only [valuesOfMetric, Dict.get?, List.filterMap_cons, List.filterMap_nil, if_true, List.mem_cons, List.not_mem_nil,
            or_false, or_self] at hv
          subst hv
          refine ⟨_, rfl, ?_⟩
          intro p
          cases p <;> rfl
      · simp at h
  · simp [numbersOf, valuesOfMetric, Dict.get?, Datum.at]

example : merge (S := String) [[("a", Val.data (.num none))], []] "s" [("s", [("b", .data (.num none))])] = .error .valueError :=
  C142_refused (n := "a") (by simp) (by simp [Dict.WF, Dict.keys]) (by simp [Dict.get?, Dict.keys])

example : Fit [1, 2, 3] ⟨some 2, some 1, 2, .num none⟩ ∧ Fit [3, 1, 2] ⟨some 2, some 1, 2, .num none⟩ := by
  refine ⟨⟨rfl, 2, rfl, ?_, by simp, fun _ => ⟨1, rfl, by norm_num, ?_⟩⟩, ⟨rfl, 2, rfl, ?_, by simp, fun _ => ⟨1, rfl, by norm_num, ?_⟩⟩⟩ <;>
    norm_num

/-- A computation with two samples. -/
example : Computes (some 2) [("s", [("a", Val.data (.num (some 1)))])] (fun i => if i = 0 then [("s", [("a", Val.data (.num (some 2)))])] else [])
    (.ok [("s", [("a", .asIs (.data (.num (some 2))))])]) := by
  refine ⟨[("s", [[("a", Val.data (.num (some 2)))]])], ⟨by simp, ?_, ?_⟩, rfl⟩
  · simp [List.range_succ]
  · simp [List.range_succ, valuesOf]

end LegacyBootstrap
end TFMA
