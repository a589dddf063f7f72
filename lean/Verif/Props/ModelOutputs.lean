import Verif.Lemmas.ModelOutputs
import Verif.Lemmas.LegacyPredict
import Mathlib.Tactic.IntervalCases

/-!
# C153: what is kept of the outputs of models

The outputs of the signatures of the loaded models are made dense without moving a value, and are stored under the name of the model
and of the output.
-/

namespace TFMA
namespace ModelOutputs

open Tensors TensorSpecs

variable {α M : Type}

/-! ### specification -/

/-- An index of an array of that shape. -/
def InShape (shape ix : List ℕ) : Prop := List.Forall₂ (· < ·) ix shape

/-- Where an index is among the values in row-major order. -/
def offset : List ℕ → List ℕ → ℕ
  | _ :: ds, i :: is => i * ds.prod + offset ds is
  | _, _ => 0

/-- The value of an array at an index. -/
def valueAt (a : Arr α) (ix : List ℕ) : Option α := a.2[offset a.1 ix]?

/-- The value a ragged tensor has in row `p`, at the index `ix` within the row, if it has one. -/
def raggedAt (values : List α) : List (List ℕ) → ℕ → List ℕ → Option α
  | [], p, [] => values[p]?
  | s :: rest, p, j :: js => if s.getD p 0 + j < s.getD (p + 1) 0 then raggedAt values rest (s.getD p 0 + j) js else none
  | _, _, _ => none

/-- `h` is the length of the longest row of the row splits `s`. -/
def IsWidth (s : List ℕ) (h : ℕ) : Prop :=
  (∀ p, p < s.length - 1 → s.getD (p + 1) 0 - s.getD p 0 ≤ h) ∧
    ((s.length ≤ 1 ∧ h = 0) ∨ ∃ p, p < s.length - 1 ∧ s.getD (p + 1) 0 - s.getD p 0 = h)

/-- The array `a` is the tensor made dense. -/
def IsDense (zero : α) : Tensor α → Arr α → Prop
  | .dense shape data, a => a = (shape, data)
  | .sparse t, a => a.1 = t.denseShape ∧ a.2.length = t.denseShape.prod ∧
      (∀ e ∈ t.indices.zip t.values, valueAt a e.1 = some e.2) ∧
      ∀ ix, InShape t.denseShape ix → ix ∉ t.indices → valueAt a ix = some zero
  | .ragged t, a => ∃ dims, a.1 = nrows t.values t.splits :: dims ∧ List.Forall₂ IsWidth t.splits dims ∧
      a.2.length = a.1.prod ∧
      ∀ p js, InShape a.1 (p :: js) → valueAt a (p :: js) = some ((raggedAt t.values t.splits p js).getD zero)

/-- The tensor is one TensorFlow can hold. -/
def TensorOk : Tensor α → Prop
  | .dense shape data => data.length = shape.prod
  | .sparse t => t.indices.length = t.values.length ∧ ∀ ix ∈ t.indices, ix.length = t.denseShape.length
  | .ragged t => raggedOk t.values t.splits = true

/-- The tensor can be made dense: the entries of a sparse one are within its shape and in order, each index once. -/
def Densifiable : Tensor α → Prop
  | .sparse t => (∀ ix ∈ t.indices, InShape t.denseShape ix) ∧ t.indices.Pairwise (List.Lex (· < ·))
  | _ => True

theorem offset_eq (ds is : List ℕ) : offset ds is = flat ds is := by
  induction ds generalizing is with
  | nil => cases is <;> rfl
  | cons d ds ih => cases is <;> simp [offset, flat, ih]

private theorem densify_spec (zero : α) (values : List α) (splits : List (List ℕ)) (hok : raggedOk values splits = true) :
    (densify zero values splits).2.length = nrows values splits ∧
    (∀ x ∈ (densify zero values splits).2, x.length = (densify zero values splits).1.prod) ∧
    List.Forall₂ IsWidth splits (densify zero values splits).1 ∧
    ∀ p js, p < nrows values splits → InShape (densify zero values splits).1 js →
      (densify zero values splits).2[p]?.bind (fun x => x[offset (densify zero values splits).1 js]?)
        = some ((raggedAt values splits p js).getD zero) := by
  induction splits with
  | nil =>
    refine ⟨by simp [densify, nrows], by simp [densify], by simp [densify], ?_⟩
    intro p js hp hj
    cases hj
    simp only [nrows] at hp
    simp [densify, offset, raggedAt, hp]
  | cons s rest ih =>
    simp only [raggedOk, Bool.and_eq_true] at hok
    obtain ⟨hs, hr⟩ := hok
    obtain ⟨hlen, hall, hw, hval⟩ := ih hr
    generalize hd : densify zero values rest = r at hlen hall hw hval
    have hsl : splitsOk s r.2.length = true := by rw [hlen]; exact hs
    have hgl : ∀ g ∈ groups s r.2, ∀ x ∈ g, x.length = r.1.prod := by
      intro g hg x hx
      simp only [groups, List.mem_map] at hg
      obtain ⟨q, _, rfl⟩ := hg
      exact hall x (List.mem_of_mem_drop (List.mem_of_mem_take hx))
    have hunf : densify zero values (s :: rest)
        = (longest (groups s r.2) :: r.1, (groups s r.2).map (padRow zero (longest (groups s r.2)) r.1.prod)) := by
      simp only [densify, hd]
    rw [hunf]
    refine ⟨by simp [groups_length, nrows], ?_, ?_, ?_⟩
    · intro x hx
      simp only [List.mem_map] at hx
      obtain ⟨g, hg, rfl⟩ := hx
      rw [padRow_length _ _ _ _ (hgl g hg) (le_longest _ g hg), List.prod_cons]
    · refine .cons ⟨?_, ?_⟩ hw
      · intro p hp
        rw [← group_length s r.2 hsl p hp]
        exact le_longest _ _ (List.mem_of_getElem? (groups_get s r.2 p hp))
      · by_cases hn : s.length ≤ 1
        · left
          refine ⟨hn, ?_⟩
          have : groups s r.2 = [] := List.length_eq_zero_iff.1 (by rw [groups_length]; omega)
          rw [this]; rfl
        · right
          have hne : groups s r.2 ≠ [] := by
            intro h
            have := groups_length s r.2
            rw [h] at this
            simp at this
            omega
          obtain ⟨g, hg, hgl'⟩ := longest_mem _ hne
          obtain ⟨p, hp⟩ := List.mem_iff_getElem?.1 hg
          have hp' : p < s.length - 1 := by
            rw [← groups_length s r.2]
            exact (List.getElem?_eq_some_iff.1 hp).1
          refine ⟨p, hp', ?_⟩
          rw [groups_get s r.2 p hp'] at hp
          have hp2 := Option.some.inj hp
          rw [← hgl', ← hp2, group_length s r.2 hsl p hp']
    · intro p js hp hj
      simp only [nrows] at hp
      cases hj with
      | @cons j _ js _ hjl hjs =>
        have hlt := flat_lt _ _ hjs
        rw [← offset_eq] at hlt
        simp only [List.getElem?_map, groups_get s r.2 p hp, Option.map_some, Option.bind_some, offset]
        have hmem := hgl _ (List.mem_of_getElem? (groups_get s r.2 p hp))
        rw [padRow_get _ _ _ _ hmem j _ hjl hlt, group_length s r.2 hsl p hp]
        simp only [raggedAt]
        by_cases hin : s.getD p 0 + j < s.getD (p + 1) 0
        · rw [if_pos (by omega), if_pos hin]
          have hle : s.getD (p + 1) 0 ≤ nrows values rest := by
            apply splits_le s _ hs
            rw [List.getD_eq_getElem?_getD, List.getElem?_eq_getElem (by omega)]
            simp
          rw [List.getElem?_take_of_lt (by omega), List.getElem?_drop]
          exact hval _ js (by omega) hjs
        · rw [if_neg (by omega), if_neg hin]
          rfl

/-- **C153** (dense): a tensor that can be held and made dense has at each index the value the tensor has there, and zero where it has
none; the size of a ragged dimension is the length of its longest row. -/
theorem C153_dense (zero : α) (t : Tensor α) (hok : TensorOk t) (a : Arr α) (h : toDense zero t = .ok a) : IsDense zero t a := by
  cases t with
  | dense shape data => simp only [toDense, Except.ok.injEq] at h; exact h.symm
  | sparse t =>
    simp only [toDense] at h
    split_ifs at h with hc
    simp only [Except.ok.injEq] at h
    subst h
    simp only [Bool.and_eq_true, List.all_eq_true] at hc
    obtain ⟨hb, hi⟩ := hc
    rw [increasing_iff] at hi
    have hnd : t.indices.Nodup := by
      refine hi.imp ?_
      intro x y hxy e
      subst e
      exact (List.lex_irrefl (fun n => Nat.lt_irrefl n) x) hxy
    have hfst : (t.indices.zip t.values).map Prod.fst = t.indices := by
      rw [List.map_fst_zip]
      exact le_of_eq hok.1
    have hbz : ∀ e ∈ t.indices.zip t.values, List.Forall₂ (· < ·) e.1 t.denseShape := fun e he =>
      (within_iff _ _).1 (hb _ (List.of_mem_zip he).1)
    refine ⟨rfl, by simp [scatter_length], ?_, ?_⟩
    · intro e he
      simp only [valueAt, offset_eq]
      exact scatter_entry _ _ _ (by simp) hbz (by rw [hfst]; exact hnd) e he
    · intro ix hix hn
      simp only [valueAt, offset_eq]
      rw [scatter_other]
      · rw [List.getElem?_replicate, if_pos (flat_lt _ _ hix)]
      · intro e he hf
        have := flat_inj _ _ _ (hbz e he) hix hf
        exact hn (this ▸ (List.of_mem_zip he).1)
  | ragged t =>
    simp only [toDense, Except.ok.injEq] at h
    subst h
    obtain ⟨hlen, hall, hw, hval⟩ := densify_spec zero t.values t.splits hok
    refine ⟨_, by rw [hlen], hw, ?_, ?_⟩
    · rw [flatten_length _ _ hall, List.prod_cons]
    · intro p js hix
      cases hix with
      | cons hp hjs =>
        have hlt := flat_lt _ _ hjs
        rw [← offset_eq] at hlt
        simp only [valueAt, offset]
        rw [flatten_get _ _ hall _ _ hlt]
        exact hval p js (by rw [← hlen]; exact hp) hjs

/-- **C153** (dense, accepted): only a sparse tensor whose entries are out of its shape or out of order cannot be made dense. -/
theorem C153_dense_accepted (zero : α) (t : Tensor α) : (∃ a, toDense zero t = .ok a) ↔ Densifiable t := by
  cases t with
  | dense shape data => simp [toDense, Densifiable]
  | ragged t => simp [toDense, Densifiable]
  | sparse t =>
    have : (t.indices.all (within t.denseShape) && increasing t.indices) = true ↔ Densifiable (.sparse t) := by
      simp only [Bool.and_eq_true, List.all_eq_true, increasing_iff, within_iff, Densifiable, InShape]
    rw [← this]
    simp only [toDense]
    split_ifs with hc <;> simp [hc]

/-! ### one signature -/

/-- The first dimension of a tensor. -/
def firstDim : Tensor α → Option ℕ
  | .dense shape _ => shape.head?
  | .sparse t => t.denseShape.head?
  | .ragged t => some (nrows t.values t.splits)

/-- An output that is accepted: it can be made dense and has a row per example. -/
def OutOk (n : ℕ) (t : Tensor α) : Prop := Densifiable t ∧ firstDim t = some n

/-- An accepted output and the array it is kept as. -/
def KeptAs (zero : α) (n : ℕ) (t : Tensor α) (a : Arr α) : Prop := OutOk n t ∧ (TensorOk t → IsDense zero t a)

/-- The outputs of a signature and the arrays they are kept as: under their names, or under the name of the signature. -/
def KeptOuts (zero : α) (n : ℕ) (name : String) : Outs α → Dict String (Arr α) → Prop
  | .one t, d => ∃ a, d = [(name, a)] ∧ KeptAs zero n t a
  | .named o, d => List.Forall₂ (fun p q => q.1 = p.1 ∧ KeptAs zero n p.2 q.2) o d

/-- The answers of a model to the signatures asked for, in order. One it does not have is passed over unless it is required. -/
inductive Answers (zero : α) (n : ℕ) (call : Call M α) (m : M) (required : Bool) :
    List String → List (Dict String (Arr α)) → Prop
  | none : Answers zero n call m required [] []
  | missing (s : String) (rest : List String) (ds : List (Dict String (Arr α))) : call m s required = .ok Option.none →
      required = false → Answers zero n call m required rest ds → Answers zero n call m required (s :: rest) ds
  | answer (s name : String) (o : Outs α) (d : Dict String (Arr α)) (rest : List String) (ds : List (Dict String (Arr α))) :
      call m s required = .ok (some (name, o)) → KeptOuts zero n name o d → Answers zero n call m required rest ds →
      Answers zero n call m required (s :: rest) (d :: ds)

/-- The output `k` of the last answer that has one. -/
def latest (ds : List (Dict String (Arr α))) (k : String) : Option (Arr α) := ds.reverse.findSome? fun d => d.get? k

/-- `k` is the only name of an output. -/
def Sole (ds : List (Dict String (Arr α))) (k : String) : Prop :=
  (∃ d ∈ ds, k ∈ Dict.keys d) ∧ ∀ d ∈ ds, ∀ k' ∈ Dict.keys d, k' = k

/-- What is stored of the answers of a model: the outputs by name, the latest of each name; a single one without its name, unless
dictionaries are preferred. -/
def StoredAs (preferDict : Bool) (ds : List (Dict String (Arr α))) (sub : Tree (Arr α)) : Prop :=
  (preferDict = false → ∀ k, Sole ds k → ∃ a, latest ds k = some a ∧ sub = .leaf a) ∧
  ((preferDict = true ∨ ¬ ∃ k, Sole ds k) → ∃ f, sub = .node f ∧ ∀ k, f.find? k = (latest ds k).map .leaf)

private theorem densify_length (zero : α) (values : List α) (splits : List (List ℕ)) :
    (densify zero values splits).2.length = nrows values splits := by
  cases splits with
  | nil => simp [densify, nrows]
  | cons s rest => simp [densify, nrows, groups_length]

private theorem denseOne_ok (zero : α) (n : ℕ) (t : Tensor α) (a : Arr α) (h : denseOne zero n t = .ok a) : KeptAs zero n t a := by
  unfold denseOne at h
  split at h
  · simp at h
  · next b hb =>
    split at h
    · simp at h
    · next hc =>
      simp only [Except.ok.injEq] at h
      subst h
      refine ⟨⟨(C153_dense_accepted zero t).1 ⟨b, hb⟩, ?_⟩, fun hok => C153_dense zero t hok b hb⟩
      have hh : b.1.head? = some n := by
        unfold checkFirst at hc
        split at hc
        · simp at hc
        · next m _ he =>
          split_ifs at hc with hne
          rw [he]
          simp only [List.head?_cons, Option.some.injEq]
          exact not_not.1 hne
      cases t with
      | dense shape data => simp only [toDense, Except.ok.injEq] at hb; subst hb; exact hh
      | sparse t =>
        simp only [toDense] at hb
        split_ifs at hb
        simp only [Except.ok.injEq] at hb
        subst hb
        exact hh
      | ragged t =>
        simp only [toDense, Except.ok.injEq] at hb
        subst hb
        simpa [firstDim, densify_length] using hh

private theorem denseOne_of (zero : α) (n : ℕ) (t : Tensor α) (h : OutOk n t) : ∃ a, denseOne zero n t = .ok a := by
  obtain ⟨b, hb⟩ := (C153_dense_accepted zero t).2 h.1
  refine ⟨b, ?_⟩
  have hh : b.1.head? = some n := by
    have h2 := h.2
    cases t with
    | dense shape data => simp only [toDense, Except.ok.injEq] at hb; subst hb; exact h2
    | sparse t =>
      simp only [toDense] at hb
      split_ifs at hb
      simp only [Except.ok.injEq] at hb
      subst hb
      exact h2
    | ragged t =>
      simp only [toDense, Except.ok.injEq] at hb
      subst hb
      simpa [firstDim, densify_length] using h2
  have hc : checkFirst n b = .ok () := by
    unfold checkFirst
    split
    · next he => rw [he] at hh; simp at hh
    · next m _ he =>
      rw [he] at hh
      simp only [List.head?_cons, Option.some.injEq] at hh
      simp [hh]
  unfold denseOne
  rw [hb]
  simp only [hc]

private theorem outs_ok (zero : α) (n : ℕ) (name : String) (o : Outs α) (d : Dict String (Arr α))
    (h : toDenseOutputs zero n name o = .ok d) : KeptOuts zero n name o d := by
  cases o with
  | one t =>
    simp only [toDenseOutputs] at h
    split at h
    · simp at h
    · next a ha =>
      simp only [Except.ok.injEq] at h
      exact ⟨a, h.symm, denseOne_ok zero n t a ha⟩
  | named o =>
    simp only [toDenseOutputs] at h
    simp only [KeptOuts]
    induction o generalizing d with
    | nil => simp only [denseNamed, Except.ok.injEq] at h; subst h; exact .nil
    | cons p o ih =>
      obtain ⟨k, t⟩ := p
      simp only [denseNamed] at h
      split at h
      · simp at h
      · next a ha =>
        split at h
        · simp at h
        · next d' hd' =>
          simp only [Except.ok.injEq] at h
          subst h
          exact .cons ⟨rfl, denseOne_ok zero n t a ha⟩ (ih d' hd')

private theorem outs_of (zero : α) (n : ℕ) (name : String) (o : Outs α) (d : Dict String (Arr α))
    (h : KeptOuts zero n name o d) : ∃ d', toDenseOutputs zero n name o = .ok d' := by
  cases o with
  | one t =>
    obtain ⟨a, _, h⟩ := h
    obtain ⟨b, hb⟩ := denseOne_of zero n t h.1
    exact ⟨[(name, b)], by simp only [toDenseOutputs, hb]⟩
  | named o =>
    simp only [toDenseOutputs]
    simp only [KeptOuts] at h
    induction h with
    | nil => exact ⟨[], rfl⟩
    | @cons p q o d hp _ ih =>
      obtain ⟨d', hd'⟩ := ih
      obtain ⟨b, hb⟩ := denseOne_of zero n p.2 hp.2.1
      exact ⟨(p.1, b) :: d', by simp only [denseNamed, hb, hd']⟩

private theorem keys_kept (zero : α) (n : ℕ) (name : String) (o : Outs α) (d : Dict String (Arr α))
    (h : KeptOuts zero n name o d) (hwf : ∀ o', o = .named o' → o'.WF) : d.WF := by
  cases o with
  | one t => obtain ⟨a, rfl, _⟩ := h; simp [Dict.WF, Dict.keys]
  | named o =>
    have hw := hwf o rfl
    simp only [KeptOuts] at h
    have : Dict.keys d = Dict.keys o := by
      clear hw hwf
      induction h with
      | nil => rfl
      | cons hp _ ih => simp [Dict.keys] at ih ⊢; exact ⟨hp.1, ih⟩
    simpa [Dict.WF, this] using hw

/-- What a model has after the answers `ds`. -/
private def after (acc : Option (Dict String (Arr α))) (ds : List (Dict String (Arr α))) : Option (Dict String (Arr α)) :=
  match ds with
  | [] => acc
  | d :: ds => some ((d :: ds).foldl Dict.update (acc.getD []))

private theorem loop_ok (zero : α) (n : ℕ) (call : Call M α) (m : M) (required : Bool) (sigs : List String)
    (acc r : Option (Dict String (Arr α))) (h : signatureLoop zero n call m required sigs acc = .ok r) :
    ∃ ds, Answers zero n call m required sigs ds ∧ r = after acc ds := by
  induction sigs generalizing acc with
  | nil => simp only [signatureLoop, Except.ok.injEq] at h; exact ⟨[], .none, h.symm⟩
  | cons s rest ih =>
    simp only [signatureLoop] at h
    split at h
    · simp at h
    · next hc =>
      split_ifs at h with hr
      obtain ⟨ds, hd, e⟩ := ih _ h
      exact ⟨ds, .missing s rest ds hc (by simpa using hr) hd, e⟩
    · next name o hc =>
      split at h
      · simp at h
      · next d hd =>
        obtain ⟨ds, hds, e⟩ := ih _ h
        refine ⟨d :: ds, .answer s name o d rest ds hc (outs_ok zero n name o d hd) hds, ?_⟩
        subst e
        cases ds <;> simp [after]

private theorem loop_of (zero : α) (n : ℕ) (call : Call M α) (m : M) (required : Bool) (sigs : List String)
    (ds : List (Dict String (Arr α))) (h : Answers zero n call m required sigs ds) (acc : Option (Dict String (Arr α))) :
    ∃ r, signatureLoop zero n call m required sigs acc = .ok r := by
  induction h generalizing acc with
  | none => exact ⟨acc, rfl⟩
  | missing s rest ds hc hr _ ih =>
    obtain ⟨r, hr'⟩ := ih acc
    exact ⟨r, by simp only [signatureLoop, hc]; simp [hr, ← hr']⟩
  | answer s name o d rest ds hc hk _ ih =>
    obtain ⟨d', hd'⟩ := outs_of zero n name o d hk
    obtain ⟨r, hr'⟩ := ih (some (Dict.update (acc.getD []) d'))
    exact ⟨r, by simp only [signatureLoop, hc, hd', hr']⟩

/-! ### models -/

/-- The answers of a loaded model: to its own signatures, all of them required, or to the default ones. -/
def ModelAnswers (zero : α) (n : ℕ) (call : Call M α) (signatures : Dict String (List String)) (defaults : List String)
    (p : String × M) (ds : List (Dict String (Arr α))) : Prop :=
  ∃ own, signatures.get? p.1 = some own ∧
    ((own ≠ [] ∧ Answers zero n call p.2 true own ds) ∨ (own = [] ∧ Answers zero n call p.2 false defaults ds))

private theorem models_ok (zero : α) (n : ℕ) (call : Call M α) (signatures : Dict String (List String)) (defaults : List String)
    (loaded : Dict String M) (per : Dict String (Dict String (Arr α)))
    (h : modelLoop zero n call signatures defaults loaded = .ok per) :
    ∃ ans, List.Forall₂ (ModelAnswers zero n call signatures defaults) loaded ans ∧
      per = (loaded.zip ans).filterMap fun q => (after none q.2).map fun d => (q.1.1, d) := by
  induction loaded generalizing per with
  | nil => simp only [modelLoop, Except.ok.injEq] at h; exact ⟨[], .nil, by simp [← h]⟩
  | cons p loaded ih =>
    obtain ⟨name, m⟩ := p
    simp only [modelLoop] at h
    split at h
    · simp at h
    · next own ho =>
      split at h
      · simp at h
      · next d hd =>
        split at h
        · simp at h
        · next per' hp =>
          obtain ⟨ans, ha, e⟩ := ih per' hp
          obtain ⟨ds, hds, e'⟩ := loop_ok _ _ _ _ _ _ _ _ hd
          refine ⟨ds :: ans, .cons ⟨own, ho, ?_⟩ ha, ?_⟩
          · cases own with
            | nil => right; exact ⟨rfl, by simpa using hds⟩
            | cons x own => left; exact ⟨by simp, by simpa using hds⟩
          · subst e'
            simp only [List.zip_cons_cons, List.filterMap_cons]
            cases hx : after none ds with
            | none => rw [hx] at h; simp only [Except.ok.injEq] at h; rw [← h]; simpa using e
            | some d => rw [hx] at h; simp only [Except.ok.injEq] at h; rw [← h]; simpa using e

private theorem models_of (zero : α) (n : ℕ) (call : Call M α) (signatures : Dict String (List String)) (defaults : List String)
    (loaded : Dict String M) (h : ∀ p ∈ loaded, ∃ ds, ModelAnswers zero n call signatures defaults p ds) :
    ∃ per, modelLoop zero n call signatures defaults loaded = .ok per := by
  induction loaded with
  | nil => exact ⟨[], rfl⟩
  | cons p loaded ih =>
    obtain ⟨per, hp⟩ := ih (fun q hq => h q (by simp [hq]))
    obtain ⟨ds, own, ho, hds⟩ := h p (by simp)
    obtain ⟨name, m⟩ := p
    have : ∃ r, signatureLoop zero n call m (!own.isEmpty) (if own.isEmpty then defaults else own) none = .ok r := by
      rcases hds with ⟨hn, hds⟩ | ⟨hn, hds⟩
      · cases own with
        | nil => exact absurd rfl hn
        | cons x own => simpa using loop_of _ _ _ _ _ _ _ hds none
      · subst hn; simpa using loop_of _ _ _ _ _ _ _ hds none
    obtain ⟨r, hr⟩ := this
    cases r with
    | none => exact ⟨per, by simp only [modelLoop, ho, hr, hp]⟩
    | some d => exact ⟨(name, d) :: per, by simp only [modelLoop, ho, hr, hp]⟩

/-- **C153** (accepted): outputs are stored iff a model is loaded and every model answers: it has every signature of its own, and each
output can be made dense and has a row per example. -/
theorem C153_accepted (zero : α) (n : ℕ) (call : Call M α) (signatures : Dict String (List String)) (defaults : List String)
    (preferDict : Bool) (loaded : Dict String M) :
    (∃ t, process zero n call signatures defaults preferDict loaded = .ok t) ↔
      loaded ≠ [] ∧ ∀ p ∈ loaded, ∃ ds, ModelAnswers zero n call signatures defaults p ds := by
  constructor
  · rintro ⟨t, h⟩
    unfold process at h
    split_ifs at h with hl
    split at h
    · simp at h
    · next per hp =>
      refine ⟨by simpa using hl, ?_⟩
      obtain ⟨ans, ha, -⟩ := models_ok _ _ _ _ _ _ _ hp
      intro p hp'
      clear hp hl h
      induction ha with
      | nil => simp at hp'
      | cons hq _ ih =>
        rcases List.mem_cons.1 hp' with e | hp'
        · subst e; exact ⟨_, hq⟩
        · exact ih hp'
  · rintro ⟨hl, h⟩
    obtain ⟨per, hp⟩ := models_of _ _ _ _ _ _ h
    refine ⟨layout preferDict per, ?_⟩
    unfold process
    rw [if_neg (by simpa using hl), hp]

private theorem latest_append (ds : List (Dict String (Arr α))) (d : Dict String (Arr α)) (k : String) :
    latest (ds ++ [d]) k = (d.get? k).or (latest ds k) := by
  simp only [latest, List.reverse_append, List.reverse_cons, List.reverse_nil, List.nil_append, List.singleton_append,
    List.findSome?_cons]
  cases d.get? k <;> simp

private theorem fold_spec (ds : List (Dict String (Arr α))) (hwf : ∀ d ∈ ds, d.WF) :
    (ds.foldl Dict.update []).WF ∧ ∀ k, (ds.foldl Dict.update []).get? k = latest ds k := by
  induction ds using List.reverseRecOn with
  | nil => exact ⟨Dict.WF_nil, fun k => by simp [latest]⟩
  | append_singleton ds d ih =>
    obtain ⟨h1, h2⟩ := ih (fun x hx => hwf x (by simp [hx]))
    rw [List.foldl_append, List.foldl_cons, List.foldl_nil]
    refine ⟨LegacyPredict.WF_update d _ h1, fun k => ?_⟩
    rw [latest_append, ← h2 k]
    have := LegacyPredict.get?_update_aux d (ds.foldl Dict.update []) k (hwf d (by simp))
    rw [this]

private theorem answers_wf (zero : α) (n : ℕ) (call : Call M α) (m : M) (required : Bool) (sigs : List String)
    (ds : List (Dict String (Arr α))) (hcall : ∀ s r name o, call m s r = .ok (some (name, .named o)) → o.WF)
    (h : Answers zero n call m required sigs ds) : ∀ d ∈ ds, d.WF := by
  induction h with
  | none => simp
  | missing _ _ _ _ _ _ ih => exact ih
  | answer s name o d rest ds hc hk _ ih =>
    intro x hx
    rcases List.mem_cons.1 hx with e | hx
    · subst e
      exact keys_kept zero n name o x hk (fun o' e => hcall s required name o' (by rw [hc, e]))
    · exact ih x hx

private theorem mem_keys_latest (ds : List (Dict String (Arr α))) (k : String) :
    (∃ a, latest ds k = some a) ↔ ∃ d ∈ ds, k ∈ Dict.keys d := by
  rw [← Option.isSome_iff_exists, latest, List.findSome?_isSome_iff]
  simp only [List.mem_reverse, Dict.mem_keys_iff, Option.isSome_iff_exists]

private theorem squeeze_spec (preferDict : Bool) (ds : List (Dict String (Arr α))) (hwf : ∀ d ∈ ds, d.WF) :
    StoredAs preferDict ds (squeeze preferDict (ds.foldl Dict.update [])) := by
  obtain ⟨h1, h2⟩ := fold_spec ds hwf
  generalize ds.foldl Dict.update [] = d at h1 h2
  have hk : ∀ k, k ∈ Dict.keys d ↔ ∃ x ∈ ds, k ∈ Dict.keys x := fun k => by
    rw [Dict.mem_keys_iff, ← mem_keys_latest]; simp only [h2]
  have hnode : ∀ k, (forestOf (d.map fun p => (p.1, Tree.leaf p.2))).find? k = (latest ds k).map .leaf := fun k => by
    rw [find?_forestOf, get?_map Tree.leaf d k, h2]
  have hsole : ∀ k, Sole ds k → ∃ a, d = [(k, a)] := by
    intro k hs
    have hmem := (hk k).2 hs.1
    have hall : ∀ k' ∈ Dict.keys d, k' = k := fun k' hk' => by
      obtain ⟨x, hx, hx'⟩ := (hk k').1 hk'
      exact hs.2 x hx k' hx'
    match d, h1, hmem, hall with
    | [], _, hmem, _ => simp [Dict.keys] at hmem
    | [(k', a)], _, _, hall => exact ⟨a, by rw [hall k' (by simp [Dict.keys])]⟩
    | (k1, a1) :: (k2, a2) :: rest, h1, _, hall =>
      have e1 := hall k1 (by simp [Dict.keys])
      have e2 := hall k2 (by simp [Dict.keys])
      simp [Dict.WF, Dict.keys, e1, e2] at h1
  constructor
  · rintro rfl k hs
    obtain ⟨a, e⟩ := hsole k hs
    subst e
    refine ⟨a, ?_, by simp [squeeze]⟩
    rw [← h2 k]
    simp [Dict.get?_cons]
  · intro hc
    refine ⟨forestOf (d.map fun p => (p.1, Tree.leaf p.2)), ?_, hnode⟩
    match d, hk, hc with
    | [], _, _ => rfl
    | [(k, a)], hk, hc =>
      rcases hc with rfl | hc
      · simp [squeeze]
      · exfalso
        apply hc
        refine ⟨k, (hk k).1 (by simp [Dict.keys]), ?_⟩
        intro x hx k' hk'
        simpa [Dict.keys] using (hk k').2 ⟨x, hx, hk'⟩
    | _ :: _ :: _, _, _ => rfl

/-- **C153** (partial): every model that answers has its outputs stored, each one dense and under its name — the latest, if several
signatures give outputs of the same name — below the name of the model unless no other model answers. Missing from the full claim: an
output that another signature names too, and the name of a model that alone answers, are lost. -/
theorem C153_outputs_partial (zero : α) (n : ℕ) (call : Call M α) (signatures : Dict String (List String)) (defaults : List String)
    (preferDict : Bool) (loaded : Dict String M) (hl : loaded.WF)
    (hcall : ∀ m s r name o, call m s r = .ok (some (name, .named o)) → o.WF) (t : Tree (Arr α))
    (h : process zero n call signatures defaults preferDict loaded = .ok t) :
    ∃ ans, List.Forall₂ (ModelAnswers zero n call signatures defaults) loaded ans ∧
      ∀ p ds, (p, ds) ∈ loaded.zip ans →
        (ds ≠ [] → ∃ sub, t.at? (if (ans.filter fun x => !x.isEmpty).length = 1 then [] else [p.1]) = some sub ∧
          StoredAs preferDict ds sub) ∧
        (ds = [] → (ans.filter fun x => !x.isEmpty).length ≠ 1 → t.at? [p.1] = none) := by
  unfold process at h
  split_ifs at h with hne
  split at h
  · simp at h
  next per hp =>
  simp only [Except.ok.injEq] at h
  subst h
  obtain ⟨ans, ha, e⟩ := models_ok _ _ _ _ _ _ _ hp
  refine ⟨ans, ha, ?_⟩
  have hwf : ∀ p ds, (p, ds) ∈ loaded.zip ans → ∀ d ∈ ds, d.WF := by
    intro p ds hm
    have : ModelAnswers zero n call signatures defaults p ds := by
      clear hp e hl hne
      induction ha with
      | nil => simp at hm
      | cons hq _ ih =>
        simp only [List.zip_cons_cons, List.mem_cons, Prod.mk.injEq] at hm
        rcases hm with ⟨rfl, rfl⟩ | hm
        · exact hq
        · exact ih hm
    obtain ⟨own, _, ⟨_, h⟩ | ⟨_, h⟩⟩ := this
    · exact answers_wf _ _ _ _ _ _ _ (hcall p.2) h
    · exact answers_wf _ _ _ _ _ _ _ (hcall p.2) h
  have hlen : per.length = (ans.filter fun x => !x.isEmpty).length := by
    clear hwf hp hl hne
    subst e
    induction ha with
    | nil => rfl
    | @cons p ds _ _ _ _ ih =>
      cases ds with
      | nil => simpa [after] using ih
      | cons d ds => simpa [after] using ih
  have hget : ∀ p ds, (p, ds) ∈ loaded.zip ans → per.get? p.1 = after none ds := by
    clear hwf hp hlen hne
    subst e
    intro p ds hm
    induction ha with
    | nil => simp at hm
    | @cons q es l1 l2 _ hr ih =>
      obtain ⟨hq, hl'⟩ := List.nodup_cons.1 (show (q.1 :: Dict.keys l1).Nodup from hl)
      have hrest : ∀ k, k ∉ Dict.keys l1 →
          Dict.get? ((l1.zip l2).filterMap fun q => (after none q.2).map fun d => (q.1.1, d)) k = none := by
        intro k hk
        rw [Dict.get?_eq_none_iff]
        intro hmem
        apply hk
        simp only [Dict.keys, List.mem_map, List.mem_filterMap, Option.map_eq_some_iff] at hmem ⊢
        obtain ⟨_, ⟨x, hx, _, _, rfl⟩, rfl⟩ := hmem
        exact ⟨x.1, (List.of_mem_zip hx).1, rfl⟩
      simp only [List.zip_cons_cons, List.mem_cons, Prod.mk.injEq] at hm
      simp only [List.zip_cons_cons, List.filterMap_cons]
      rcases hm with ⟨rfl, rfl⟩ | hm
      · cases hx : after none ds with
        | none => simpa using hrest p.1 hq
        | some d => simp [Dict.get?_cons]
      · have hne : q.1 ≠ p.1 := by
          intro e
          apply hq
          rw [e]
          exact List.mem_map.2 ⟨p, (List.of_mem_zip hm).1, rfl⟩
        cases hx : after none es with
        | none => simpa using ih hl' hm
        | some d => simpa [Dict.get?_cons, hne] using ih hl' hm
  intro p ds hm
  have hg := hget p ds hm
  have hw := hwf p ds hm
  rw [← hlen]
  clear hget hwf hp e hlen ha
  constructor
  · intro hds
    have hafter : after none ds = some (ds.foldl Dict.update []) := by
      cases ds with
      | nil => exact absurd rfl hds
      | cons d ds => rfl
    rw [hafter] at hg
    refine ⟨squeeze preferDict (ds.foldl Dict.update []), ?_, squeeze_spec preferDict ds hw⟩
    split_ifs with h1
    · match per, h1, hg with
      | [(k, d)], _, hg =>
        simp only [Dict.get?_cons, Dict.get?_nil] at hg
        split_ifs at hg with hk
        simp only [Option.some.injEq] at hg
        simp [layout, Tree.at?, hg]
    · have : layout preferDict per = .node (forestOf (per.map fun p => (p.1, squeeze preferDict p.2))) := by
        match per, h1 with
        | [], _ => rfl
        | [_], h1 => simp at h1
        | _ :: _ :: _, _ => rfl
      rw [this]
      simp [Tree.at?, find?_forestOf, get?_map (squeeze preferDict) per p.1, hg]
  · rintro rfl h1
    have : layout preferDict per = .node (forestOf (per.map fun p => (p.1, squeeze preferDict p.2))) := by
      match per, h1 with
      | [], _ => rfl
      | [_], h1 => simp at h1
      | _ :: _ :: _, _ => rfl
    rw [this]
    simp [Tree.at?, find?_forestOf, get?_map (squeeze preferDict) per p.1, hg, after]

/-! ### which models are asked -/

/-- The names the models of the model specs are loaded under: a single one has none. -/
def wanted (specs : List String) : List String :=
  match specs with
  | [_] => [""]
  | specs => specs

private theorem setupLoop_spec (several : Bool) (loaded : Dict String M) (specs : List String) (acc : Dict String M) :
    ((∃ r, setupLoop several loaded specs acc = .ok r) ↔ ∀ s ∈ specs, (if several then s else "") ∈ Dict.keys loaded) ∧
    ∀ r, setupLoop several loaded specs acc = .ok r → ∀ k, r.get? k =
      if k ∈ specs.map (fun s => if several then s else "") then loaded.get? k else acc.get? k := by
  induction specs generalizing acc with
  | nil =>
    refine ⟨by simp [setupLoop], ?_⟩
    intro r h k
    simp only [setupLoop, Except.ok.injEq] at h
    subst h
    simp
  | cons s specs ih =>
    simp only [setupLoop]
    cases hg : loaded.get? (if several = true then s else "") with
    | none =>
      have hn := (Dict.get?_eq_none_iff _ _).1 hg
      constructor
      · constructor
        · rintro ⟨r, h⟩
          split_ifs at h
        · intro h
          exact absurd (h s (by simp)) hn
      · intro r h
        split_ifs at h
    | some m =>
      have hm := (Dict.mem_keys_iff loaded (if several = true then s else "")).2 ⟨m, hg⟩
      have hne : loaded.isEmpty = false := by
        cases loaded with
        | nil => simp at hg
        | cons => rfl
      obtain ⟨h1, h2⟩ := ih (acc.set (if several = true then s else "") m)
      simp only [hne, Bool.false_eq_true, if_false]
      constructor
      · rw [h1]
        constructor
        · intro h x hx
          rcases List.mem_cons.1 hx with e | hx
          · subst e; exact hm
          · exact h x hx
        · exact fun h x hx => h x (by simp [hx])
      · intro r h k
        rw [h2 r h k, Dict.get?_set]
        simp only [List.map_cons, List.mem_cons]
        by_cases hk : k ∈ specs.map (fun s => if several then s else "")
        · simp [hk]
        · rw [if_neg hk]
          by_cases e : (if several = true then s else "") = k
          · subst e; simp [hg]
          · rw [if_neg e, if_neg]
            rintro (rfl | hk')
            · exact e rfl
            · exact hk hk'

/-- **C153** (models): the models asked are exactly those the model specs name, each as it was loaded; a single model spec means the
model without a name, whatever name it gives; a model that is not loaded is refused. -/
theorem C153_models (specs : List String) (loaded : Dict String M) :
    ((∃ r, setup specs loaded = .ok r) ↔ ∀ s ∈ wanted specs, s ∈ Dict.keys loaded) ∧
    ∀ r, setup specs loaded = .ok r → ∀ k, r.get? k = if k ∈ wanted specs then loaded.get? k else none := by
  have h := setupLoop_spec (decide (specs.length > 1)) loaded specs []
  unfold setup
  match specs, h with
  | [], h => simpa [wanted] using h
  | [s], h => simpa [wanted] using h
  | _ :: _ :: _, h => simpa [wanted] using h

/-! ### what is lost -/

/-- **C153** (negation): of two signatures of a model with outputs of the same name only the output of the later one is stored. -/
theorem C153_same_name_fails (zero : α) (x y : α) (k : String) (preferDict : Bool) :
    process zero 1 (fun (_ : Unit) s _ => .ok (some (s, .named [(k, .dense [1] [if s = "a" then x else y])])))
        [("", ["a", "b"])] [] preferDict [("", ())]
      = process zero 1 (fun (_ : Unit) s _ => .ok (some (s, .named [(k, .dense [1] [y])])))
        [("", ["a", "b"])] [] preferDict [("", ())] := by
  simp [process, modelLoop, Dict.get?_cons, signatureLoop, toDenseOutputs, denseNamed, denseOne, toDense, checkFirst, Dict.update,
    Dict.set]

/-- **C153** (negation): when of several models only one has the default signature, what is stored does not say which. -/
theorem C153_which_model_fails (zero : α) (n : ℕ) (o : Outs α) (s a b : String) (hab : a ≠ b) (preferDict : Bool) :
    process zero n (fun (m : String) s _ => if m = a then .ok (some (s, o)) else .ok none) [(a, []), (b, [])] [s] preferDict
        [(a, a), (b, b)]
      = process zero n (fun (m : String) s _ => if m = b then .ok (some (s, o)) else .ok none) [(a, []), (b, [])] [s] preferDict
        [(a, a), (b, b)] := by
  simp only [process, modelLoop, Dict.get?_cons, signatureLoop, hab, hab.symm, if_true, if_false, List.isEmpty_nil, List.isEmpty_cons]
  cases toDenseOutputs zero n s o <;> simp [layout]

/-- **C153** (negation): ragged outputs that differ in the number of trailing zeros are kept as the same array. -/
theorem C153_padding_fails (zero x : α) :
    (⟨[x, zero, x, x], [[0, 2, 4]]⟩ : Ragged α) ≠ ⟨[x, x, x], [[0, 1, 3]]⟩ ∧
    toDense zero (.ragged ⟨[x, zero, x, x], [[0, 2, 4]]⟩) = toDense zero (.ragged ⟨[x, x, x], [[0, 1, 3]]⟩) := by
  constructor
  · intro h
    simp at h
  · simp [toDense, densify, groups, longest, padRow]

/-! ### cases -/

/-- a ragged tensor with two ragged dimensions, made dense -/
example : toDense (0 : ℤ) (.ragged ⟨[1, 2, 3, 4], [[0, 2, 3], [0, 1, 1, 4]]⟩)
    = .ok ([2, 2, 3], [1, 0, 0, 0, 0, 0, 2, 3, 4, 0, 0, 0]) := by decide

/-- a sparse one -/
example : toDense (0 : ℤ) (.sparse ⟨[5, 7], [[0, 1], [1, 2]], [2, 3]⟩) = .ok ([2, 3], [0, 5, 0, 0, 0, 7]) := by decide

/-- an entry out of the shape, and entries out of order -/
example : toDense (0 : ℤ) (.sparse ⟨[5], [[0, 3]], [2, 3]⟩) = .error .runtimeError ∧
    toDense (0 : ℤ) (.sparse ⟨[5, 7], [[1, 1], [0, 2]], [2, 3]⟩) = .error .runtimeError := by decide

private def sample : Call String ℤ := fun m s _ =>
  if m = "a" then .ok (some (s, .named [("x", .dense [2] [1, 2]), ("y", .ragged ⟨[3], [[0, 0, 1]]⟩)]))
  else if s = "serving_default" then .ok (some (s, .one (.dense [2] [4, 5]))) else .ok none

/-- two models: one with two outputs, one with a single one of the two default signatures -/
example : process 0 2 sample [("a", ["p"]), ("b", [])] ["predict", "serving_default"] false [("a", "a"), ("b", "b")]
    = .ok (.node (.cons "a" (.node (.cons "x" (.leaf ([2], [1, 2])) (.cons "y" (.leaf ([2, 1], [0, 3])) .nil)))
        (.cons "b" (.leaf ([2], [4, 5])) .nil))) := by
  simp [process, modelLoop, Dict.get?_cons, signatureLoop, sample, toDenseOutputs, denseNamed, denseOne, toDense, checkFirst,
    Dict.update, Dict.set, densify, groups, longest, padRow, layout, squeeze, forestOf]

/-- the hypotheses of `C153_outputs_partial` hold for it -/
example : ∀ m s r name o, sample m s r = .ok (some (name, .named o)) → Dict.WF o := by
  intro m s r name o h
  unfold sample at h
  split_ifs at h
  · simp only [Except.ok.injEq, Option.some.injEq, Prod.mk.injEq, Outs.named.injEq] at h
    rw [← h.2]
    simp [Dict.WF, Dict.keys]
  · simp at h
  · simp at h

/-- the only model goes by no name -/
example : setup ["candidate"] [("", 1)] = .ok [("", 1)] ∧ setup ["candidate"] [("candidate", 1)] = .error .valueError ∧
    setup ["b", "a"] [("a", 1), ("b", 2), ("c", 3)] = .ok [("b", 2), ("a", 1)] := by decide

end ModelOutputs
end TFMA
