import Verif.Model.KwargsOnly
import Verif.Py.DictLemmas

/-!
# C157: functions called with keyword arguments only

A wrapped function can only be called by keywords, and then receives what the same call of the function itself would give it.
-/

namespace TFMA
namespace KwargsOnly

variable {V : Type}

/-! ### specification -/

/-- The default of the `i`th parameter, if it has one. -/
def dflt (s : Sig V) (i : ℕ) : Option V :=
  if i < s.args.length - s.defaults.length then none else s.defaults[i - (s.args.length - s.defaults.length)]?

/-- A function as Python has them whose parameters can all be given by position and by keyword. -/
structure Ordinary (s : Sig V) : Prop where
  nodup : s.args.Nodup
  defaults : s.defaults.length ≤ s.args.length
  varargs : s.varargs = false
  varkw : s.varkw = false
  posOnly : s.posOnly = 0
  kwOnly : s.kwOnly = []

/-- What the function receives if it is called with `given`: every parameter is what is given or else its default, nothing is given
that is no parameter. -/
structure Receives (s : Sig V) (given : Dict String V) (b : Dict String V) : Prop where
  known : ∀ k ∈ Dict.keys given, k ∈ s.args
  names : Dict.keys b = s.args
  values : ∀ (i : ℕ) (n : String), s.args[i]? = some n → b.get? n = (given.get? n).or (dflt s i)

/-! ### the loop -/

private theorem set_fresh (d : Dict String V) (k : String) (v : V) (h : k ∉ Dict.keys d) : Dict.set d k v = d ++ [(k, v)] := by
  induction d with
  | nil => rfl
  | cons p d ih =>
    obtain ⟨k', v'⟩ := p
    simp only [Dict.keys, List.map_cons, List.mem_cons, not_or] at h
    simp only [Dict.set, if_neg (Ne.symm h.1), List.cons_append]
    rw [ih h.2]

private theorem passLoop_eq (l : List (String × Bool × V)) (hl : (l.map Prod.fst).Nodup) (kw acc : Dict String V)
    (hacc : ∀ n ∈ l.map Prod.fst, n ∉ Dict.keys acc) :
    ((∀ x ∈ l, x.2.1 = true ∨ x.1 ∈ Dict.keys kw) ∧ ∃ left, passLoop l kw acc =
        .ok (acc ++ l.map (fun x => (x.1, (kw.get? x.1).getD x.2.2)), left) ∧
        Dict.keys left = (Dict.keys kw).filter fun k => decide (k ∉ l.map Prod.fst)) ∨
      ((∃ x ∈ l, x.2.1 = false ∧ x.1 ∉ Dict.keys kw) ∧ passLoop l kw acc = .error .typeError) := by
  induction l generalizing kw acc with
  | nil => left; refine ⟨by simp, kw, by simp [passLoop], by simp⟩
  | cons x l ih =>
    obtain ⟨n, h, d⟩ := x
    simp only [List.map_cons, List.nodup_cons] at hl
    simp only [passLoop]
    by_cases hc : h = true ∨ n ∈ Dict.keys kw
    · have hif : (!h && !Dict.has kw n) = false := by
        rcases hc with rfl | hc
        · simp
        · simp [(Dict.has_iff kw n).2 hc]
      rw [hif]
      simp only [Bool.false_eq_true, if_false]
      have hfresh : n ∉ Dict.keys acc := hacc n (by simp)
      have hget : ∀ m ∈ l.map Prod.fst, (Dict.del kw n).get? m = kw.get? m := fun m hm => by
        rw [Dict.get?_del]
        have : n ≠ m := fun e => hl.1 (e ▸ hm)
        first | rw [if_neg this] | rw [if_neg (Ne.symm this)]
      have hmem : ∀ m ∈ l.map Prod.fst, (m ∈ Dict.keys (Dict.del kw n) ↔ m ∈ Dict.keys kw) := fun m hm => by
        rw [Dict.mem_keys_iff, Dict.mem_keys_iff, hget m hm]
      rw [set_fresh acc n _ hfresh]
      rcases ih hl.2 (Dict.del kw n) (acc ++ [(n, (kw.get? n).getD d)]) (fun m hm => by
        simp only [Dict.keys, List.map_append, List.map_cons, List.map_nil, List.mem_append, List.mem_singleton, not_or]
        exact ⟨hacc m (by simp [List.mem_map.1 hm]), fun e => hl.1 (e ▸ hm)⟩) with ⟨h1, left, h2, h3⟩ | ⟨⟨x, hx, h1, h2⟩, h3⟩
      · left
        refine ⟨?_, left, ?_, ?_⟩
        · intro x hx
          rcases List.mem_cons.1 hx with rfl | hx
          · exact hc
          · rcases h1 x hx with h | h
            · exact Or.inl h
            · exact Or.inr ((hmem x.1 (List.mem_map.2 ⟨x, hx, rfl⟩)).1 h)
        · rw [h2]
          simp only [List.map_cons, List.append_assoc, List.cons_append, List.nil_append]
          congr 4
          refine List.map_congr_left fun x hx => ?_
          rw [hget x.1 (List.mem_map.2 ⟨x, hx, rfl⟩)]
        · rw [h3, Dict.keys_del, List.filter_filter]
          refine List.filter_congr fun k _ => ?_
          by_cases e : k = n <;> simp [e]
      · right
        refine ⟨⟨x, by simp [hx], h1, ?_⟩, h3⟩
        rw [← hmem x.1 (List.mem_map.2 ⟨x, hx, rfl⟩)]
        exact h2
    · right
      simp only [not_or, Bool.not_eq_true] at hc
      refine ⟨⟨(n, h, d), by simp, hc.1, hc.2⟩, ?_⟩
      simp [hc.1, (Dict.has_eq_false_iff kw n).2 hc.2]

private theorem assignTail_replicate {α : Type} (n : ℕ) (a : α) (xs : List α) (h : xs ≠ []) :
    assignTail (List.replicate n a) xs = List.replicate (n - xs.length) a ++ xs := by
  have : ¬ xs.length = 0 := fun e => h (List.eq_nil_of_length_eq_zero e)
  simp [assignTail, this]

private theorem hasDefault_eq (s : Sig V) :
    hasDefault s = List.replicate (s.args.length - s.defaults.length) false ++ List.replicate s.defaults.length true := by
  cases hd : s.defaults with
  | nil => simp [hasDefault, hd]
  | cons x l =>
    simp only [hasDefault, hd, List.isEmpty_cons, Bool.false_eq_true, if_false]
    rw [assignTail_replicate _ _ _ (by simp)]
    simp

private theorem defaultValues_eq (none : V) (s : Sig V) :
    defaultValues none s = List.replicate (s.args.length - s.defaults.length) none ++ s.defaults := by
  cases hd : s.defaults with
  | nil => simp [defaultValues, hd]
  | cons x l =>
    simp only [defaultValues, hd, List.isEmpty_cons, Bool.false_eq_true, if_false]
    rw [assignTail_replicate _ _ _ (by simp)]

/-- The parameters with whether they have a default, and the default. -/
private def table (none : V) (s : Sig V) : List (String × Bool × V) := s.args.zip ((hasDefault s).zip (defaultValues none s))

private theorem table_length (none : V) (s : Sig V) (h : s.defaults.length ≤ s.args.length) :
    (table none s).length = s.args.length := by
  simp [table, hasDefault_eq, defaultValues_eq]
  omega

private theorem table_names (none : V) (s : Sig V) (h : s.defaults.length ≤ s.args.length) : (table none s).map Prod.fst = s.args := by
  unfold table
  rw [List.map_fst_zip]
  simp [hasDefault_eq, defaultValues_eq]
  omega

private theorem table_get (none : V) (s : Sig V) (hs : s.defaults.length ≤ s.args.length) (i : ℕ) (n : String) (h : s.args[i]? = some n) :
    ∃ b d, (table none s)[i]? = some (n, b, d) ∧ b = (dflt s i).isSome ∧ (b = true → dflt s i = some d) := by
  obtain ⟨hi, -⟩ := List.getElem?_eq_some_iff.1 h
  unfold table
  rw [hasDefault_eq, defaultValues_eq]
  by_cases hlt : i < s.args.length - s.defaults.length
  · refine ⟨false, none, ?_, by simp [dflt, hlt], by simp⟩
    rw [List.getElem?_zip_eq_some]
    refine ⟨h, ?_⟩
    rw [List.getElem?_zip_eq_some, List.getElem?_append_left (by simpa using hlt), List.getElem?_append_left (by simpa using hlt)]
    simp [hlt]
  · have hj : i - (s.args.length - s.defaults.length) < s.defaults.length := by omega
    refine ⟨true, s.defaults[i - (s.args.length - s.defaults.length)], ?_, ?_, ?_⟩
    · rw [List.getElem?_zip_eq_some]
      refine ⟨h, ?_⟩
      rw [List.getElem?_zip_eq_some, List.getElem?_append_right (by simpa using Nat.le_of_not_lt hlt),
        List.getElem?_append_right (by simpa using Nat.le_of_not_lt hlt)]
      simp [hj]
    · simp [dflt, hlt, List.getElem?_eq_getElem hj]
    · intro _
      simp [dflt, hlt, List.getElem?_eq_getElem hj]

private theorem get?_map_table (f : String × Bool × V → V) (l : List (String × Bool × V)) (hl : (l.map Prod.fst).Nodup) (x : String × Bool × V)
    (hx : x ∈ l) : Dict.get? (l.map fun x => (x.1, f x)) x.1 = some (f x) := by
  refine Dict.get?_of_mem ?_ (List.mem_map.2 ⟨x, hx, rfl⟩)
  simpa [Dict.WF, Dict.keys, Function.comp_def] using hl

private theorem fill_full (d : Dict String V) (ps : List (String × Option V)) (h : ∀ p ∈ ps, ∃ v, d.get? p.1 = some v) :
    ∃ b, fill d ps = .ok b ∧ Dict.keys b = ps.map Prod.fst ∧ ∀ n ∈ Dict.keys b, b.get? n = d.get? n := by
  induction ps with
  | nil => exact ⟨[], rfl, rfl, by simp [Dict.keys]⟩
  | cons p ps ih =>
    obtain ⟨n, o⟩ := p
    obtain ⟨v, hv⟩ := h (n, o) (by simp)
    obtain ⟨b, h1, h2, h3⟩ := ih fun p hp => h p (by simp [hp])
    simp only at hv
    refine ⟨(n, v) :: b, by simp [fill, hv, h1], by simp [Dict.keys] at h2 ⊢; exact h2, ?_⟩
    intro m hm
    rw [Dict.get?_cons]
    by_cases e : n = m
    · simp [e] at hv ⊢
      exact hv.symm
    · rw [if_neg e]
      simp only [Dict.keys, List.map_cons, List.mem_cons] at hm
      rcases hm with rfl | hm
      · exact absurd rfl e
      · exact h3 m hm

/-- What the loop and the call do with the keywords. -/
private def run (none : V) (s : Sig V) (given : Dict String V) : Except Err (Dict String V) :=
  match passLoop (table none s) given [] with
  | .error e => .error e
  | .ok (pass, left) => if left.isEmpty then call s pass else .error .typeError

private theorem eq_of_keys_get (b b' : Dict String V) (hb : (Dict.keys b).Nodup) (hk : Dict.keys b = Dict.keys b')
    (h : ∀ n ∈ Dict.keys b, b.get? n = b'.get? n) : b = b' := by
  induction b generalizing b' with
  | nil =>
    cases b' with
    | nil => rfl
    | cons p b' => simp [Dict.keys] at hk
  | cons p b ih =>
    cases b' with
    | nil => simp [Dict.keys] at hk
    | cons p' b' =>
      obtain ⟨k, v⟩ := p
      obtain ⟨k', v'⟩ := p'
      simp only [Dict.keys, List.map_cons, List.cons.injEq] at hk
      obtain ⟨rfl, hk⟩ := hk
      have h0 := h k (by simp [Dict.keys])
      simp [Dict.get?_cons] at h0
      simp only [Dict.keys, List.map_cons, List.nodup_cons] at hb
      subst h0
      congr 1
      refine ih b' hb.2 hk fun n hn => ?_
      have := h n (by simp only [Dict.keys, List.map_cons, List.mem_cons]; exact Or.inr hn)
      have hne : k ≠ n := fun e => hb.1 (e ▸ hn)
      simpa [Dict.get?_cons, hne] using this

private theorem run_spec (none : V) (s : Sig V) (hs : Ordinary s) (given : Dict String V) :
    (∀ b, run none s given = .ok b ↔ Receives s given b) ∧ ∀ e, run none s given = .error e → e = .typeError := by
  have hnames := table_names none s hs.defaults
  have hnd : ((table none s).map Prod.fst).Nodup := by rw [hnames]; exact hs.nodup
  have hidx : ∀ x ∈ table none s, ∃ i, s.args[i]? = some x.1 ∧ x.2.1 = (dflt s i).isSome ∧ (x.2.1 = true → dflt s i = some x.2.2) := by
    intro x hx
    obtain ⟨i, hi, hxi⟩ := List.mem_iff_getElem.1 hx
    have hi' : i < s.args.length := by rw [← table_length none s hs.defaults]; exact hi
    obtain ⟨b, d, h1, h2, h3⟩ := table_get none s hs.defaults i s.args[i] (List.getElem?_eq_getElem hi')
    rw [List.getElem?_eq_getElem hi, hxi] at h1
    simp only [Option.some.injEq] at h1
    subst h1
    exact ⟨i, List.getElem?_eq_getElem hi', h2, h3⟩
  have hsame : ∀ i j n, s.args[i]? = some n → s.args[j]? = some n → i = j := fun i j n hi hj => by
    obtain ⟨hi1, hi2⟩ := List.getElem?_eq_some_iff.1 hi
    obtain ⟨hj1, hj2⟩ := List.getElem?_eq_some_iff.1 hj
    exact (List.Nodup.getElem_inj_iff hs.nodup).1 (hi2.trans hj2.symm)
  unfold run
  rcases passLoop_eq (table none s) hnd given [] (by simp [Dict.keys]) with ⟨h1, left, h2, h3⟩ | ⟨⟨x, hx, h1, h2⟩, h3⟩
  · rw [h2]
    simp only [List.nil_append]
    by_cases hleft : left.isEmpty
    · rw [if_pos hleft]
      have hknown : ∀ k ∈ Dict.keys given, k ∈ s.args := by
        intro k hk
        by_contra hne
        rw [List.isEmpty_iff] at hleft
        subst hleft
        rw [hnames] at h3
        have : k ∈ (Dict.keys given).filter fun k => decide (k ∉ s.args) := by simp [hk, hne]
        rw [← h3] at this
        simp [Dict.keys] at this
      -- what is passed on
      have hpk : Dict.keys ((table none s).map fun x => (x.1, (Dict.get? given x.1).getD x.2.2)) = s.args := by
        rw [← hnames]
        simp [Dict.keys, Function.comp_def]
      have hpv : ∀ (i : ℕ) (n : String), s.args[i]? = some n →
          Dict.get? ((table none s).map fun x => (x.1, (Dict.get? given x.1).getD x.2.2)) n = (given.get? n).or (dflt s i) := by
        intro i n hn
        obtain ⟨b, d, g1, g2, g3⟩ := table_get none s hs.defaults i n hn
        have hx : (n, b, d) ∈ table none s := List.mem_of_getElem? g1
        rw [get?_map_table (fun x => (Dict.get? given x.1).getD x.2.2) (table none s) hnd (n, b, d) hx]
        cases hg : given.get? n with
        | some v => simp
        | none =>
          have hb : b = true := by
            rcases h1 (n, b, d) hx with h | h
            · exact h
            · exact absurd h ((Dict.get?_eq_none_iff given n).1 hg)
          simp [g3 hb]
      generalize (table none s).map (fun x => (x.1, (Dict.get? given x.1).getD x.2.2)) = pass at hpk hpv
      have hparams : (params s).map Prod.fst = s.args := by
        unfold params
        rw [List.map_fst_zip]
        simp
        have := hs.defaults
        omega
      have hcall : call s pass = fill pass (params s) := by
        unfold call
        rw [if_neg, hs.kwOnly, List.append_nil]
        rw [hs.posOnly, hs.kwOnly, hpk]
        simp
      rw [hcall]
      obtain ⟨b, f1, f2, f3⟩ := fill_full pass (params s) fun p hp => by
        have : p.1 ∈ s.args := by rw [← hparams]; exact List.mem_map.2 ⟨p, hp, rfl⟩
        rw [← hpk] at this
        exact (Dict.mem_keys_iff pass p.1).1 this
      rw [f1]
      rw [hparams] at f2
      have hrec : Receives s given b := ⟨hknown, f2, fun i n hn => by
        rw [f3 n (by rw [f2]; exact List.mem_of_getElem? hn), hpv i n hn]⟩
      refine ⟨fun b' => ⟨fun e => ?_, fun hb' => ?_⟩, fun e he => by simp at he⟩
      · simp only [Except.ok.injEq] at e
        subst e
        exact hrec
      · congr 1
        refine eq_of_keys_get b b' (by rw [f2]; exact hs.nodup) (f2.trans hb'.names.symm) fun n hn => ?_
        rw [f2] at hn
        obtain ⟨i, hi, hin⟩ := List.mem_iff_getElem.1 hn
        have hn' : s.args[i]? = some n := by rw [List.getElem?_eq_getElem hi, hin]
        rw [hrec.values i n hn', hb'.values i n hn']
    · rw [if_neg hleft]
      refine ⟨fun b => ⟨fun e => by simp at e, fun hb => ?_⟩, fun e he => by simpa using he.symm⟩
      exfalso
      apply hleft
      rw [List.isEmpty_iff]
      have : Dict.keys left = [] := by
        rw [h3, List.filter_eq_nil_iff]
        intro k hk
        simp [hnames, hb.known k hk]
      simpa [Dict.keys] using this
  · rw [h3]
    refine ⟨fun b => ⟨fun e => by simp at e, fun hb => ?_⟩, fun e he => by simpa using he.symm⟩
    exfalso
    obtain ⟨i, g1, g2, -⟩ := hidx x hx
    have hv := hb.values i x.1 g1
    rw [(Dict.get?_eq_none_iff given x.1).2 h2] at hv
    rw [h1] at g2
    have hd : dflt s i = Option.none := by
      cases h : dflt s i with
      | none => rfl
      | some v => simp [h] at g2
    rw [hd] at hv
    have : x.1 ∉ Dict.keys b := (Dict.get?_eq_none_iff b x.1).1 (by simpa using hv)
    rw [hb.names] at this
    exact this (List.mem_of_getElem? g1)

private theorem wrapped_eq (none : V) (s : Sig V) (given : Dict String V) : wrapped none s false [] given = run none s given := rfl

private theorem wrapped_self (none : V) (s : Sig V) (x : V) (given : Dict String V) :
    wrapped none s true [x] given = run none s (Dict.set given "self" x) := rfl

/-! ### C157 -/

/-- A function is wrapped unless it takes any number of arguments. -/
theorem C157_wrap (none : V) (s : Sig V) (args : List V) (kwargs : Dict String V) :
    (s.varargs = true ∨ s.varkw = true → callWrapped none s args kwargs = .error .typeError) ∧
      (s.varargs = false → s.varkw = false → s.args ≠ [] → ∃ b, wrap s = .ok b ∧ (b = true ↔ s.args.head? = some "self")) := by
  constructor
  · rintro (h | h)
    · simp [callWrapped, wrap, h]
    · cases hv : s.varargs <;> simp [callWrapped, wrap, h, hv]
  · intro h1 h2 h3
    obtain ⟨a, l, hl⟩ := List.exists_cons_of_ne_nil h3
    exact ⟨decide (a = "self"), by simp [wrap, h1, h2, hl], by simp [hl]⟩

/-- A wrapped function called by keywords receives what is given and the defaults of what is not; it is not called if something
without a default is missing or something unknown is given. -/
theorem C157_function (none : V) (s : Sig V) (hs : Ordinary s) (a : String) (hself : s.args.head? = some a) (ha : a ≠ "self")
    (kwargs : Dict String V) :
    (∀ b, callWrapped none s [] kwargs = .ok b ↔ Receives s kwargs b) ∧
      ((¬ ∃ b, Receives s kwargs b) → callWrapped none s [] kwargs = .error .typeError) := by
  obtain ⟨l, hl⟩ : ∃ l, s.args = a :: l := by
    cases h : s.args with
    | nil => simp [h] at hself
    | cons x l => simp [h] at hself; exact ⟨l, by rw [hself]⟩
  have hc : callWrapped none s [] kwargs = run none s kwargs := by
    rw [← wrapped_eq]
    simp [callWrapped, wrap, hs.varargs, hs.varkw, hl, ha]
  rw [hc]
  obtain ⟨h1, h2⟩ := run_spec none s hs kwargs
  refine ⟨h1, fun hno => ?_⟩
  cases hr : run none s kwargs with
  | error e => rw [h2 e hr]
  | ok b => exact absurd ⟨b, (h1 b).1 hr⟩ hno

/-- A wrapped method called by keywords on an object receives the object and what is given. -/
theorem C157_method (none : V) (s : Sig V) (hs : Ordinary s) (hself : s.args.head? = some "self") (x : V) (kwargs : Dict String V) :
    (∀ b, callWrapped none s [x] kwargs = .ok b ↔ Receives s (Dict.set kwargs "self" x) b) ∧
      ((¬ ∃ b, Receives s (Dict.set kwargs "self" x) b) → callWrapped none s [x] kwargs = .error .typeError) ∧
      ∀ b, callWrapped none s [x] kwargs = .ok b → b.head? = some ("self", x) := by
  obtain ⟨l, hl⟩ : ∃ l, s.args = "self" :: l := by
    cases h : s.args with
    | nil => simp [h] at hself
    | cons y l => simp [h] at hself; exact ⟨l, by rw [hself]⟩
  have hc : callWrapped none s [x] kwargs = run none s (Dict.set kwargs "self" x) := by
    rw [← wrapped_self]
    simp [callWrapped, wrap, hs.varargs, hs.varkw, hl]
  rw [hc]
  obtain ⟨h1, h2⟩ := run_spec none s hs (Dict.set kwargs "self" x)
  refine ⟨h1, fun hno => ?_, fun b hb => ?_⟩
  · cases hr : run none s (Dict.set kwargs "self" x) with
    | error e => rw [h2 e hr]
    | ok b => exact absurd ⟨b, (h1 b).1 hr⟩ hno
  · have hr := (h1 b).1 hb
    have hn := hr.names
    have hv := hr.values 0 "self" (by simp [hl])
    rw [hl] at hn
    cases b with
    | nil => simp [Dict.keys] at hn
    | cons p b =>
      obtain ⟨k, v⟩ := p
      simp only [Dict.keys, List.map_cons, List.cons.injEq] at hn
      obtain ⟨rfl, -⟩ := hn
      simp [Dict.get?_cons] at hv
      simp [hv]

/-- A wrapped function refuses arguments by position, a wrapped method any but the object. -/
theorem C157_positional (none : V) (s : Sig V) (a : String) (hself : s.args.head? = some a) (args : List V)
    (hargs : if a = "self" then args.length ≠ 1 else args ≠ []) (kwargs : Dict String V) :
    callWrapped none s args kwargs = .error .typeError := by
  obtain ⟨l, hl⟩ : ∃ l, s.args = a :: l := by
    cases h : s.args with
    | nil => simp [h] at hself
    | cons x l => simp [h] at hself; exact ⟨l, by rw [hself]⟩
  cases hv : s.varargs
  · cases hk : s.varkw
    · simp only [callWrapped, wrap, hv, hk, hl, Bool.false_eq_true, if_false]
      by_cases h : a = "self"
      · rw [if_pos h] at hargs
        match args, hargs with
        | [], _ => simp [wrapped, h]
        | [x], h' => exact absurd rfl h'
        | x :: y :: r, _ => simp [wrapped, h]
      · rw [if_neg h] at hargs
        simp [wrapped, h, hargs]
    · simp [callWrapped, wrap, hv, hk]
  · simp [callWrapped, wrap, hv]

/-! ### where the wrapped function is not like the function -/

/-- A function without parameters cannot be wrapped: its first parameter is looked up. -/
theorem C157_no_parameters_fails (none : V) :
    call (⟨[], [], false, false, 0, []⟩ : Sig V) [] = .ok [] ∧
      ∀ args kwargs, callWrapped none ⟨[], [], false, false, 0, []⟩ args kwargs = .error .indexError :=
  ⟨rfl, fun _ _ => rfl⟩

/-- A parameter behind `*`, which can only be given by keyword, cannot be given any more. -/
theorem C157_keyword_only_fails (none x y : V) (a k : String) (h : a ≠ k) (ha : a ≠ "self") :
    call (⟨[a], [], false, false, 0, [(k, some y)]⟩ : Sig V) [(a, x), (k, x)] = .ok [(a, x), (k, x)] ∧
      callWrapped none ⟨[a], [], false, false, 0, [(k, some y)]⟩ [] [(a, x), (k, x)] = .error .typeError ∧
      ∀ kwargs, callWrapped none ⟨[a], [], false, false, 0, [(k, Option.none)]⟩ [] kwargs = .error .typeError := by
  refine ⟨?_, ?_, fun kwargs => ?_⟩
  · simp [call, fill, params, Dict.keys, Dict.get?, h]
  · simp [callWrapped, wrap, wrapped, ha, hasDefault, defaultValues, passLoop, Dict.has, Dict.get?, Dict.del, Ne.symm h]
  · simp only [callWrapped, wrap, Bool.false_eq_true, if_false, ha, decide_false, wrapped]
    simp only [List.isEmpty_nil, Bool.not_true, Bool.false_and, Bool.false_eq_true, if_false, hasDefault, defaultValues,
      List.isEmpty_nil, if_true, List.length_singleton, List.replicate_one, List.zip_cons_cons, List.zip_nil_right, passLoop, Dict.set]
    split
    · rename_i h'
      split at h' <;> simp_all
    · rename_i h'
      split at h'
      · simp at h'
      · simp only [Except.ok.injEq, Prod.mk.injEq] at h'
        split
        · rw [← h'.1]
          simp [call, fill, params, Dict.keys, Dict.get?, h]
        · rfl

/-- A `self` given by keyword is replaced without a complaint. -/
theorem C157_self_twice_fails (none x y : V) :
    callWrapped none ⟨["self"], [], false, false, 0, []⟩ [x] [("self", y)] = .ok [("self", x)] := by
  simp [callWrapped, wrap, wrapped, Dict.set, hasDefault, defaultValues, passLoop, Dict.has, Dict.get?, Dict.del, call, fill, params,
    Dict.keys]

/-- A function of two parameters, the second with a default. -/
example : callWrapped (0 : ℕ) ⟨["a", "b"], [7], false, false, 0, []⟩ [] [("a", 1)] = .ok [("a", 1), ("b", 7)] := by decide
example : callWrapped (0 : ℕ) ⟨["a", "b"], [7], false, false, 0, []⟩ [] [("b", 1)] = .error .typeError := by decide
example : callWrapped (0 : ℕ) ⟨["a", "b"], [7], false, false, 0, []⟩ [] [("b", 2), ("a", 1)] = .ok [("a", 1), ("b", 2)] := by decide
example : Ordinary (⟨["a", "b"], [7], false, false, 0, []⟩ : Sig ℕ) := ⟨by decide, by decide, rfl, rfl, rfl, rfl⟩
example : Receives (⟨["a", "b"], [7], false, false, 0, []⟩ : Sig ℕ) [("a", 1)] [("a", 1), ("b", 7)] :=
  ((C157_function 0 _ ⟨by decide, by decide, rfl, rfl, rfl, rfl⟩ "a" rfl (by decide) _).1 _).1 (by decide)

end KwargsOnly
end TFMA
