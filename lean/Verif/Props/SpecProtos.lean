import Verif.Model.SpecProtos
import Verif.Lemmas.Slicer
import Mathlib.Data.List.Forall2
import Mathlib.Tactic.NormNum

/-! # C171: slice specs survive the trip through the config, with two exceptions -/

namespace TFMA
namespace SpecProtos

open Slicer

/-! ### specification -/

/-- The same slice spec: equal sets of columns and of features. -/
def SameSpec (s t : Spec) : Prop := s.columns.Perm t.columns ∧ s.features.Perm t.features

/-- A number is written the way it is recognised: whole numbers without a point, others with one, and
reading the text gives the number back.  Nothing is asked of texts. -/
def Recognised (c : NumCodec) : Val → Prop
  | .str _ => True
  | .int i => '.' ∉ (c.showInt i).toList ∧ c.parseInt (c.showInt i) = some i
  | .flt q => '.' ∈ (c.showFloat q).toList ∧ c.parseFloat (c.showFloat q) = some q

/-- A spec some call of the constructor returns. -/
def Built (c : NumCodec) (s : Spec) : Prop := ∃ cols feats, mkSpec c cols feats = .ok s

/-! ### helpers -/

private theorem set_new (d : Dict String String) (k v : String) (h : k ∉ Dict.keys d) :
    Dict.set d k v = d ++ [(k, v)] := by
  induction d with
  | nil => rfl
  | cons p d ih =>
    simp only [Dict.keys, List.map_cons, List.mem_cons, not_or] at h
    simp only [Dict.set, if_neg (Ne.symm h.1), List.cons_append]
    rw [ih h.2]

private theorem update_new (l d : Dict String String) (h : (Dict.keys (d ++ l)).Nodup) :
    Dict.update d l = d ++ l := by
  induction l generalizing d with
  | nil => simp [Dict.update]
  | cons p l ih =>
    have hp : p.1 ∉ Dict.keys d := by
      simp only [Dict.keys, List.map_append, List.map_cons] at h
      intro hm
      exact (List.nodup_append.mp h).2.2 p.1 hm p.1 (by simp) rfl
    have : Dict.update d (p :: l) = Dict.update (Dict.set d p.1 p.2) l := rfl
    rw [this, set_new _ _ _ hp, ih]
    · simp
    · simpa using h

private theorem frozensetE_names (l : List Entry) (h : (l.map Prod.fst).Nodup) : frozensetE l = l := by
  induction l with
  | nil => rfl
  | cons e l ih =>
    simp only [List.map_cons, List.nodup_cons] at h
    rw [frozensetE, ih h.2, List.filter_eq_self.mpr]
    intro e' he'
    simp only [entryEq, Bool.not_eq_true', decide_eq_false_iff_not, canonE, Prod.mk.injEq, not_and]
    intro hn
    exact absurd (List.mem_map.mpr ⟨e', he', hn.symm⟩) h.1

private theorem eraseDups_nodup (l : List String) (h : l.Nodup) : l.eraseDups = l := by
  induction l with
  | nil => simp
  | cons a l ih =>
    rw [List.nodup_cons] at h
    rw [List.eraseDups_cons, List.filter_eq_self.mpr, ih h.2]
    intro b hb
    have : b ≠ a := fun hab => h.1 (hab ▸ hb)
    simpa using this

private theorem reads_back (c : NumCodec) (v : Val) (ht : toType c v = v) (hr : Recognised c v) :
    toType c (.str (showVal c v)) = v := by
  cases v with
  | str s => exact ht
  | int i => simp only [Recognised] at hr; simp only [showVal, toType, if_neg hr.1, hr.2]
  | flt q => simp only [Recognised] at hr; simp only [showVal, toType, if_pos hr.1, hr.2]

private theorem names_of_update (s : Spec) (c : NumCodec) (h : (s.features.map Prod.fst).Nodup) :
    (toProto c s).values = s.features.map (fun e => (e.1, showVal c e.2)) := by
  have := update_new (s.features.map (fun e => (e.1, showVal c e.2))) []
    (by simpa [Dict.keys, Function.comp_def] using h)
  simpa [toProto] using this

private theorem mkSpec_of (c : NumCodec) (cols : List String) (l : List Entry)
    (hc : cols.Nodup) (hn : (l.map Prod.fst).Nodup) (hd : ∀ e ∈ l, e.1 ∉ cols) (m : List Entry)
    (hm : m.map (fun e => (e.1, toType c e.2)) = l) : mkSpec c cols m = .ok ⟨cols, l⟩ := by
  unfold mkSpec
  simp only [hm, frozensetE_names l hn, eraseDups_nodup cols hc]
  rw [if_neg]
  simp only [List.any_eq_true, decide_eq_true_eq, not_exists, not_and]
  exact hd

/-! ### theorems -/

/-- **C171** (what is proved of the round trip).  A spec with one value per feature, whose numbers are
written the way they are recognised, is the same spec after it was written to a config and read back,
in whatever order the map of the message and the list of keys are read.
Missing: specs with two values of one feature and numbers written otherwise; `C171_two_values_fails` and
`C171_exponent_fails` show that those do change. -/
theorem C171_round_trip_partial (c : NumCodec) (s : Spec) (hs : Built c s)
    (hn : (s.features.map Prod.fst).Nodup) (hr : ∀ e ∈ s.features, Recognised c e.2)
    (pb : SpecPb) (hk : pb.keys.Perm (toProto c s).keys) (hv : pb.values.Perm (toProto c s).values) :
    ∃ t, ofProto c pb = .ok t ∧ SameSpec t s := by
  obtain ⟨cols, feats, hs⟩ := hs
  rw [names_of_update s c hn] at hv
  have hk' : pb.keys.Perm s.columns := hk
  have hback : (s.features.map (fun e => (e.1, showVal c e.2))).map
      (fun kv => (kv.1, toType c (Val.str kv.2))) = s.features := by
    rw [List.map_map]
    conv_rhs => rw [← List.map_id s.features]
    apply List.map_congr_left
    rintro ⟨k, v⟩ he
    have := reads_back c v (mkSpec_features_typed hs _ he) (hr _ he)
    simp [this]
  have hp : (pb.values.map (fun kv => (kv.1, toType c (Val.str kv.2)))).Perm s.features := by
    have := hv.map (fun kv : String × String => (kv.1, toType c (Val.str kv.2)))
    rwa [hback] at this
  refine ⟨⟨pb.keys, pb.values.map (fun kv => (kv.1, toType c (Val.str kv.2)))⟩, ?_, hk', hp⟩
  refine mkSpec_of c _ _ ?_ ?_ ?_ _ ?_
  · exact hk'.nodup_iff.mpr (mkSpec_columns_nodup hs)
  · exact (hp.map Prod.fst).nodup_iff.mpr hn
  · intro e he hc
    exact (mkSpec_ok hs).2.2 e (hp.mem_iff.mp he) (hk'.mem_iff.mp hc)
  · simp [List.map_map, Function.comp_def]

/-- A codec for the examples: 5, 3/2 and 10^22 as python writes them. -/
def bigCodec : NumCodec where
  parseInt := fun s => if s = "5" then some 5 else none
  parseFloat := fun s => if s = "1.5" then some (3 / 2) else if s = "1e+22" then some (10 ^ 22) else none
  showInt := fun i => if i = 5 then "5" else "?"
  showFloat := fun q => if q = 3 / 2 then "1.5" else if q = 10 ^ 22 then "1e+22" else "?"

example : Built bigCodec ⟨["country"], [("age", .int 5), ("rate", .flt (3 / 2)), ("sex", .str "f")]⟩ :=
  ⟨["country", "country"], [("age", .str "5"), ("rate", .flt (3 / 2)), ("sex", .str "f")], by
    simp [mkSpec, toType, bigCodec, frozensetE, entryEq, canonE, Val.canon, List.eraseDups_cons]⟩

example : Recognised bigCodec (.int 5) ∧ Recognised bigCodec (.flt (3 / 2)) := by
  constructor <;> simp [Recognised, bigCodec]

/-- **C171** (a whole list of old specs).  The config made of a list of such specs gives the same specs in
the same order. -/
theorem C171_config_partial (c : NumCodec) (specs : List Spec)
    (h : ∀ s ∈ specs, Built c s ∧ (s.features.map Prod.fst).Nodup ∧ ∀ e ∈ s.features, Recognised c e.2) :
    ∃ ts, throughConfig c specs = .ok ts ∧ List.Forall₂ SameSpec ts specs := by
  induction specs with
  | nil => exact ⟨[], rfl, .nil⟩
  | cons s specs ih =>
    obtain ⟨ts, hts, hf⟩ := ih (fun s' hs' => h s' (List.mem_cons_of_mem _ hs'))
    obtain ⟨hb, hn, hr⟩ := h s (by simp)
    obtain ⟨t, ht, hst⟩ := C171_round_trip_partial c s hb hn hr (toProto c s) (.refl _) (.refl _)
    refine ⟨t :: ts, ?_, .cons hst hf⟩
    simp only [throughConfig] at hts ⊢
    rw [List.map_cons, List.mapM_cons, ht, hts]
    rfl

example : ∀ s ∈ [(⟨["country"], []⟩ : Spec), ⟨[], [("sex", .str "f")]⟩],
    Built bigCodec s ∧ (s.features.map Prod.fst).Nodup ∧ ∀ e ∈ s.features, Recognised bigCodec e.2 := by
  intro s hs
  simp only [List.mem_cons, List.not_mem_nil, or_false] at hs
  rcases hs with rfl | rfl
  · exact ⟨⟨["country"], [], by simp [mkSpec, frozensetE, List.eraseDups_cons]⟩, by simp, by simp⟩
  · exact ⟨⟨[], [("sex", .str "f")], by simp [mkSpec, toType, bigCodec, frozensetE]⟩, by simp,
      by simp [Recognised]⟩

/-- **C171** (what a config means does not drift).  A spec read from a config, written again and read
again is the same spec, if its numbers are written the way they are recognised: whatever the texts of the
first config were (`05`, ` 5`), one trip settles them. -/
theorem C171_settled_partial (c : NumCodec) (pb : SpecPb) (hw : Dict.WF pb.values) (s : Spec)
    (hs : ofProto c pb = .ok s) (hr : ∀ e ∈ s.features, Recognised c e.2) :
    ∃ t, ofProto c (toProto c s) = .ok t ∧ SameSpec t s := by
  refine C171_round_trip_partial c s ⟨_, _, hs⟩ ?_ hr _ (.refl _) (.refl _)
  have hf := (mkSpec_ok hs).2.1
  have hnames : ((pb.values.map (fun kv => (kv.1, Val.str kv.2))).map
      (fun e : Entry => (e.1, toType c e.2))).map Prod.fst = Dict.keys pb.values := by
    simp [Dict.keys, List.map_map, Function.comp_def]
  rw [hf, frozensetE_names _ (by rw [hnames]; exact hw), hnames]
  exact hw

example : ∃ s, ofProto bigCodec ⟨["country"], [("age", "5")]⟩ = .ok s ∧
    ∀ e ∈ s.features, Recognised bigCodec e.2 :=
  ⟨⟨["country"], [("age", .int 5)]⟩,
    by simp [ofProto, mkSpec, toType, bigCodec, frozensetE, List.eraseDups_cons],
    by simp [Recognised, bigCodec]⟩

/-- **C171** (fails: numbers written without a point).  A float whose text has no point and is no whole
number (`str(1e22)` is `1e+22`) comes back as a text.  The slice of that number belongs to the spec that
was given and not to the one in the config. -/
theorem C171_exponent_fails (c : NumCodec) (k : String) (q : ℚ)
    (hp : '.' ∉ (c.showFloat q).toList) (hi : c.parseInt (c.showFloat q) = none) :
    Built c ⟨[], [(k, .flt q)]⟩ ∧
    ofProto c (toProto c ⟨[], [(k, .flt q)]⟩) = .ok ⟨[], [(k, .str (c.showFloat q))]⟩ ∧
    Spec.isSliceApplicable c ⟨[], [(k, .flt q)]⟩ [(k, .flt q)] = true ∧
    Spec.isSliceApplicable c ⟨[], [(k, .str (c.showFloat q))]⟩ [(k, .flt q)] = false := by
  refine ⟨⟨[], [(k, .flt q)], by simp [mkSpec, toType, frozensetE]⟩, ?_, ?_, ?_⟩
  · simp [ofProto, toProto, Dict.update, Dict.set, showVal, mkSpec, toType, hp, hi, frozensetE]
  · simp [Spec.isSliceApplicable, applicableLoop, toType, entryEq]
  · simp [Spec.isSliceApplicable, applicableLoop, toType, entryEq, canonE, Val.canon]

example : '.' ∉ (bigCodec.showFloat (10 ^ 22)).toList ∧
    bigCodec.parseInt (bigCodec.showFloat (10 ^ 22)) = none := by
  have : bigCodec.showFloat (10 ^ 22) = "1e+22" := by
    simp only [bigCodec]
    rw [if_neg (by norm_num)]
    simp
  rw [this]
  simp [bigCodec]

/-- **C171** (fails: two values of one feature).  The constructor accepts two values of one feature; the
message keeps the value that comes last in the iteration of the set.  A slice with both values belongs to
the first spec and not to the second, and a slice with the last value alone only to the second. -/
theorem C171_two_values_fails (c : NumCodec) (k a b : String) (hab : a ≠ b)
    (ha : toType c (.str a) = .str a) (hb : toType c (.str b) = .str b) :
    Built c ⟨[], [(k, .str a), (k, .str b)]⟩ ∧
    ofProto c (toProto c ⟨[], [(k, .str a), (k, .str b)]⟩) = .ok ⟨[], [(k, .str b)]⟩ ∧
    Spec.isSliceApplicable c ⟨[], [(k, .str a), (k, .str b)]⟩ [(k, .str a), (k, .str b)] = true ∧
    Spec.isSliceApplicable c ⟨[], [(k, .str b)]⟩ [(k, .str a), (k, .str b)] = false ∧
    Spec.isSliceApplicable c ⟨[], [(k, .str a), (k, .str b)]⟩ [(k, .str b)] = false ∧
    Spec.isSliceApplicable c ⟨[], [(k, .str b)]⟩ [(k, .str b)] = true := by
  refine ⟨⟨[], [(k, .str a), (k, .str b)], ?_⟩, ?_, ?_, ?_, ?_, ?_⟩
  · simp [mkSpec, ha, hb, frozensetE, entryEq, canonE, Val.canon, hab]
  · simp [ofProto, toProto, Dict.update, Dict.set, showVal, mkSpec, hb, frozensetE]
  · simp [Spec.isSliceApplicable, applicableLoop, ha, hb, entryEq, canonE, Val.canon]
  · simp [Spec.isSliceApplicable, applicableLoop, ha, entryEq, canonE, Val.canon, hab]
  · simp [Spec.isSliceApplicable, applicableLoop, hb, entryEq, canonE, Val.canon, Ne.symm hab]
  · simp [Spec.isSliceApplicable, applicableLoop, hb, entryEq, canonE, Val.canon]

example : ("us" : String) ≠ "jp" ∧ toType bigCodec (.str "us") = .str "us" ∧
    toType bigCodec (.str "jp") = .str "jp" := by
  refine ⟨by decide, ?_, ?_⟩ <;> simp [toType, bigCodec]

end SpecProtos
end TFMA
