import Verif.Model.InvertLog
import Verif.Props.StandardExtracts
import Mathlib.Analysis.SpecialFunctions.Log.Base

/-!
# C146: labels and predictions are what their logarithms were taken of
-/

namespace TFMA
namespace InvertLog

open StdExtracts

/-! ### specification -/

/-- The array under a key which belongs to the model. -/
inductive Of (e : Ext Arr) (key model : String) : Arr → Prop
  | alone (a : Arr) : e.find? key = some (.leaf (some a)) → Of e key model a
  | among (f : Ext Arr) (a : Arr) : e.find? key = some (.node f) → f.find? model = some (.leaf (some a)) → Of e key model a

/-- There is no array of the model under a key. -/
def Without (e : Ext Arr) (key model : String) : Prop :=
  e.find? key = none ∨ e.find? key = some (.leaf none) ∨
    ∃ f, e.find? key = some (.node f) ∧ model ∉ f.keys ∧ ∀ k ∈ f.keys, Keys.stripPrefix? model k = none

/-- `x` is the binary logarithm of `y` plus one. -/
def LogOf (x y : ℝ) : Prop := -1 < y ∧ Real.logb 2 (y + 1) = x

/-- `z` is `y` within the limits, and the limit which it exceeds otherwise. -/
inductive Within : Option ℝ → ℝ → ℝ → Prop
  | free (y : ℝ) : Within none y y
  | inside (m y : ℝ) : 0 ≤ y → y ≤ m → Within (some m) y y
  | below (m y : ℝ) : y < 0 → 0 ≤ m → Within (some m) y 0
  | above (m y : ℝ) : m < y ∨ m < 0 → Within (some m) y m

/-! ### lemmas -/

theorem invert_iff (x y : ℝ) : invert x = y ↔ LogOf x y := by
  unfold invert LogOf
  constructor
  · rintro rfl
    have : (0 : ℝ) < 2 ^ x := Real.rpow_pos_of_pos (by norm_num) x
    refine ⟨by linarith, ?_⟩
    rw [sub_add_cancel]
    exact Real.logb_rpow (by norm_num) (by norm_num)
  · rintro ⟨h, rfl⟩
    rw [Real.rpow_logb (by norm_num) (by norm_num) (by linarith)]
    ring

theorem clip_within (m y : ℝ) : Within (some m) y (clip 0 m y) := by
  unfold clip
  by_cases hm : m < 0
  · rw [min_eq_right (le_trans hm.le (le_max_right y 0))]
    exact .above m y (.inr hm)
  · have hm := not_lt.1 hm
    by_cases hy : y < 0
    · rw [max_eq_right hy.le, min_eq_left hm]
      exact .below m y hy hm
    · have hy := not_lt.1 hy
      rw [max_eq_left hy]
      by_cases h : y ≤ m
      · rw [min_eq_left h]; exact .inside m y hy h
      · rw [min_eq_right (not_le.1 h).le]; exact .above m y (.inl (not_le.1 h))

theorem winsorise_within (limit : Option ℝ) (a : Arr) :
    (winsorise limit a).shape = a.shape ∧ List.Forall₂ (Within limit) a.data (winsorise limit a).data := by
  cases limit with
  | none => exact ⟨rfl, List.forall₂_same.2 fun y _ => .free y⟩
  | some m =>
    refine ⟨rfl, ?_⟩
    simp only [winsorise]
    exact List.forall₂_map_right_iff.2 (List.forall₂_same.2 fun y _ => clip_within m y)

theorem readKey_of (model key : String) (e : Ext Arr) (a : Arr) (h : Of e key model a) :
    ∃ r, readKey model key e = .ok r ∧ r.shape = a.shape ∧ List.Forall₂ LogOf a.data r.data := by
  have hg : getByKey e key (some model) none = .leaf (some a) := by
    cases h with
    | alone _ h => simp only [getByKey, h, Option.getD_some, optionally]
    | among f _ h1 h2 =>
      simp only [getByKey, h1, Option.getD_some, optionally, getOptional, h2, notNone, Bool.true_or, if_true]
  refine ⟨{ a with data := a.data.map invert }, by unfold readKey; rw [hg], rfl, ?_⟩
  exact List.forall₂_map_right_iff.2 (List.forall₂_same.2 fun x _ => (invert_iff x _).1 rfl)

theorem prefixed_none (key : String) (f acc : Ext Arr) (h : ∀ k ∈ f.keys, Keys.stripPrefix? key k = none) :
    prefixed key acc f = acc := by
  induction f using Forest.rec (motive_1 := fun _ => True) generalizing acc with
  | leaf _ => trivial
  | node _ _ => trivial
  | nil => rfl
  | cons k t rest _ ih =>
    unfold prefixed
    rw [h k (by simp [Forest.keys])]
    exact ih acc fun k' hk' => h k' (by simp [Forest.keys, hk'])

theorem readKey_without (model key : String) (e : Ext Arr) (h : Without e key model) : readKey model key e = .error .typeError := by
  unfold readKey getByKey
  rcases h with h | h | ⟨f, h, h1, h2⟩
  · simp [h, optionally]
  · simp [h, optionally]
  · have hf := (Forest.find?_eq_none_iff f model).2 h1
    simp only [h, Option.getD_some, optionally, getOptional, hf, prefixed_none model f .nil h2, notNone, Forest.has,
      Option.isSome_none, Bool.or_false, Bool.false_eq_true, if_false]

theorem find_set_ne (e : Ext Arr) (k k' : String) (t : Val Arr) (h : k ≠ k') : (e.set k t).find? k' = e.find? k' := by
  rw [Forest.find?_set]
  split <;> simp_all

theorem of_set (e : Ext Arr) (k key model : String) (t : Val Arr) (h : k ≠ key) (a : Arr) (ho : Of e key model a) :
    Of (e.set k t) key model a := by
  cases ho with
  | alone _ h1 => exact .alone a (by rw [find_set_ne e k key t h, h1])
  | among f _ h1 h2 => exact .among f a (by rw [find_set_ne e k key t h, h1]) h2

/-- The extracts the computation is to see. -/
def Inverted (a : Args) (e r : Ext Arr) : Prop :=
  (∃ l p l' p' q, Of e "labels" a.model l ∧ Of e "predictions" a.model p ∧
    r.find? "labels" = some (.leaf (some l')) ∧ l'.shape = l.shape ∧ List.Forall₂ LogOf l.data l'.data ∧
    r.find? "predictions" = some (.leaf (some p')) ∧ p'.shape = p.shape ∧
    List.Forall₂ LogOf p.data q ∧ List.Forall₂ (Within a.limit) q p'.data) ∧
  ∀ k, k ≠ "labels" → k ≠ "predictions" → r.find? k = e.find? k

/-! ### theorems -/

/-- **C146**: labels are the values whose logarithms were given, predictions the same within the limit, of the shapes they had, and nothing
else changes; shapes that differ are refused with ValueError. -/
theorem C146_inverted (a : Args) (e : Ext Arr) (l p : Arr) (hl : Of e "labels" a.model l) (hp : Of e "predictions" a.model p) :
    (l.shape = p.shape → ∃ r, process a e = .ok r ∧ Inverted a e r) ∧
    (l.shape ≠ p.shape → process a e = .error .valueError) := by
  obtain ⟨l', h1, h2, h3⟩ := readKey_of a.model "labels" e l hl
  obtain ⟨q, h4, h5, h6⟩ := readKey_of a.model "predictions" (e.set "labels" (.leaf (some l'))) p
    (of_set e "labels" "predictions" a.model _ (by decide) p hp)
  obtain ⟨h7, h8⟩ := winsorise_within a.limit q
  have hm : process a e = if l'.shape ≠ (winsorise a.limit q).shape then .error .valueError
      else .ok ((e.set "labels" (.leaf (some l'))).set "predictions" (.leaf (some (winsorise a.limit q)))) := by
    simp only [process, h1, h4]
  rw [h2, h7, h5] at hm
  constructor
  · intro hs
    rw [if_neg (by simp [hs])] at hm
    refine ⟨_, hm, ⟨l, p, l', winsorise a.limit q, q.data, hl, hp, ?_, h2, h3, ?_, h7.trans h5, h6, h8⟩, fun k hk hk' => ?_⟩
    · rw [find_set_ne _ _ _ _ (by decide), Forest.find?_set, if_pos rfl]
    · rw [Forest.find?_set, if_pos rfl]
    · rw [find_set_ne _ _ _ _ (Ne.symm hk'), find_set_ne _ _ _ _ (Ne.symm hk)]
  · intro hs
    rw [if_pos hs] at hm
    exact hm

/-- **C146** (one answer): the values are determined by their logarithms, and a prediction is within the limit if the limit is not
negative. -/
theorem C146_determined (x y y' : ℝ) (h : LogOf x y) (h' : LogOf x y') : y = y' :=
  ((invert_iff x y).2 h).symm.trans ((invert_iff x y').2 h')

/-- **C146** (limit): with a limit that is not negative every prediction lies between zero and the limit. -/
theorem C146_limit (a : Args) (m : ℝ) (hm : 0 ≤ m) (ha : a.limit = some m) (e r : Ext Arr) (h : process a e = .ok r)
    (l p p' : Arr) (hl : Of e "labels" a.model l) (hp : Of e "predictions" a.model p)
    (hr : r.find? "predictions" = some (.leaf (some p'))) : ∀ z ∈ p'.data, 0 ≤ z ∧ z ≤ m := by
  obtain ⟨h1, h2⟩ := C146_inverted a e l p hl hp
  by_cases hs : l.shape = p.shape
  · obtain ⟨r', h3, ⟨l0, p0, l', p1, q, -, -, -, -, -, h4, -, -, h5⟩, -⟩ := h1 hs
    rw [h] at h3
    cases h3
    rw [hr] at h4
    cases h4
    rw [ha] at h5
    clear hr h hp
    intro z hz
    have : ∀ (xs zs : List ℝ), List.Forall₂ (Within (some m)) xs zs → ∀ z ∈ zs, 0 ≤ z ∧ z ≤ m := by
      intro xs zs hf
      induction hf with
      | nil => intro z hz; cases hz
      | cons hw _ ih =>
        intro z hz
        rcases List.mem_cons.1 hz with rfl | hz
        · cases hw with
          | inside _ _ h1 h2 => exact ⟨h1, h2⟩
          | below _ _ _ _ => exact ⟨le_refl 0, hm⟩
          | above _ _ _ => exact ⟨hm, le_refl _⟩
        · exact ih z hz
    exact this q _ h5 z hz
  · rw [h2 hs] at h; cases h

/-- **C146** (refused): without labels or predictions of the model there is TypeError. -/
theorem C146_refused (a : Args) (e : Ext Arr)
    (h : Without e "labels" a.model ∨ ((∃ l, Of e "labels" a.model l) ∧ Without e "predictions" a.model)) :
    process a e = .error .typeError := by
  rcases h with h | ⟨⟨l, hl⟩, h⟩
  · simp only [process, readKey_without a.model "labels" e h]
  · obtain ⟨l', h1, -, -⟩ := readKey_of a.model "labels" e l hl
    have hw : Without (e.set "labels" (.leaf (some l'))) "predictions" a.model := by
      unfold Without
      rw [find_set_ne _ _ _ _ (by decide)]
      exact h
    simp only [process, h1, readKey_without a.model "predictions" _ hw]

/-- **C146** (side by side): any number of computations with inverting preprocessors, for whatever models and limits, each see the values
inverted once, and the extracts are what they were. -/
theorem C146_side_by_side (as : List Args) (e : Ext Arr)
    (h : ∀ a ∈ as, ∃ l p, Of e "labels" a.model l ∧ Of e "predictions" a.model p ∧ l.shape = p.shape) :
    ∃ outs, inputsOf as e = .ok (outs, e) ∧ List.Forall₂ (fun a o => ∃ r, o = [r] ∧ Inverted a e r) as outs := by
  induction as with
  | nil => exact ⟨[], rfl, .nil⟩
  | cons a as ih =>
    obtain ⟨outs, h1, h2⟩ := ih fun a' ha' => h a' (by simp [ha'])
    obtain ⟨l, p, hl, hp, hs⟩ := h a (by simp)
    obtain ⟨r, h3, h4⟩ := (C146_inverted a e l p hl hp).1 hs
    refine ⟨[r] :: outs, ?_, .cons ⟨r, rfl, h4⟩ h2⟩
    simp only [inputsOf, h3, h1]

/-- **C146** (false of the code): the preprocessor changes the extracts it is given, so applied twice it takes the values for logarithms
again: 2 becomes 3 the first time and 7 the second time. -/
theorem C146_twice_fails : ∃ (e r r' : Ext Arr), process {} e = .ok r ∧ process {} r = .ok r' ∧
    (∃ l, r.find? "labels" = some (.leaf (some l)) ∧ l.data = [3]) ∧
    ∃ l, r'.find? "labels" = some (.leaf (some l)) ∧ l.data = [7] := by
  have i2 : invert 2 = 3 := by unfold invert; norm_num
  have i3 : invert 3 = 7 := by
    unfold invert
    rw [show (3 : ℝ) = ((3 : ℕ) : ℝ) by norm_num, Real.rpow_natCast]
    norm_num
  refine ⟨.cons "labels" (.leaf (some ⟨[1], [2]⟩)) (.cons "predictions" (.leaf (some ⟨[1], [2]⟩)) .nil), _, _, rfl, rfl,
    ⟨_, rfl, ?_⟩, ⟨_, rfl, ?_⟩⟩
  · simp [i2]
  · simp [i2, i3]

/-- **C146** (false of the code): unless names are given, preprocessors for different models or limits have the same name, although the name
is what computations are told apart by. -/
theorem C146_names_fails (m m' : String) (x x' : Option ℝ) :
    Args.nameOf { model := m, limit := x } = Args.nameOf { model := m', limit := x' } := rfl

/-- **C146** (names): a preprocessor has the name it is given; an empty one counts as none. -/
theorem C146_name (n m : String) (x : Option ℝ) :
    (n ≠ "" → Args.nameOf { name := some n, model := m, limit := x } = n) ∧
    Args.nameOf { name := some "", model := m, limit := x } = "_invert_binary_logarithm_preprocessor:" ∧
    Args.nameOf { model := m, limit := x } = "_invert_binary_logarithm_preprocessor:" := by
  refine ⟨fun h => ?_, rfl, rfl⟩
  simp [Args.nameOf, h]

/-- The case of two models, one of them with a limit: 3 and 7 are given as 2 and 3; with the limit 5 the prediction 7 becomes 5. -/
example : ∃ outs : List (List (Ext Arr)),
    let e : Ext Arr := .cons "labels" (.leaf (some ⟨[1], [2]⟩))
      (.cons "predictions" (.node (.cons "a" (.leaf (some ⟨[1], [3]⟩)) (.cons "b" (.leaf (some ⟨[1], [3]⟩)) .nil))) .nil)
    inputsOf [{ model := "a" }, { model := "b", limit := some 5 }] e = .ok (outs, e) ∧ outs.length = 2 := by
  obtain ⟨outs, h1, h2⟩ := C146_side_by_side [{ model := "a" }, { model := "b", limit := some 5 }]
    (.cons "labels" (.leaf (some ⟨[1], [2]⟩))
      (.cons "predictions" (.node (.cons "a" (.leaf (some ⟨[1], [3]⟩)) (.cons "b" (.leaf (some ⟨[1], [3]⟩)) .nil))) .nil))
    (by
      intro a ha
      simp only [List.mem_cons, List.not_mem_nil, or_false] at ha
      rcases ha with rfl | rfl
      · exact ⟨_, _, .alone _ rfl, .among _ _ rfl rfl, rfl⟩
      · exact ⟨_, _, .alone _ rfl, .among _ _ rfl rfl, rfl⟩)
  exact ⟨outs, h1, h2.length_eq.symm⟩

example : LogOf 2 3 ∧ Within (some 5) 7 5 ∧ Within (some 5) 3 3 ∧ Within (some 5) (-1) 0 := by
  refine ⟨(invert_iff 2 3).1 (by unfold invert; norm_num), .above 5 7 (.inl (by norm_num)), .inside 5 3 (by norm_num) (by norm_num),
    .below 5 (-1) (by norm_num) (by norm_num)⟩

example : Without (.cons "labels" (.node (.cons "a" (.leaf (some ⟨[1], [2]⟩)) .nil)) .nil) "labels" "b" :=
  .inr (.inr ⟨_, rfl, by decide, by decide⟩)

end InvertLog
end TFMA
