import Verif.Model.Segmentation
import Verif.Lemmas.DictCombine
import Mathlib.Tactic.Ring

/-!
# C102: semantic segmentation
-/

namespace TFMA
namespace Segmentation

open Beam Inputs

/-! ### Specification -/

/-- All pixels of the images, as pairs of true and predicted class. -/
def pixels (data : List (Arr ℤ × Arr ℤ)) : List (ℤ × ℤ) := data.flatMap fun x => x.1.data.zip x.2.data

/-- The number of pixels for which something is the case. -/
def pixelsWith (data : List (Arr ℤ × Arr ℤ)) (q : ℤ × ℤ → Prop) [DecidablePred q] : ℕ :=
  (pixels data).countP fun x => decide (q x)

/-- The counts of a class that is listed `n` times. -/
def expected (data : List (Arr ℤ × Arr ℤ)) (ignore : Option ℤ) (n : ℕ) (c : ℤ) : Mat :=
  ⟨n * pixelsWith data (fun x => x.1 = c ∧ x.2 = c),
    n * pixelsWith data (fun x => x.1 ≠ c ∧ x.2 ≠ c ∧ some x.1 ≠ ignore),
    n * pixelsWith data (fun x => x.1 ≠ c ∧ x.2 = c ∧ some x.1 ≠ ignore),
    n * pixelsWith data (fun x => x.1 = c ∧ x.2 ≠ c)⟩

/-- Two images of the same size, in two dimensions. -/
def IsPair (x : Arr ℤ × Arr ℤ) : Prop := x.1.shape.length = 2 ∧ x.1.shape = x.2.shape

/-! ### The combiner -/

private theorem add_assoc' (a b d : Mat) : Mat.add (Mat.add a b) d = Mat.add a (Mat.add b d) := by
  simp [Mat.add, Nat.add_assoc]

private theorem add_comm' (a b : Mat) : Mat.add a b = Mat.add b a := by simp [Mat.add, Nat.add_comm]

private def view (a : Dict ℤ Mat) : ℤ → Option Mat := fun c => Dict.get? a c

private theorem bump_view (a : Dict ℤ Mat) (c : ℤ) (m : Mat) :
    view (bump a c m) = pw Mat.add (view a) (single c m) := by
  funext k
  simp only [view, bump, pw, single]
  rw [Dict.get?_set]
  by_cases h : c = k
  · subst h; cases hr : Dict.get? a c <;> simp [optOp]
  · simp [h]

private theorem bump_wf {a : Dict ℤ Mat} (h : Dict.WF a) (c : ℤ) (m : Mat) : Dict.WF (bump a c m) := Dict.WF_set h _ _

private def all (m : ℤ → Mat) (cs : List ℤ) : ℤ → Option Mat :=
  cs.foldr (fun c f => pw Mat.add (single c (m c)) f) fun _ => none

private theorem foldl_view (m : ℤ → Mat) (cs : List ℤ) (a : Dict ℤ Mat) (h : Dict.WF a) :
    view (cs.foldl (fun a c => bump a c (m c)) a) = pw Mat.add (view a) (all m cs) ∧
      Dict.WF (cs.foldl (fun a c => bump a c (m c)) a) := by
  induction cs generalizing a with
  | nil => exact ⟨by rw [pw_comm add_comm']; exact (pw_left _).symm, h⟩
  | cons c cs ih =>
    obtain ⟨h1, h2⟩ := ih _ (bump_wf h c (m c))
    refine ⟨?_, h2⟩
    rw [List.foldl_cons, h1, bump_view, pw_assoc add_assoc']
    rfl

private theorem mergeTwo_ok (r acc : Dict ℤ Mat) (hr : Dict.WF r) (ha : Dict.WF acc) :
    Dict.WF (mergeTwo r acc) ∧ view (mergeTwo r acc) = pw Mat.add (view r) (view acc) := by
  induction acc generalizing r with
  | nil => exact ⟨hr, by rw [pw_comm add_comm']; exact (pw_left _).symm⟩
  | cons kv acc ih =>
    obtain ⟨k0, v0⟩ := kv
    have hk : k0 ∉ Dict.keys acc ∧ Dict.WF acc := by simpa [Dict.WF, Dict.keys] using ha
    obtain ⟨h1, h2⟩ := ih _ (bump_wf hr k0 v0) hk.2
    refine ⟨h1, ?_⟩
    have e : view (mergeTwo r ((k0, v0) :: acc)) = _ := h2
    rw [e, bump_view, pw_assoc add_assoc']
    congr 1
    funext k
    simp only [pw, single, view]
    rw [Dict.get?_cons]
    by_cases hkk : k0 = k
    · subst hkk; rw [(Dict.get?_eq_none_iff acc k0).2 hk.1]; simp
    · simp [hkk]

private def f (cs : List ℤ) (ignore : Option ℤ) (x : Except Err (Arr ℤ × Arr ℤ)) : Option (ℤ → Option Mat) :=
  x.toOption.bind fun e => if e.1.shape.length = 2 ∧ e.1.shape = e.2.shape then
    some (all (fun c => classMatrix ignore c e.1.data e.2.data) cs) else none

private theorem addImage_eq (cs : List ℤ) (ignore : Option ℤ) (a : Dict ℤ Mat) (e : Arr ℤ × Arr ℤ) :
    addImage cs ignore a e = if e.1.shape.length = 2 ∧ e.1.shape = e.2.shape then
      .ok (cs.foldl (fun a c => bump a c (classMatrix ignore c e.1.data e.2.data)) a) else .error .valueError := by
  unfold addImage
  by_cases h1 : e.1.shape.length = 2 <;> by_cases h2 : e.1.shape = e.2.shape <;> simp [h1, h2]

private theorem ohom (cs : List ℤ) (ignore : Option ℤ) :
    OHom (combiner cs ignore) (pw Mat.add) (fun _ => none) (f cs ignore) view Dict.WF where
  assoc := pw_assoc add_assoc'
  comm := pw_comm add_comm'
  left := pw_left
  inv_create := Dict.WF_nil
  inv_add a x b ha h := by
    cases x with
    | error e => simp [combiner, Except.bind] at h
    | ok x =>
      simp only [combiner, Except.bind, addImage_eq] at h
      split at h
      · cases h; exact (foldl_view _ cs a ha).2
      · cases h
  create := by funext k; rfl
  add a x ha := by
    cases x with
    | error e => rfl
    | ok x =>
      simp only [combiner, Except.bind, addImage_eq, f, Except.toOption, Option.bind_some]
      by_cases hc : x.1.shape.length = 2 ∧ x.1.shape = x.2.shape
      · rw [if_pos hc, if_pos hc]
        simp only [Option.map_some]; rw [(foldl_view _ cs a ha).1]
      · rw [if_neg hc, if_neg hc]; rfl
  merge a as h := by
    refine ⟨as.foldl mergeTwo a, rfl, ?_⟩
    induction as generalizing a with
    | nil => exact ⟨h a (by simp), rfl⟩
    | cons b as ih =>
      obtain ⟨h1, h2⟩ := mergeTwo_ok a b (h a (by simp)) (h b (by simp))
      obtain ⟨g1, g2⟩ := ih (mergeTwo a b) (by
        intro y hy
        rcases List.mem_cons.1 hy with rfl | hy
        · exact h1
        · exact h y (by simp [hy]))
      refine ⟨g1, ?_⟩
      rw [List.foldl_cons, g2, h2, List.map_cons, List.foldl_cons]

private def scale (n : ℕ) (m : Mat) : Mat := ⟨n * m.tp, n * m.tn, n * m.fp, n * m.fn⟩

private theorem all_eq (m : ℤ → Mat) (cs : List ℤ) (c : ℤ) :
    all m cs c = if c ∈ cs then some (scale (cs.count c) (m c)) else none := by
  induction cs with
  | nil => simp [all]
  | cons u cs ih =>
    have e : all m (u :: cs) c = optOp Mat.add (single u (m u) c) (all m cs c) := rfl
    rw [e, ih]
    by_cases hu : u = c
    · subst hu
      simp only [single, if_true, List.mem_cons, true_or, List.count_cons_self]
      by_cases hm : u ∈ cs
      · simp only [hm, if_true, optOp, Option.some.injEq, Mat.add, scale, Mat.mk.injEq]
        refine ⟨?_, ?_, ?_, ?_⟩ <;> ring
      · simp [hm, optOp, List.count_eq_zero_of_not_mem hm, scale]
    · have hu' : ¬ c = u := fun h => hu h.symm
      have hc : (u :: cs).count c = cs.count c := List.count_cons_of_ne hu
      simp [single, hu, hu', hc]

private theorem pixelsWith_cons (x : Arr ℤ × Arr ℤ) (data : List (Arr ℤ × Arr ℤ)) (q : ℤ × ℤ → Prop) [DecidablePred q] :
    pixelsWith (x :: data) q = (x.1.data.zip x.2.data).countP (fun y => decide (q y)) + pixelsWith data q := by
  simp [pixelsWith, pixels, List.countP_append]

private theorem kept_eq (ignore : Option ℤ) (g : ℤ) : kept ignore g = decide (some g ≠ ignore) := by
  cases ignore <;> simp [kept]

private theorem expected_cons (x : Arr ℤ × Arr ℤ) (data : List (Arr ℤ × Arr ℤ)) (ignore : Option ℤ) (n : ℕ) (c : ℤ) :
    Mat.add (scale n (classMatrix ignore c x.1.data x.2.data)) (expected data ignore n c) =
      expected (x :: data) ignore n c := by
  unfold expected
  simp only [pixelsWith_cons, Mat.add, scale, classMatrix, kept_eq, Bool.decide_and, Bool.and_assoc,
    Nat.mul_add, and_self]

private theorem total_eq (cs : List ℤ) (ignore : Option ℤ) (data : List (Arr ℤ × Arr ℤ)) (h : ∀ x ∈ data, IsPair x) :
    total (pw Mat.add) (fun _ => none) (f cs ignore) (data.map .ok) =
      some fun c => if c ∈ cs ∧ data ≠ [] then some (expected data ignore (cs.count c) c) else none := by
  induction data with
  | nil => simp [total, prod]
  | cons x data ih =>
    have hx := h x (by simp)
    rw [List.map_cons, total_cons, ih fun y hy => h y (by simp [hy])]
    have hf : f cs ignore (.ok x) = some (all (fun c => classMatrix ignore c x.1.data x.2.data) cs) := by
      simp only [f, Except.toOption, Option.bind_some]
      exact if_pos hx
    rw [hf]
    simp only [liftOp, Option.some.injEq]
    funext c
    simp only [pw, all_eq]
    by_cases hc : c ∈ cs
    · simp only [hc, if_true, true_and, ne_eq, reduceCtorEq, not_false_eq_true]
      rw [← expected_cons]
      by_cases hd : data = []
      · subst hd; simp [optOp, expected, pixelsWith, pixels, Mat.add]
      · simp [hd, optOp]
    · simp [hc]

/-- C102: for every schedule, the matrix of each class requested holds the numbers of pixels of all images that are of
the class and predicted so, neither, predicted only, and of the class only, where pixels whose true class is ignored do
not count as being of another class; a class listed twice is counted twice. -/
theorem C102_counts (cs : List ℤ) (ignore : Option ℤ) (data : List (Arr ℤ × Arr ℤ)) (h : ∀ x ∈ data, IsPair x)
    (s : Sched (Except Err (Arr ℤ × Arr ℤ))) (hs : s.inputs.Perm (data.map .ok)) :
    ∃ acc, (combiner cs ignore).run s = .ok acc ∧
      ∀ c, Dict.get? acc c = if c ∈ cs ∧ data ≠ [] then some (expected data ignore (cs.count c) c) else none := by
  have hr := orun_eq (ohom cs ignore) hs
  rw [total_eq cs ignore data h] at hr
  cases hrun : (combiner cs ignore).run s with
  | error e => rw [hrun] at hr; simp [Except.toOption] at hr
  | ok acc =>
    rw [hrun] at hr
    simp only [Except.toOption, Option.map_some, Option.some.injEq] at hr
    exact ⟨acc, rfl, fun c => congrFun hr c⟩

/-- C102: images of different sizes, or not in two dimensions, are never counted: the run fails. -/
theorem C102_sizes (cs : List ℤ) (ignore : Option ℤ) (x : Arr ℤ × Arr ℤ) (hx : ¬ IsPair x)
    (s : Sched (Except Err (Arr ℤ × Arr ℤ))) (hm : .ok x ∈ s.inputs) : ∃ e, (combiner cs ignore).run s = .error e := by
  have hr := orun_eq (ohom cs ignore) (List.Perm.refl s.inputs)
  have hz : ∀ xs : List (Except Err (Arr ℤ × Arr ℤ)), .ok x ∈ xs →
      total (pw Mat.add) (fun _ => none) (f cs ignore) xs = none := by
    intro xs
    induction xs with
    | nil => intro h; cases h
    | cons y xs ih =>
      intro h
      rw [total_cons]
      rcases List.mem_cons.1 h with h | h
      · subst h
        have : f cs ignore (.ok x) = none := by
          simp only [f, Except.toOption, Option.bind_some]; exact if_neg hx
        rw [this]; rfl
      · rw [ih h]; cases f cs ignore y <;> rfl
  rw [hz _ hm] at hr
  cases hrun : (combiner cs ignore).run s with
  | error e => exact ⟨e, rfl⟩
  | ok acc => rw [hrun] at hr; simp [Except.toOption] at hr

/-- C102: the four counts of a class add up to the number of pixels that are of the class or not ignored. -/
theorem C102_sum (data : List (Arr ℤ × Arr ℤ)) (ignore : Option ℤ) (c : ℤ) :
    (expected data ignore 1 c).tp + (expected data ignore 1 c).tn + (expected data ignore 1 c).fp +
      (expected data ignore 1 c).fn = pixelsWith data fun x => x.1 = c ∨ some x.1 ≠ ignore := by
  simp only [expected, one_mul, pixelsWith]
  induction pixels data with
  | nil => rfl
  | cons x xs ih =>
    simp only [List.countP_cons]
    rw [← Nat.add_right_cancel_iff (n := 0)] at ih
    by_cases h1 : x.1 = c <;> by_cases h2 : x.2 = c <;> by_cases h3 : some x.1 = ignore <;> simp [h1, h2, h3] at * <;> omega

private theorem derived_eq (value : Mat → ℕ) (ms : Dict ℤ Mat) (g : ℤ → Mat) (cs : List ℤ)
    (h : ∀ c ∈ cs, Dict.get? ms c = some (g c)) (out : Dict ℤ ℕ) :
    ∃ r, derived value ms cs out = .ok r ∧
      ∀ c, Dict.get? r c = if c ∈ cs then some (value (g c)) else Dict.get? out c := by
  induction cs generalizing out with
  | nil => exact ⟨out, rfl, by simp⟩
  | cons c cs ih =>
    obtain ⟨r, h1, h2⟩ := ih (fun x hx => h x (by simp [hx])) (Dict.set out c (value (g c)))
    refine ⟨r, ?_, ?_⟩
    · simp only [derived, h c (by simp)]; exact h1
    · intro k
      rw [h2, Dict.get?_set]
      by_cases hk : k ∈ cs
      · simp [hk]
      · by_cases hck : c = k
        · subst hck; simp
        · have : ¬ k = c := fun e => hck e.symm
          simp [hk, hck, this]

/-- C102: the derived metrics have a value for exactly the classes requested, the number of true (or false) positives. -/
theorem C102_values (cs : List ℤ) (hcs : cs.Nodup) (ignore : Option ℤ) (data : List (Arr ℤ × Arr ℤ)) (hd : data ≠ [])
    (h : ∀ x ∈ data, IsPair x) (s : Sched (Except Err (Arr ℤ × Arr ℤ))) (hs : s.inputs.Perm (data.map .ok)) :
    ∃ acc tp fp, (combiner cs ignore).run s = .ok acc ∧ derived Mat.tp acc cs [] = .ok tp ∧
      derived Mat.fp acc cs [] = .ok fp ∧
      (∀ c, Dict.get? tp c = if c ∈ cs then some (pixelsWith data fun x => x.1 = c ∧ x.2 = c) else none) ∧
      (∀ c, Dict.get? fp c = if c ∈ cs then
        some (pixelsWith data fun x => x.1 ≠ c ∧ x.2 = c ∧ some x.1 ≠ ignore) else none) := by
  obtain ⟨acc, h1, h2⟩ := C102_counts cs ignore data h s hs
  have h3 : ∀ c ∈ cs, Dict.get? acc c = some (expected data ignore 1 c) := by
    intro c hc
    rw [h2, if_pos ⟨hc, hd⟩, List.count_eq_one_of_mem hcs hc]
  obtain ⟨tp, t1, t2⟩ := derived_eq Mat.tp acc _ cs h3 []
  obtain ⟨fp, f1, f2⟩ := derived_eq Mat.fp acc _ cs h3 []
  refine ⟨acc, tp, fp, h1, t1, f1, ?_, ?_⟩
  · intro c; rw [t2]; simp [expected]
  · intro c; rw [f2]; simp [expected]

/-! ### The preprocessor -/

/-- The first of three places with a value. -/
def firstOf : Option Value → Option Value → Option Value → Option Value
  | some v, _, _ => some v
  | none, some v, _ => some v
  | none, none, w => w

private theorem chain_eq (k : String) (a b c : Dict String Value) :
    chainGet k [a, b, c] = firstOf (Dict.get? a k) (Dict.get? b k) (Dict.get? c k) := by
  simp only [chainGet]
  cases Dict.get? a k <;> cases Dict.get? b k <;> cases Dict.get? c k <;> rfl

/-- C102: without example weights, the images handed to the combiner are those found under the two keys in labels
(predictions), then features, then transformed features, decoded if asked for; without one of them, or with images of
different sizes, the preprocessor fails. -/
theorem C102_images_partial (decode : Value → Except Err (Arr ℤ)) (tk pk : String) (dt dp : Bool) (x : Source)
    (hw : x.weights = none) (r : Arr ℤ × Arr ℤ) :
    process decode tk pk dt dp x = .ok r ↔
      r.1.shape = r.2.shape ∧
      (∃ v, firstOf (Dict.get? x.labels tk) (Dict.get? x.features tk) (Dict.get? x.transformed tk) = some v ∧
        if dt then decode v = .ok r.1 else v = .array r.1) ∧
      (∃ v, firstOf (Dict.get? x.predictions pk) (Dict.get? x.features pk) (Dict.get? x.transformed pk) = some v ∧
        if dp then decode v = .ok r.2 else v = .array r.2) := by
  have hread : ∀ (key : String) (a b c : Dict String Value) (d : Bool) (y : Arr ℤ),
      readImage decode key [a, b, c] d = .ok y ↔
        ∃ v, firstOf (Dict.get? a key) (Dict.get? b key) (Dict.get? c key) = some v ∧
          if d then decode v = .ok y else v = .array y := by
    intro key a b c d y
    unfold readImage
    rw [chain_eq]
    cases firstOf (Dict.get? a key) (Dict.get? b key) (Dict.get? c key) with
    | none => simp
    | some v =>
      cases d with
      | true => simp
      | false => cases v <;> simp
  rw [← hread, ← hread]
  unfold process
  simp only [hw, bind, Except.bind]
  cases readImage decode tk [x.labels, x.features, x.transformed] dt with
  | error e => simp
  | ok l =>
    cases readImage decode pk [x.predictions, x.features, x.transformed] dp with
    | error e => simp
    | ok p =>
      simp only [Except.ok.injEq]
      by_cases hs : l.shape = p.shape
      · simp only [hs, ne_eq, not_true_eq_false, if_false, Except.ok.injEq]
        constructor
        · rintro rfl; exact ⟨hs, rfl, rfl⟩
        · rintro ⟨_, h1, h2⟩; rw [h1, h2]
      · simp only [hs, ne_eq, not_false_eq_true, if_true, reduceCtorEq, false_iff]
        rintro ⟨h1, h2, h3⟩
        rw [← h2, ← h3] at h1; exact hs h1

/-- With example weights in the extracts, the images are replaced by the weights: every example fails. -/
theorem C102_weights_fail (decode : Value → Except Err (Arr ℤ)) (tk pk : String) (dt dp : Bool) (x : Source)
    (hw : x.weights = some .array) : ∃ e, process decode tk pk dt dp x = .error e := by
  unfold process
  simp only [hw, bind, Except.bind, toInputs]
  cases readImage decode tk [x.labels, x.features, x.transformed] dt with
  | error e => exact ⟨e, rfl⟩
  | ok l =>
    cases readImage decode pk [x.predictions, x.features, x.transformed] dp with
    | error e => exact ⟨e, rfl⟩
    | ok p =>
      simp only
      split
      · exact ⟨_, rfl⟩
      · exact ⟨_, rfl⟩

/-! ### Examples -/

/-- Two images in two bundles, class 2 ignored. -/
example : (combiner [0, 1] (some 2)).run (.merge (.cons (.bundle [.ok (⟨[1, 3], [0, 1, 2]⟩, ⟨[1, 3], [0, 0, 0]⟩)])
      (.one (.bundle [.ok (⟨[1, 2], [1, 1]⟩, ⟨[1, 2], [1, 0]⟩)])))) =
    .ok [(0, ⟨1, 1, 2, 0⟩), (1, ⟨1, 1, 0, 2⟩)] := by decide +kernel

/-- A class that is both requested and ignored is still counted. -/
example : (combiner [2] (some 2)).run (.bundle [.ok (⟨[1, 3], [2, 2, 0]⟩, ⟨[1, 3], [2, 0, 2]⟩)]) =
    .ok [(2, ⟨1, 0, 1, 1⟩)] := by decide +kernel

/-- A class listed twice is counted twice. -/
example : (combiner [0, 0] none).run (.bundle [.ok (⟨[1, 1], [0]⟩, ⟨[1, 1], [0]⟩)]) = .ok [(0, ⟨2, 0, 0, 0⟩)] := by
  decide +kernel

example : process (fun _ => .error .valueError) "t" "p" false false
    ⟨[], [("p", .array ⟨[1, 1], [3]⟩)], [("t", .array ⟨[1, 1], [4]⟩), ("p", .array ⟨[1, 1], [5]⟩)], [], none⟩ =
      .ok (⟨[1, 1], [4]⟩, ⟨[1, 1], [3]⟩) := by decide +kernel

example : IsPair (⟨[1, 3], [0, 1, 2]⟩, ⟨[1, 3], [0, 0, 0]⟩) := ⟨rfl, rfl⟩

end Segmentation
end TFMA
