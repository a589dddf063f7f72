import Verif.Model.Inputs

/-!
# Preparation of labels: vocabularies and sparse labels

metrics/metric_util.py 840–971 `prepare_labels_and_predictions`.
-/

namespace TFMA
namespace Labels

open Inputs

variable {α β : Type}

/-- Entries of a dictionary of predictions: numbers, texts or a further dictionary. (metrics/metric_util.py 879–928) -/
inductive Pred where
  | floats (a : Arr Fl)
  | texts (a : Arr String)
  | mapping

/-- `labels`: an array of numbers or texts, or a sparse tensor with such values; the indices of a sparse tensor form an array with one
row per value. (metrics/metric_util.py 863, 943–968) -/
inductive LabelArg where
  | numbers (a : Arr ℚ)
  | texts (a : Arr String)
  | sparseNumbers (values : List ℚ) (indices : Arr ℤ)
  | sparseTexts (values : List String) (indices : Arr ℤ)

/-- Prepared labels. (metrics/metric_util.py 970) -/
inductive Prepared where
  | numbers (a : Arr ℚ)
  | texts (a : Arr String)
  deriving DecidableEq, Repr

/-- metric_util.py 893–897: the batch dimensions are removed; the first row of nothing raises IndexError. -/
def unbatch (d : List ℕ) (data : List String) : Except Err (List String) :=
  match d with
  | [] => .error .typeError
  | [_] => .ok data
  | n :: m :: rest => if n = 0 then .error .indexError else unbatch (m :: rest) (data.take (m :: rest).prod)

/-- metric_util.py 879–897: the vocabulary in the predictions (python: a scalar vocabulary fails when it is used, here at once; a
vocabulary of numbers matches no text). -/
def vocabulary (d : Dict String Pred) : Except Err (Option (List String)) :=
  let read (p : Option Pred) : Except Err (Option (List String)) := match p with
    | some (.texts a) => (unbatch a.shape a.data).map some
    | some (.floats _) => .ok (some [])
    | _ => .error .attributeError
  if Dict.has d "all_classes" then read (Dict.get? d "all_classes")
  else if Dict.has d "scores" && Dict.has d "classes" then read (Dict.get? d "classes")
  else .ok none

/-- metric_util.py 991–996 `lookup`: the first position of the text in the vocabulary, else -1. -/
def lookupFrom (i : ℤ) (t : String) : List String → ℤ
  | [] => -1
  | c :: cs => if c = t then i else lookupFrom (i + 1) t cs

/-- metric_util.py 985–1000 `_string_labels_to_class_ids`. -/
def toClassIds (vocab : List String) (labels : List String) : List ℤ := labels.map fun t => lookupFrom 0 t vocab

/-- metric_util.py 934–941 `_maybe_convert_labels_to_one_hot`. -/
def maybeOneHot (labels : Arr ℚ) (predictions : Option (Arr β)) : Except Err (Arr ℚ) :=
  if labels.data ≠ [] ∧ labels.data.all (fun x => decide (x = -1)) then
    match predictions with
    | none => .error .attributeError
    | some p => oneHot labels p.shape
  else .ok labels

/-- `result[i] = value` for a python index: all values of row `i` are replaced. (metrics/metric_util.py 980) -/
def setRow (shape : List ℕ) (data : List α) (i : ℤ) (v : α) : Except Err (List α) :=
  match shape with
  | [] => .error .indexError
  | n :: rest =>
    let j := if i < 0 then i + n else i
    if j < 0 ∨ (n : ℤ) ≤ j then .error .indexError
    else .ok (data.mapIdx fun p x => if p / rest.prod = j.toNat then v else x)

/-- `result[index] = value` for several indices. (metrics/metric_util.py 979–980) -/
def setRows (shape : List ℕ) (data : List α) (is : List ℤ) (v : α) : Except Err (List α) :=
  match is with
  | [] => .ok data
  | i :: is => match setRow shape data i v with
    | .error e => .error e
    | .ok d => setRows shape d is v

/-- What iterating over the squeezed indices yields: numbers for one dimension, rows for two; more dimensions are not modelled.
(metrics/metric_util.py 979) -/
def indexItems (indices : Arr ℤ) : Except Err (List (List ℤ)) :=
  let a := squeeze indices
  match a.shape with
  | [] => .error .typeError
  | [_] => .ok (a.data.map fun i => [i])
  | [n, m] => .ok (rows m n a.data)
  | _ => .error .notImplementedError

/-- The loop of 979–980. (metrics/metric_util.py 979–980) -/
def fill (shape : List ℕ) (data : List α) : List (α × List ℤ) → Except Err (List α)
  | [] => .ok data
  | (v, is) :: rest => match setRows shape data is v with
    | .error e => .error e
    | .ok d => fill shape d rest

/-- metric_util.py 971–981 `_to_dense_tensor`; `zero` is what `np.zeros` gives for the type of the values: 0 for numbers, the empty text
for texts of numpy (for python objects it would be the number 0, which is not modelled). -/
def toDense (zero : α) (values : List α) (indices : Arr ℤ) (dense : List ℕ) : Except Err (Arr α) := do
  let result : Arr α := squeeze ⟨dense, List.replicate dense.prod zero⟩
  let items ← indexItems indices
  let d ← fill result.shape result.data (values.zip items)
  return ⟨dense, d⟩

/-- metric_util.py 943–968: the labels. -/
def prepareLabels (vocab : Option (List String)) (labels : LabelArg) (predictions : Option (Arr β)) : Except Err Prepared :=
  match labels with
  | .numbers a => .ok (.numbers a)
  | .texts a => match vocab with
    | none => .ok (.texts a)
    | some v => (maybeOneHot ⟨a.shape, (toClassIds v a.data).map fun i : ℤ => (i : ℚ)⟩ predictions).map .numbers
  | .sparseNumbers vs is => match predictions with
    | none => .error .valueError
    | some p => if p.size = 0 then .error .valueError else (toDense 0 vs is p.shape).map .numbers
  | .sparseTexts vs is => match predictions with
    | none => .error .valueError
    | some p => if p.size = 0 then .error .valueError else
      match vocab with
      | none => (toDense "" vs is p.shape).map .texts
      | some v => do
        let d ← toDense 0 (List.replicate vs.length 1) ⟨[vs.length], toClassIds v vs⟩ p.shape
        (maybeOneHot d predictions).map .numbers

/-- The predictions found must be an array; a missing entry and a dictionary raise ValueError. (metrics/metric_util.py 912–928) -/
def asArray : Option Pred → Except Err (Arr Fl ⊕ Arr String)
  | some (.floats a) => .ok (.inl a)
  | some (.texts a) => .ok (.inr a)
  | _ => .error .valueError

/-- metric_util.py 899–928: the predictions under the prediction key or the first common key. -/
def choosePrediction (key : String) (d : Dict String Pred) : Except Err (Arr Fl ⊕ Arr String) :=
  asArray (if key = "" then commonKeys.findSome? (Dict.get? d) else Dict.get? d key)

/-- metric_util.py 840–970 `prepare_labels_and_predictions` for a dictionary of predictions. -/
def prepare (labels : LabelArg) (d : Dict String Pred) (key : String) : Except Err (Prepared × (Arr Fl ⊕ Arr String)) := do
  let vocab ← vocabulary d
  let p ← choosePrediction key d
  let l ← match p with
    | .inl a => prepareLabels vocab labels (some a)
    | .inr a => prepareLabels vocab labels (some a)
  return (l, p)

end Labels
end TFMA
