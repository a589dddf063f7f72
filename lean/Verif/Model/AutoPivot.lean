import Mathlib.Data.List.Sort
import Mathlib.Data.List.Dedup
import Verif.Model.DataFrames

/-!
# Pivoting data frames (api/dataframe.py 465–600)

Cells that pandas shows as NaN or None are `none`.  pandas' conversions of columns (whole numbers next to NaN become floats) are not
modelled: a column is assumed to have values of one type, and its texts are given by a function.
-/

namespace TFMA
namespace DataFrames

/-- A column: its group and its name. (api/dataframe.py 271–276) -/
abbrev Column := Group × String

/-- A row: the cell in every column. (api/dataframe.py 271–276) -/
abbrev SheetRow := Column → Option Prim

/-- A data frame as its columns and rows. (pandas.DataFrame, as used in api/dataframe.py 507–540) -/
structure Sheet where
  columns : List Column
  rows : List SheetRow

/-- The rows of a frame of `_to_dataframes`, by ascending row number. (api/dataframe.py 271–276; for frames in which no column has a
row number twice) -/
def Frame.sheet (f : Frame) : Sheet :=
  { columns := f.map (·.1)
    rows := (((f.flatMap fun c => c.2.map (·.2)).dedup).insertionSort (· ≤ ·)).map fun r c => (f.cell r c).join }

/-- The names of the columns of a group, `df[prefix].columns`. (api/dataframe.py 497, 524, 534–535) -/
def Sheet.names (s : Sheet) (g : Group) : List String := s.columns.filterMap fun c => if c.1 = g then some c.2 else none

/-- api/dataframe.py 494–499 `_concatenate`: `text` is the text of a value of a slice column. -/
def concatenate (text : String → Prim → String) (names : List String) (r : SheetRow) : String :=
  "; ".intercalate (names.filterMap fun n => (r (.slices, n)).map fun v => n ++ ":" ++ text n v)

/-- The column of the texts of slices. (api/dataframe.py 34) -/
def sliceStr : String := "stringified_slices"

/-- api/dataframe.py 471–504 `_stringify_slices` (`drop_slices` is never False): the slice columns are replaced by one text, by which
the rows are sorted. -/
def stringifySlices (text : String → Prim → String) (s : Sheet) : Sheet :=
  let t := concatenate text (s.names .slices)
  { columns := (.slices, sliceStr) :: s.columns.filter fun c => c.1 ≠ .slices
    rows := (s.rows.insertionSort fun a b => t a ≤ t b).map fun r c =>
      if c = (.slices, sliceStr) then some (.text (t r)) else if c.1 = .slices then none else r c }

/-- `nunique(dropna=False)` of a column. (api/dataframe.py 524) -/
def nunique (s : Sheet) (c : Column) : ℕ := ((s.rows.map fun r => r c).dedup).length

/-- api/dataframe.py 524–533: the columns of keys by name, then by descending number of values; those with at least two. -/
def pivotColumns (s : Sheet) : List Column :=
  ((((s.names .keys).insertionSort (· ≤ ·)).map fun n => ((Group.keys, n) : Column)).insertionSort
    fun a b => nunique s b ≤ nunique s a).filter fun c => nunique s c > 1

/-- A level of the name of a column of the result: the value column, or the value in a pivot column. (api/dataframe.py 536) -/
inductive Level where
  | column (c : Column)
  | value (v : Option Prim)
  deriving DecidableEq

/-- The result of `DataFrame.pivot`: the names of rows and columns, and the cells row by row; `multi` if the names of the columns
have several levels.  (api/dataframe.py 536; pandas sorts rows and columns, here they are in the order of their first occurrence) -/
structure Pivoted where
  index : List (List (Option Prim))
  labels : List (List Level)
  cells : List (List (Option Prim))
  multi : Bool

/-- The cells of a row in some columns. (api/dataframe.py 536) -/
def pick (cs : List Column) (r : SheetRow) : List (Option Prim) := cs.map r

/-- pandas' `DataFrame.pivot` with a list of columns (api/dataframe.py 536): without pivot columns the rows stay as they are; otherwise
two rows with the same index and pivot columns are an error, and missing combinations become NaN. -/
def pivot (s : Sheet) (index columns values : List Column) : Except Err Pivoted :=
  if columns = [] then
    .ok { index := s.rows.map (pick index), labels := values.map fun c => [.column c], cells := s.rows.map (pick values)
          multi := false }
  else if (s.rows.map fun r => (pick index r, pick columns r)).Nodup then
    let is := (s.rows.map (pick index)).dedup
    let ks := (s.rows.map (pick columns)).dedup
    .ok { index := is
          labels := values.flatMap fun c => ks.map fun k => .column c :: k.map .value
          cells := is.map fun i => values.flatMap fun c => ks.map fun k =>
            (s.rows.find? fun r => pick index r = i ∧ pick columns r = k).bind fun r => r c
          multi := true }
  else .error .valueError

/-- The levels whose values are all the same. (api/dataframe.py 467) -/
def dropables (labels : List (List Level)) : List ℕ :=
  (List.range ((labels.map List.length).headD 0)).filter fun i => ((labels.map fun l => l[i]?).dedup).length = 1

/-- A list without the places with the given numbers. (pandas `droplevel`, api/dataframe.py 468) -/
def dropLevels (drop : List ℕ) (l : List Level) : List Level :=
  (l.zipIdx.filter fun x => !drop.contains x.2).map (·.1)

/-- api/dataframe.py 465–468 `_collapse_column_names`: dropping all levels is an error. -/
def collapseNames (labels : List (List Level)) : Except Err (List (List Level)) :=
  let drop := dropables labels
  if drop.length ≥ (labels.map List.length).headD 0 ∧ drop ≠ [] then .error .valueError
  else .ok (labels.map (dropLevels drop))

/-- api/dataframe.py 507–541 `_auto_pivot`. (The name of the index is not modelled.) -/
def pivotSheet (text : String → Prim → String) (stringify collapse : Bool) (s : Sheet) : Except Err Pivoted :=
  let s := if stringify then stringifySlices text s else s
  match pivot s ((s.names .slices).map fun n => (.slices, n)) (pivotColumns s) ((s.names .values).map fun n => (.values, n)) with
  | .error e => .error e
  | .ok p =>
    if collapse ∧ p.multi then
      match collapseNames p.labels with
      | .error e => .error e
      | .ok ls => .ok { p with labels := ls }
    else .ok p

/-- api/dataframe.py 544–600 `auto_pivot`: all three groups of columns are needed (the groups are named alike for metrics and
plots). -/
def autoPivot (text : String → Prim → String) (stringify collapse : Bool) (s : Sheet) : Except Err Pivoted :=
  if s.columns.any (·.1 = .slices) ∧ s.columns.any (·.1 = .keys) ∧ s.columns.any (·.1 = .values) then
    pivotSheet text stringify collapse s
  else .error .notImplementedError

end DataFrames
end TFMA
