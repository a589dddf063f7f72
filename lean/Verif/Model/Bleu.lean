import Verif.Beam.Combine
import Mathlib.Data.Int.Notation

/-!
# BLEU

metrics/bleu.py (line numbers without a file).

Texts are any type `S`; `Tok` collects what sacrebleu and python's `str.split` do with a text: its words, and the text that
`_preprocess_segment` (174–178: lower case if asked, strip, tokenize) makes of it.  A word is any type with equality.  The arrays of an
accumulator have one entry for every order of n-grams, from 1 to `max_ngram_order`.  The score itself (334–365, sacrebleu's
`compute_bleu`) is a function of the accumulator and is left abstract.
-/

namespace TFMA
namespace Bleu

variable {S W : Type} [DecidableEq S] [DecidableEq W]

/-- The texts: `words` is `str.split`, `preprocess` is `_preprocess_segment` (174–178), `blank` the empty text, `order` is
`max_ngram_order` (4 in sacrebleu). -/
structure Tok (S W : Type) where
  words : S → List W
  preprocess : S → S
  blank : S
  order : ℕ

/-- 35–76 `_Accumulator`. -/
structure Acc where
  matching : List ℕ
  total : List ℕ
  hypLen : ℕ
  refLen : ℕ
  deriving DecidableEq, Repr

/-- 80–83 `_RefInfo`. -/
structure RefInfo (W : Type) where
  ngrams : Dict (List W) ℕ
  lens : List ℕ

/-- `collections.Counter(l)`. (python) -/
def counter (l : List (List W)) : Dict (List W) ℕ :=
  l.foldl (fun d g => Dict.set d g ((Dict.get? d g).getD 0 + 1)) []

/-- sacrebleu `extract_all_word_ngrams(line, 1, max_order)` after splitting the line: for every n, the tuples of n consecutive words,
counted; and the number of words. (used at 160, 200, 208, 253) -/
def ngrams (order : ℕ) (ws : List W) : Dict (List W) ℕ × ℕ :=
  (counter ((List.range order).flatMap fun k =>
      (List.range (ws.length + 1 - (k + 1))).map fun i => (ws.drop i).take (k + 1)),
    ws.length)

/-- The distance of two lengths. (101 `abs(ref_lens_arr - hyp_len)`) -/
def dist (a b : ℕ) : ℕ := ((a : ℤ) - b).natAbs

/-- 86–99 `_find_closest_ref_len`: `np.argmin` gives the first of the least entries and raises for an empty array (the docstring
promises -1). -/
def findClosestRefLen (hypLen : ℕ) : List ℕ → Except Err ℕ
  | [] => .error .valueError
  | l :: ls => .ok (ls.foldl (fun best x => if dist x hypLen < dist best hypLen then x else best) l)

/-- 142–172 `_extract_statistics_for_empty_reference`: the words of the hypotheses as they stand, not preprocessed. -/
def emptyReference (t : Tok S W) (hyps : List S) : List Acc :=
  [⟨List.replicate t.order 0, List.replicate t.order 0,
    hyps.foldl (fun n h => n + (ngrams t.order (t.words h)).2) 0, 0⟩]

/-- 208–211: `final_ngrams[ngram] = max(final_ngrams[ngram], count)` for the n-grams of one more reference (a `Counter` gives 0 for
an absent key). -/
def mergeCounts (final new : Dict (List W) ℕ) : Dict (List W) ℕ :=
  new.foldl (fun d p => Dict.set d p.1 (max ((Dict.get? d p.1).getD 0) p.2)) final

/-- 180–213 `_extract_reference_info` on the words of the preprocessed references; `next` raises StopIteration if there are none. -/
def referenceInfo (order : ℕ) : List (List W) → Except Err (RefInfo W)
  | [] => .error .stopIteration
  | r :: rs =>
    .ok (rs.foldl (fun info ref =>
        ⟨mergeCounts info.ngrams (ngrams order ref).1, info.lens ++ [(ngrams order ref).2]⟩)
      ⟨(ngrams order r).1, [(ngrams order r).2]⟩)

/-- `zip(*rows)`: the columns, as many as the shortest row has; none if there are no rows. (227) -/
def zipStar {α : Type} (rows : List (List α)) : List (List α) :=
  (List.range ((rows.map List.length).min?.getD 0)).map fun j => rows.filterMap (·[j]?)

/-- 215–231 `_extract_reference_ngrams_and_lens`: column by column, without the references that are None. -/
def referenceNgramsAndLens (t : Tok S W) (references : List (List (Option S))) : Except Err (List (RefInfo W)) :=
  (zipStar references).mapM fun refs =>
    referenceInfo t.order ((refs.filterMap id).map fun line => t.words (t.preprocess line))

/-- 262–272: one iteration of the loop over the n-grams of the hypothesis; the orders are 1, …, `max_ngram_order`, so the index is in
range. -/
def countNgram (refs : Dict (List W) ℕ) (a : List ℕ × List ℕ) (p : List W × ℕ) : List ℕ × List ℕ :=
  (match Dict.get? refs p.1 with
    | some c => a.1.modify (p.1.length - 1) (· + min p.2 c)
    | none => a.1,
   a.2.modify (p.1.length - 1) (· + p.2))

/-- 233–279 `_compute_segment_statistics` on the words of the preprocessed hypothesis. -/
def segmentStatistics (order : ℕ) (hyp : List W) (info : RefInfo W) : Except Err Acc :=
  let n := ngrams order hyp
  match findClosestRefLen n.2 info.lens with
  | .error e => .error e
  | .ok refLen =>
    let counts := n.1.foldl (countNgram info.ngrams) (List.replicate order 0, List.replicate order 0)
    .ok ⟨counts.1, counts.2, n.2, refLen⟩

/-- 281–332 `_extract_corpus_statistics`: `references` is the matrix (references × hypotheses) of the labels of one example.  The
warning about tokenized periods is left out. -/
def corpusStatistics (t : Tok S W) (hyps : List S) (references : List (List (Option S))) : Except Err (List Acc) :=
  if references.all (fun row => row.all fun r => decide (r = some t.blank)) then
    .ok (emptyReference t hyps)
  else
    match referenceNgramsAndLens t references with
    | .error e => .error e
    | .ok infos => (hyps.zip infos).mapM fun p => segmentStatistics t.order (t.words (t.preprocess p.1)) p.2

/-- 399–407: the sum of two accumulators. -/
def plus (a b : Acc) : Acc :=
  ⟨List.zipWith (· + ·) a.matching b.matching, List.zipWith (· + ·) a.total b.total,
    a.hypLen + b.hypLen, a.refLen + b.refLen⟩

/-- 367–371 `create_accumulator`. -/
def create (order : ℕ) : Acc := ⟨List.replicate order 0, List.replicate order 0, 0, 0⟩

/-- 373–413: the combiner.  An element is the pair of predictions and labels that `to_label_prediction_example_weight` gives for one
example (its weight is not used). -/
def combiner (t : Tok S W) : Beam.CombineFn (List S × List (List (Option S))) Acc where
  create := create t.order
  addInput a x :=
    match corpusStatistics t x.1 x.2 with
    | .error e => .error e
    | .ok stats => Beam.mergeWith plus (stats ++ [a])
  merge := Beam.mergeWith plus

end Bleu
end TFMA
