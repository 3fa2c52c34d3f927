import Verif.Py.Dict
import Verif.Py.Sort
import Verif.Py.File
import Mathlib.Data.Rat.Floor
/-!
Model of soynlp/vectorizer/_vectorizer.py `BaseVectorizer`. Document fractions are exact rationals (floats in the code); the sparse
matrix is its list of (row, column, count) triples with its shape; printing and directory creation are not modelled.
-/
namespace VZ
open Py

/-- soynlp/vectorizer/_vectorizer.py:8-22; `stopwords` and `lowercase` are stored there and never read -/
structure Params where
  tokenizer : Str → List Str := splitWs
  minTf : Int := 0
  maxTf : Int := 99999999
  minDf : Rat := 0
  maxDf : Rat := 1

/-- soynlp/vectorizer/_vectorizer.py:26-28 -/
structure State where
  vocabulary : Dict Str Nat := []
  idx2vocab : List Str := []
  nVocabs : Nat := 0
  deriving DecidableEq

/-- soynlp/vectorizer/_vectorizer.py:12-13: the constructor's assertions -/
def checkParams (p : Params) : PyM Unit :=
  if 0 ≤ p.minDf ∧ p.minDf < 1 ∧ 0 < p.maxDf ∧ p.maxDf ≤ 1 then .ok () else .error .assertion

/-- soynlp/vectorizer/_vectorizer.py:39-46: one of the two (identical) dictionaries `df`, `tf` -/
def docCounts (p : Params) (docs : List Str) : Dict Str Nat :=
  docs.foldl (fun df doc => (Dict.counter (p.tokenizer doc)).foldl (fun df e => Dict.add df e.1 1) df) []

/-- soynlp/vectorizer/_vectorizer.py:59-61, the (term, count) pairs in index order -/
def ordered (vocabs : Dict Str Nat) : List (Str × Nat) := sorted (fun a b => decide (b.2 ≤ a.2)) vocabs

/-- soynlp/vectorizer/_vectorizer.py:34-69 (`int` of a non-negative number is its floor); `n_docs = i_doc + 1` raises without documents -/
def fit (p : Params) (docs : List Str) : PyM State :=
  let df := docCounts p docs
  let tf := docCounts p docs
  if docs = [] then .error .unboundLocal
  else
    let nDocs : Rat := docs.length
    let minDf : Int := ⌊nDocs * p.minDf⌋
    let maxDf : Int := ⌊nDocs * p.maxDf⌋
    let df := df.filter (fun e => decide (minDf ≤ (e.2 : Int) ∧ (e.2 : Int) ≤ maxDf))
    let tf := tf.filter (fun e => decide (p.minTf ≤ (e.2 : Int) ∧ (e.2 : Int) ≤ p.maxTf))
    let vocabs := tf.filter (fun e => Dict.has df e.1)
    let vocabulary := Dict.ofList ((ordered vocabs).map (·.1)).zipIdx
    let idx2vocab := (sorted (fun a b => decide (a.2 ≤ b.2)) vocabulary).map (·.1)
    .ok ⟨vocabulary, idx2vocab, idx2vocab.length⟩

/-- soynlp/vectorizer/_vectorizer.py:136-137 -/
def encodeList (p : Params) (s : State) (doc : Str) : List Nat := (p.tokenizer doc).filterMap (fun t => Dict.get? s.vocabulary t)

/-- soynlp/vectorizer/_vectorizer.py:139-140 -/
def decodeList (s : State) (ids : List Int) : PyM (List Str) :=
  (ids.filter (fun i : Int => decide (0 ≤ i ∧ i < (s.nVocabs : Int)))).mapM (fun i : Int => getItem s.idx2vocab i.toNat)

/-- soynlp/vectorizer/_vectorizer.py:142-145 -/
def encodeBow (p : Params) (s : State) (doc : Str) : Dict Nat Nat :=
  Dict.ofList ((Dict.counter (p.tokenizer doc)).filterMap (fun e => (Dict.get? s.vocabulary e.1).map (fun i => (i, e.2))))

/-- one item of soynlp/vectorizer/_vectorizer.py:148 -/
def decodeEntry (s : State) (e : Int × Nat) : PyM (Str × Nat) :=
  match getItem s.idx2vocab e.1.toNat with
  | .ok t => .ok (t, e.2)
  | .error x => .error x

/-- soynlp/vectorizer/_vectorizer.py:147-149 -/
def decodeBow (s : State) (bow : Dict Int Nat) : PyM (Dict Str Nat) :=
  match (bow.filter (fun e : Int × Nat => decide (0 ≤ e.1 ∧ e.1 < (s.nVocabs : Int)))).mapM (decodeEntry s) with
  | .ok l => .ok (Dict.ofList l)
  | .error x => .error x

/-- soynlp/vectorizer/_vectorizer.py:71-88: shape and triples -/
def transform (p : Params) (s : State) (docs : List Str) : PyM ((Nat × Nat) × List (Nat × Nat × Nat)) :=
  if docs = [] then .error .unboundLocal
  else .ok ((docs.length, s.nVocabs), docs.zipIdx.flatMap (fun d => (encodeBow p s d.1).map (fun e => (d.2, e.1, e.2))))

/-- `'{} {} {}\n'.format(a, b, c)` (soynlp/vectorizer/_vectorizer.py:119,129) -/
def line3 (a b c : Nat) : Str := natStr a ++ ' ' :: natStr b ++ ' ' :: natStr c ++ ['\n']

/-- soynlp/vectorizer/_vectorizer.py:97-103: for each document the number of different known words -/
def nElements (p : Params) (s : State) (docs : List Str) : Nat :=
  (docs.map (fun doc => ((Dict.counter (p.tokenizer doc)).filter (fun e => Dict.has s.vocabulary e.1)).length)).sum

/-- soynlp/vectorizer/_vectorizer.py:94-131: the text written -/
def toFile (p : Params) (s : State) (docs : List Str) : PyM Str :=
  if docs = [] then .error .unboundLocal
  else .ok ("%%MatrixMarket matrix coordinate integer general\n".toList ++ "%\n".toList ++ line3 docs.length s.nVocabs (nElements p s docs) ++
    docs.zipIdx.flatMap (fun d =>
      (Dict.counter ((p.tokenizer d.1).filterMap (fun t => Dict.get? s.vocabulary t))).flatMap (fun e => line3 (d.2 + 1) (e.1 + 1) e.2)))

/-- soynlp/vectorizer/_vectorizer.py:152-153, 159-160 -/
def vocabName (fname : Str) : Str := if fname.drop (fname.length - 6) ≠ ".vocab".toList then fname ++ ".vocab".toList else fname

/-- soynlp/vectorizer/_vectorizer.py:151-156, on a file system (a dict from names to contents) -/
def save (s : State) (fname : Str) (fs : Dict Str Str) : Dict Str Str :=
  Dict.set fs (vocabName fname) (s.idx2vocab.flatMap (fun v => v ++ ['\n']))

/-- soynlp/vectorizer/_vectorizer.py:158-164; a missing file raises FileNotFoundError, an OSError -/
def load (fname : Str) (fs : Dict Str Str) : PyM State :=
  match Dict.get? fs (vocabName fname) with
  | none => .error .osError
  | some text =>
    let idx2vocab := (fileLines text).map strip
    .ok ⟨Dict.ofList idx2vocab.zipIdx, idx2vocab, idx2vocab.length⟩

/-- soynlp/vectorizer/_vectorizer.py:166-167 -/
def vocabs (s : State) : List Str := (sorted (fun a b => decide (a.2 ≤ b.2)) s.vocabulary).map (·.1)

end VZ
