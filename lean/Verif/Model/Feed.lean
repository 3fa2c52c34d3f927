import Verif.Model.WordExtractor
/-!
Training on a corpus object that may fail while it is being read, and what the object being trained is left with. A failure is an exception raised by the
corpus' own `__iter__` (a line that cannot be decoded, a lost connection), so it falls between two sentences.
-/
namespace Feed
open Py

/-- one pass over a corpus: the sentences handed out, and the exception that ends the pass, if one does (`for sent in sents`,
    soynlp/word/_word.py:77, soynlp/noun/_noun_ver1.py:90,118) -/
structure Pass where
  sents : List Str
  fails : Option PyErr := none

/-- a corpus object: its `__len__`, and what each pass over it gives (soynlp/utils/utils.py:81-98: `check_corpus` only asks for both methods) -/
structure Corpus where
  len : Nat
  pass : Nat → Pass

/-- soynlp/word/_word.py:56-116: the tables are attributes and are written sentence by sentence -/
def wordTrain (p : WX.Params) (s : WX.State) (c : Corpus) (numForPruning : Int := 0) (cumulate : Bool := true) : WX.State × PyM Unit :=
  if c.len ≤ 0 then (s, .error .valueError)
  else
    let s := if cumulate then s else {}
    let s := (c.pass 0).sents.zipIdx.foldl (WX.trainSent p numForPruning) s
    match (c.pass 0).fails with
    | some e => (s, .error e)
    | none => (⟨WX.pruneMin p.minFrequency s.L, WX.pruneMin p.minFrequency s.R, WX.pruneOne s.aL, WX.pruneOne s.aR⟩, .ok ())

end Feed
