import Verif.Model.Feed
import Verif.Model.Bigram
import Verif.Model.NounV1
import Verif.Model.NounV2
import Verif.Model.Vectorizer
import Verif.Model.NewsNoun
import Verif.Model.PredTrain
/-!
The other trainers on a corpus that may fail while it is being read. A corpus whose `__len__` is positive but which hands out no sentence at all and then ends
normally is not considered (an `EojeolCounter` that prints reads its unset loop variable then).
-/
namespace Feed
open Py

/-- soynlp/word/_phrase.py:35-71: `_counter` is an attribute, `_unigram` is computed at the end. The corpus is not checked. -/
def bigramTrain (p : BG.Params) (s : BG.State) (c : Pass) : BG.State × PyM Unit :=
  match c.fails with
  | some e => ({ s with counter := some (c.sents.zipIdx.foldl (BG.sentence p) []) }, .error e)
  | none => BG.train p c.sents

/-- soynlp/noun/_noun_ver1.py:70-75,105: `_substring_counter` is set by the first pass, `lrgraph` and `words` at the end. `words` is the second component. -/
def nounTrain (p : V1.Params) (s : V1.State) (words : Option (List Str)) (c : Corpus) (minNounFrequency : Int := 5) : (V1.State × Option (List Str)) × PyM Unit :=
  if c.len ≤ 0 then ((s, words), .error .valueError)
  else match (c.pass 0).fails with
    | some e => ((s, words), .error e)
    | none =>
      let v := V1.scanVocabulary p (c.pass 0).sents minNounFrequency
      let s := { s with substringCounter := v.1 }
      match (c.pass 1).fails with
      | some e => ((s, words), .error e)
      | none => match LR.construct (V1.buildLrgraph p (c.pass 1).sents (Dict.keys v.1) v.2) with
        | .error e => ((s, words), .error e)
        | .ok g => (({ s with lrgraph := some g }, some (Dict.keys v.1)), .ok ())

/-- soynlp/utils/utils.py:193-250 with a corpus: nothing is stored before the last sentence has been counted, and a failure leaves no object -/
def countEojeols (p : EC.Params) (c : Corpus) : PyM EC.State :=
  if c.len ≤ 0 then .error .valueError
  else match (c.pass 0).fails with
    | some e => .error e
    | none =>
      let d := EC.filterMin p.minCount ((c.pass 0).sents.zipIdx.foldl (EC.countSent p) [])
      .ok { counter := d, countSum := Dict.sumI d, coverage := 0 }

/-- soynlp/noun/_noun_ver2.py:156-199 -/
def nounTrain2 (p : V2.Params) (s : V2.State) (c : Corpus) (minEojeolFrequency : Int := 1) : V2.State × PyM Unit :=
  match countEojeols (V2.counterParams p minEojeolFrequency) c with
  | .error e => (s, .error e)
  | .ok counter => match LR.toLrgraph counter p.maxLeft p.maxRight with
    | .error e => (s, .error e)
    | .ok g => ({ s with lrgraph := some g, numCovered := 0, numEojeols := counter.countSum }, .ok ())

/-- soynlp/predicator/_predicator.py:155-319: the counter is replaced before anything is learnt from it; the learnt endings are added when the extraction
    of endings has returned -/
def predTrain (entLt : List Int → Rat → Bool) (enumS : List Str → List Str) (enumL : List (Str × Str) → List (Str × Str)) (t : Pred.Thresholds) (doEomi doStem : Bool)
    (s : Pred.State) (c : Corpus) (minFrequency : Int := 2) : Pred.State × PyM Unit :=
  match countEojeols (Pred.counterParams s minFrequency) c with
  | .error e => (s, .error e)
  | .ok counter =>
    let s := (Pred.trainWithEojeolCounter s counter).1
    match Pred.learn entLt enumS enumL t doEomi doStem s with
    | .error e => (s, .error e)
    | .ok s => (s, .ok ())

/-- soynlp/vectorizer/_vectorizer.py:34-69: the documents are not checked -/
def fit (p : VZ.Params) (s : VZ.State) (c : Pass) : VZ.State × PyM Unit :=
  match c.fails with
  | some e => (s, .error e)
  | none => match VZ.fit p c.sents with
    | .error e => (s, .error e)
    | .ok s => (s, .ok ())

/-- soynlp/noun/_noun_news.py:80-116 -/
def newsTrain (p : NewsNoun.Params) (s : NewsNoun.State) (c : Corpus) : NewsNoun.State × PyM Unit :=
  if c.len ≤ 0 then (s, .error .valueError)
  else match (c.pass 0).fails with
    | some e => (s, .error e)
    | none =>
      let eojeols := NewsNoun.countEojeols p (c.pass 0).sents
      let lr := NewsNoun.buildLR (NewsNoun.entries p eojeols)
      let rl := NewsNoun.buildRL (NewsNoun.entries p eojeols)
      ({ s with trained := some { lrgraph := lr, rlgraph := rl, eojeols := eojeols, lcount := NewsNoun.sums lr, rcount := NewsNoun.sums rl } }, .ok ())

end Feed
