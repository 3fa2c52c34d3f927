import Verif.Model.LineCorpus
import Verif.Model.EojeolCounter
import Verif.Model.WordExtractor
import Verif.Model.NounV1
import Verif.Model.NounV2
import Verif.Model.NewsNoun
import Verif.Model.Predicator
import Verif.Model.Bigram
import Verif.Model.Vectorizer
import Verif.Model.WordContext
import Verif.Model.EojeolPattern
/-!
What the corpus argument of the trainers can be: a list, a `DoublespaceLineCorpus`, or an iterator (a generator, an open file), which can be
gone through only once and has no length. The other models take the list of items a corpus yields; here it is the object itself, and going
through it, or asking for its length, may change it.
-/
namespace Src
open Py

/-- the objects passed as `sents`, `sentences` or `docs` (soynlp/utils/utils.py:81-100) -/
inductive Source where
  | listing (items : List Str)
  | file (c : Corpus.Obj)
  | iterator (items : List Str)

/-- one `for` loop over the object: what it yields, and the object afterwards (soynlp/utils/utils.py:145-182 for the class) -/
def iterate : Source → List Str × Source
  | .listing l => (l, .listing l)
  | .file c => (Corpus.items c, .file c)
  | .iterator l => (l, .iterator [])

/-- `len(corpus)`, and the object afterwards: an iterator has none; Python turns the `-1` of soynlp/utils/utils.py:184-190 into `ValueError` -/
def len : Source → PyM Nat × Source
  | .listing l => (.ok l.length, .listing l)
  | .file c => (if (Corpus.len c).1 < 0 then .error .valueError else .ok (Corpus.len c).1.toNat, .file (Corpus.len c).2)
  | .iterator l => (.error .typeError, .iterator l)

/-- soynlp/utils/utils.py:81-98: everything here has `__iter__`; `hasattr(corpus, '__len__')` is asked before `len` is called -/
def checkCorpus : Source → PyM Unit × Source
  | .iterator l => (.error .valueError, .iterator l)
  | src => match len src with
    | (.error e, src) => (.error e, src)
    | (.ok n, src) => (if n ≤ 0 then .error .valueError else .ok (), src)

/-- `check_corpus(sents)` and then training with what the corpus yields. (Those who go through it more than once, LRNounExtractor and
    NewsNounExtractor, find the same items again: what has passed the check is no iterator.)
    soynlp/word/_word.py:57, soynlp/noun/_noun_ver1.py:71, soynlp/noun/_noun_news.py:81, soynlp/noun/_noun_ver2.py:165, soynlp/utils/utils.py:224 -/
def checked {α : Type} (src : Source) (train : List Str → PyM α) : PyM α :=
  match checkCorpus src with
  | (.error e, _) => .error e
  | (.ok _, src) => train (iterate src).1

/-- `EojeolCounter(sents)`, soynlp/utils/utils.py:193-226 -/
def countEojeols (p : EC.Params) (src : Source) : PyM EC.State := checked src (fun l => EC.construct p (some l))

/-- `WordExtractor.train`, soynlp/word/_word.py:56-57 -/
def trainWords (p : WX.Params) (s : WX.State) (src : Source) (k : Int) (cumulate : Bool) : PyM WX.State := checked src (fun l => WX.train p s l k cumulate)

/-- `LRNounExtractor.train`, soynlp/noun/_noun_ver1.py:70-71 -/
def trainNouns1 (p : V1.Params) (s : V1.State) (src : Source) (m : Int) : PyM V1.State := checked src (fun l => V1.train p s l m)

/-- `LRNounExtractor_v2._train_with_sentences`, soynlp/noun/_noun_ver2.py:156-176 (the counter checks once more) -/
def trainNouns2 (p : V2.Params) (s : V2.State) (src : Source) (m : Int) : PyM V2.State := checked src (fun l => V2.trainWithSentences p s l m)

/-- `NewsNounExtractor.train`, soynlp/noun/_noun_news.py:80-81 -/
def trainNewsNouns (p : NewsNoun.Params) (s : NewsNoun.State) (src : Source) : PyM NewsNoun.State := checked src (fun l => NewsNoun.train p s l)

/-- `PredicatorExtractor._train_with_sentences`, whose counter checks (soynlp/predicator/_predicator.py:194-216, soynlp/utils/utils.py:224) -/
def trainPredicators (s : Pred.State) (src : Source) (m : Int) : PyM Pred.State := checked src (fun l => Pred.trainWithSentences s l m)

/-- `Bigram.train` goes through its sentences once, unchecked, soynlp/word/_phrase.py:35-71 -/
def trainBigrams (p : BG.Params) (src : Source) : BG.State × PyM Unit := BG.train p (iterate src).1

/-- `EojeolPatternTrainer.train`: the first thing done, after setting the word sets if they are given, is `len(sents)`,
    soynlp/tokenizer/_tokenizer_builder.py:20-23,36,62-66. (A file corpus whose length is not the number of its items, see C29, is not modelled.) -/
def trainPatterns (s : EP.State) (src : Source) (wl wr : List Str) : EP.State × PyM Unit :=
  match len src with
  | (.error e, _) => (if wl = [] ∨ wr = [] then s else { s with wordsetL := some wl, wordsetR := some (wr ++ [[]]) }, .error e)
  | (.ok _, src) => EP.train s (iterate src).1 wl wr

/-- `BaseVectorizer.fit_transform`, soynlp/vectorizer/_vectorizer.py:30-32: two loops over `docs`. The vectorizer afterwards, and the matrix. -/
def fitTransform (p : VZ.Params) (s : VZ.State) (src : Source) : VZ.State × PyM ((Nat × Nat) × List (Nat × Nat × Nat)) :=
  let (docs, src) := iterate src
  match VZ.fit p docs with
  | .error e => (s, .error e)
  | .ok s => (s, VZ.transform p s (iterate src).1)

/-- `BaseVectorizer.to_file`, soynlp/vectorizer/_vectorizer.py:94-131: a first loop counts documents and entries, a second writes the entries.
    `none` as text: the file is not touched. -/
def toFile (p : VZ.Params) (s : VZ.State) (src : Source) : Option Str × PyM Unit :=
  let (docs, src) := iterate src
  if docs = [] then (none, .error .unboundLocal)
  else (some ("%%MatrixMarket matrix coordinate integer general\n".toList ++ "%\n".toList ++ VZ.line3 docs.length s.nVocabs (VZ.nElements p s docs) ++
    (iterate src).1.zipIdx.flatMap (fun d =>
      (Dict.counter ((p.tokenizer d.1).filterMap (fun t => Dict.get? s.vocabulary t))).flatMap (fun e => VZ.line3 (d.2 + 1) (e.1 + 1) e.2))), .ok ())

/-- `BaseVectorizer.fit_to_file`, soynlp/vectorizer/_vectorizer.py:90-92 -/
def fitToFile (p : VZ.Params) (s : VZ.State) (src : Source) : VZ.State × Option Str × PyM Unit :=
  let (docs, src) := iterate src
  match VZ.fit p docs with
  | .error e => (s, none, .error e)
  | .ok s => (s, toFile p s src)

/-- `sent_to_word_contexts_matrix`, soynlp/vectorizer/_word_context.py:5-26,31-43,70,99-102: a first loop counts the words, a second the contexts -/
def contexts (p : WC.Params) (src : Source) (order : List Str) : PyM (List (Nat × Nat × Rat) × List Str) :=
  let (sents, src) := iterate src
  if p.verbose ∧ sents = [] then .error .unboundLocal
  else
    let v2i := WC.vocab2idx p sents order
    let again := (iterate src).1
    if p.verbose ∧ again = [] then .error .unboundLocal
    else
      match WC.encodeAsMatrix v2i (WC.wordContext p v2i again) with
      | .error e => .error e
      | .ok x => .ok (x, WC.idx2vocab v2i)

end Src
