import Verif.Model.NewsPos
import Verif.Model.ChatPos
import Verif.Model.NounV2
import Verif.Model.PredTrain
/-!
Model of `NewsPOSExtractor.train` and `train_extract` (soynlp/pos/_news_pos.py), which `ChatPOSExtractor` inherits, on a list of sentences:
the composition of the noun extractor, the predicator extractor and the part-of-speech extractor modelled elsewhere. The packaged
dictionaries are parameters. Sets are lists; where the order in which a set is enumerated could matter it is given by `enum…`. The
`predicator_lrgraph` (soynlp/pos/_news_pos.py:123), which nothing reads, is not modelled: making it neither raises nor changes anything.
When a call raises, the state it leaves is not modelled.
-/
namespace NewsPos
open Py

/-- what the packaged dictionaries hold: soynlp/noun/_noun_ver2.py:72-103, soynlp/predicator/_predicator.py:69-100,
    soynlp/pos/_adverb.py:3-8 -/
structure Dictionaries where
  feats : V2.Features
  josas : List Str
  adjectives : List Str
  verbs : List Str
  eomis : List Str
  adverbs : List Str

/-- the arguments of the constructor and of `train`, soynlp/pos/_news_pos.py:17-20,42-50 -/
structure TrainParams where
  verbose : Bool := true
  ensureNormalized : Bool := true
  extractEomi : Bool := true
  minNumOfNounFeatures : Int := 1
  maxFrequencyWhenNounIsEojeol : Int := 30
  minNounScore : Rat := 3/10
  minNounFrequency : Rat := 1
  minEojeolFrequency : Int := 1
  minPredicatorFrequency : Int := 1
  minNumOfEomiFeatures : Int := 5
  minEomiScore : Rat := 3/10
  minEomiFrequency : Int := 1

/-- how the sets of soynlp/pos/_news_pos.py:53-66 and of what it calls are enumerated, and the comparison of an entropy with a bound (not used
    here: no particles and no stems are learnt) -/
structure Orders where
  entLt : List Int → Rat → Bool
  nouns : Nat → List Str → List Str
  stems : List Str → List Str
  lemmas : List (Str × Str) → List (Str × Str)

/-- the arguments of the noun extractor, soynlp/pos/_news_pos.py:99-107; the rest are its defaults -/
def nounParams (p : TrainParams) : V2.Params :=
  { extractPosFeature := false, extractCompound := false, ensureNormalized := p.ensureNormalized, verbose := p.verbose
    minNumOfFeatures := p.minNumOfNounFeatures, maxFrequencyWhenNounIsEojeol := p.maxFrequencyWhenNounIsEojeol }

/-- soynlp/pos/_news_pos.py:95-113: the noun extractor afterwards, and the nouns -/
def trainNounExtractor (D : Dictionaries) (o : Orders) (p : TrainParams) (sents : List Str) : PyM (V2.State × Dict Str (Rat × Rat)) :=
  match V2.trainWithSentences (nounParams p) { feats := D.feats } sents p.minEojeolFrequency with
  | .error e => .error e
  | .ok s => V2.extract (nounParams p) o.entLt o.nouns s p.minNounScore p.minNounFrequency false

/-- soynlp/pos/_news_pos.py:124-134: `ensure_normalized` is not passed on -/
def predExtractor (D : Dictionaries) (p : TrainParams) (feats : V2.Features) (nouns : List Str) : Pred.State :=
  Pred.construct D.josas D.adjectives D.verbs D.eomis nouns (some (feats.pos ++ feats.common)) none none none p.verbose false

/-- the thresholds of `PredicatorExtractor.train_extract` as it is called, soynlp/pos/_news_pos.py:136-139 -/
def thresholds (p : TrainParams) : Pred.Thresholds :=
  { numFeatures := p.minNumOfEomiFeatures, eomiScore := p.minEomiScore, eomiFrequency := p.minEomiFrequency }

/-- soynlp/pos/_news_pos.py:115-141 and soynlp/predicator/_predicator.py:138-155: the predicator extractor afterwards, adjectives and verbs -/
def trainPredicatorExtractor (D : Dictionaries) (o : Orders) (p : TrainParams) (feats : V2.Features) (nouns : List Str) (sents : List Str) :
    PyM (Pred.State × Dict Str Pred.Entry × Dict Str Pred.Entry) :=
  match Pred.trainWithSentences (predExtractor D p feats nouns) sents p.minEojeolFrequency with
  | .error e => .error e
  | .ok s => match Pred.learn o.entLt o.stems o.lemmas (thresholds p) p.extractEomi false s with
    | .error e => .error e
    | .ok s => Pred.extract o.lemmas s [] p.minPredicatorFrequency

/-- the counts of the predicator extractor are positive; here they are natural numbers (soynlp/pos/_news_pos.py:56) -/
def natEntries (d : Dict Str Pred.Entry) : Dict Str Entry := d.map (fun e => (e.1, (e.2.1.toNat, e.2.2)))

/-- the same for the eojeol counter (soynlp/pos/_news_pos.py:67-69) -/
def natCounts (d : Dict Str Int) : Dict Str Nat := d.map (fun e => (e.1, e.2.toNat))

/-- `None.to_EojeolCounter` raises (soynlp/pos/_news_pos.py:67-69) -/
def eojeolTable (s : V2.State) : PyM (Dict Str Nat) :=
  match s.lrgraph with
  | none => .error .attributeError
  | some g => (LR.toEojeolCounter g true).map (fun c => natCounts c.counter)

/-- soynlp/pos/_news_pos.py:64-66 -/
def allAdverbs (D : Dictionaries) (adjectiveStems verbStems : List Str) : PyM (List Str) :=
  match stemToAdverb adjectiveStems with
  | .error e => .error e
  | .ok a => (stemToAdverb verbStems).map (fun v => D.adverbs ++ a ++ v)

/-- soynlp/pos/_news_pos.py:42-69 -/
def train (D : Dictionaries) (o : Orders) (p : TrainParams) (sents : List Str) : PyM State :=
  match trainNounExtractor D o p sents with
  | .error e => .error e
  | .ok (n, nouns) => match trainPredicatorExtractor D o p n.feats (Dict.keys nouns) sents with
    | .error e => .error e
    | .ok (q, adjectives, verbs) => match allAdverbs D q.adjectives q.verbs with
      | .error e => .error e
      | .ok adverbs => (eojeolTable n).map (fun eojeols =>
        { nouns := Dict.keys nouns, adjectives := natEntries adjectives, verbs := natEntries verbs, adjectiveStems := q.adjectives
          verbStems := q.verbs, eomis := q.eomis, josas := q.josas, adverbs := adverbs, eojeols := eojeols })

/-- soynlp/pos/_news_pos.py:22-40 -/
def trainExtract (D : Dictionaries) (o : Orders) (p : TrainParams) (sents : List Str) : PyM (State × WordTags) :=
  match train D o p sents with
  | .error e => .error e
  | .ok s => printing p.verbose extract s

/-- soynlp/pos/_news_pos.py:22-40 for soynlp/pos/_chat_pos.py:18-21, whose `extract` reads the chat particles
    again (soynlp/pos/_chat_pos.py:27-29) -/
def chatTrainExtract (D : Dictionaries) (o : Orders) (p : TrainParams) (sents : List Str) : PyM (State × WordTags) :=
  match train D o p sents with
  | .error e => .error e
  | .ok s => printing p.verbose (chatExtract D.josas) s

end NewsPos
