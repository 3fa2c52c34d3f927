import Verif.Model.Josa
import Verif.Model.NounPost
import Verif.Model.MaxScore
import Verif.Model.Normalizer
import Mathlib.Data.List.Dedup
/-!
Model of soynlp/noun/_noun_ver2.py `LRNounExtractor_v2`. Scores are exact rationals (0.3 is 3/10). Python sets are
duplicate-free lists; where one is enumerated the order is given by the parameter `enum`. Log files and messages are not
modelled, except for the division in the last message, which can raise. The state a
call of `extract` leaves when it raises is in `Verif.Model.V2Left`.
-/
namespace V2
open Py Nested

/-- the constructor's parameters, soynlp/noun/_noun_ver2.py:20-51 -/
structure Params where
  maxLeft : Int := 10
  maxRight : Int := 9
  verbose : Bool := true
  minNumOfFeatures : Int := 1
  maxFrequencyWhenNounIsEojeol : Int := 30
  checkpoint : Int := 500000
  extractCompound : Bool := true
  extractPosFeature : Bool := false
  ensureNormalized : Bool := false
  postprocessing : List Str := ["detaching_features".toList, "ignore_features".toList, "ignore_NJ".toList]

/-- the feature sets, soynlp/noun/_noun_ver2.py:101-103 -/
structure Features where
  pos : List Str := []
  neg : List Str := []
  common : List Str := []
  deriving DecidableEq

/-- the object's fields (soynlp/noun/_noun_ver2.py:26-51,101-103,190-195) -/
structure State where
  feats : Features := {}
  lrgraph : Option LR.State := none
  numCovered : Int := 0
  numEojeols : Int := 0
  decomposer : Option (Dict Str Rat) := none
  components : Dict Str (List Str) := []
  nouns : Dict Str (Rat × Rat) := []
  deriving DecidableEq

/-! ### features -/

/-- a set built from a list of elements (soynlp/noun/_noun_ver2.py:74-103) -/
def toSet (l : List Str) : List Str := l.dedup

/-- soynlp/noun/_noun_ver2.py:72-103; each header names two files, given by their lines (a missing file raises) -/
def loadPredictor (headers : List (Option (List Str) × Option (List Str))) : PyM Features :=
  if headers.any (fun h => h.1.isNone || h.2.isNone) then .error .osError
  else
    let pos := toSet (headers.flatMap (fun h => (h.1.getD []).map strip))
    let neg := toSet (headers.flatMap (fun h => (h.2.getD []).map strip))
    let common := pos.filter (fun f => neg.contains f)
    .ok { pos := pos.filter (fun f => !common.contains f), neg := neg.filter (fun f => !common.contains f), common := common }

/-- `a.update(b)` on sets (soynlp/noun/_noun_ver2.py:129-131) -/
def union (a b : List Str) : List Str := a ++ (toSet b).filter (fun f => !a.contains f)

/-- soynlp/noun/_noun_ver2.py:105-131 -/
def appendFeatures (F : Features) (featureType : Str) (features : List Str) : PyM Features :=
  if featureType = "pos".toList then
    let commons := features.filter (fun f => F.neg.contains f)
    .ok { F with pos := union F.pos (features.filter (fun f => !commons.contains f)), common := union F.common commons }
  else if featureType = "neg".toList then
    let commons := features.filter (fun f => F.pos.contains f)
    .ok { F with neg := union F.neg (features.filter (fun f => !commons.contains f)), common := union F.common commons }
  else if featureType = "common".toList then .ok { F with common := union F.common features }
  else .error .valueError

/-! ### training -/

/-- soynlp/noun/_noun_ver2.py:189-199 -/
def trainWithLrgraph (s : State) (g : LR.State) (numOfEojeols : Int := -1) : PyM State :=
  if numOfEojeols = -1 then
    match LR.toEojeolCounter g with
    | .ok c => .ok { s with lrgraph := some g, numCovered := 0, numEojeols := c.countSum }
    | .error e => .error e
  else .ok { s with lrgraph := some g, numCovered := 0, numEojeols := numOfEojeols }

/-- soynlp/noun/_noun_ver2.py:178-187 -/
def trainWithEojeolCounter (p : Params) (s : State) (c : EC.State) : PyM State :=
  match LR.toLrgraph c p.maxLeft p.maxRight with
  | .ok g => trainWithLrgraph s g c.countSum
  | .error e => .error e

/-- soynlp/noun/_noun_ver2.py:160-163: the sentences are normalised exactly when `ensure_normalized` is set -/
def preprocess (p : Params) : Str → Str := if !p.ensureNormalized then id else Normalizer.normalizeSentForLrgraph

/-- the arguments of the eojeol counter, soynlp/noun/_noun_ver2.py:167-174 -/
def counterParams (p : Params) (minEojeolFrequency : Int) : EC.Params :=
  ⟨minEojeolFrequency, p.maxLeft + p.maxRight, p.checkpoint, preprocess p⟩

/-- soynlp/noun/_noun_ver2.py:156-176 -/
def trainWithSentences (p : Params) (s : State) (sents : List Str) (minEojeolFrequency : Int := 1) : PyM State :=
  match EC.construct (counterParams p minEojeolFrequency) (some sents) with
  | .ok c => trainWithEojeolCounter p s c
  | .error e => .error e

/-- what `train` takes (soynlp/noun/_noun_ver2.py:148-153) -/
inductive Input where
  | sentences (sents : List Str)
  | counter (c : EC.State)
  | graph (g : LR.State)

/-- soynlp/noun/_noun_ver2.py:148-154: the minimum is used with sentences only -/
def train (p : Params) (s : State) (inputs : Input) (minEojeolFrequency : Int := 1) : PyM State :=
  match inputs with
  | .graph g => trainWithLrgraph s g
  | .counter c => trainWithEojeolCounter p s c
  | .sentences sents => trainWithSentences p s sents minEojeolFrequency

/-! ### prediction -/

/-- soynlp/noun/_noun_ver2.py:311-321: is some `word[e:] + r`, `e < len(word)`, a feature? -/
def existLonger (features : List Str) (word r : Str) : Bool :=
  (List.range word.length).any (fun e => features.contains (word.drop e ++ r))

/-- `pos, common, neg, unk, end` (soynlp/noun/_noun_ver2.py:386) -/
structure Tally where
  pos : Int := 0
  common : Int := 0
  neg : Int := 0
  unk : Int := 0
  fin : Int := 0
  deriving DecidableEq

/-- soynlp/noun/_noun_ver2.py:388-404, one right part -/
def tallyStep (F : Features) (word : Str) (t : Tally) (f : Str × Int) : Tally :=
  if f.1 = [] then { t with fin := t.fin + f.2 }
  else if existLonger F.pos word f.1 then t
  else if existLonger F.neg word f.1 then t
  else if F.common.contains f.1 then { t with common := t.common + f.2 }
  else if F.pos.contains f.1 then { t with pos := t.pos + f.2 }
  else if F.neg.contains f.1 then { t with neg := t.neg + f.2 }
  else { t with unk := t.unk + f.2 }

/-- soynlp/noun/_noun_ver2.py:384-406 -/
def tally (F : Features) (word : Str) (features : List (Str × Int)) : Tally := features.foldl (tallyStep F word) {}

/-- soynlp/noun/_noun_ver2.py:306-309 -/
def nonemptyFeatures (F : Features) (word : Str) (features : List (Str × Int)) : List Str :=
  (features.map (·.1)).filter (fun r => (F.pos.contains r && !existLonger F.pos word r) || (F.neg.contains r && !existLonger F.neg word r))

/-- soynlp/noun/_noun_ver2.py:360-369: the first characters collected -/
def firstChars (F : Features) (word : Str) (features : List (Str × Int)) : List Char :=
  (features.filterMap (fun f => match f.1 with
    | [] => none
    | c :: _ => if F.pos.contains f.1 || F.common.contains f.1 then (if existLonger F.pos word f.1 then none else some c) else some c)).dedup

/-- soynlp/noun/_noun_ver2.py:329-330 -/
def baseScore (t : Tally) : Rat := if t.pos + t.neg = 0 then 0 else ((t.pos - t.neg : Int) : Rat) / ((t.pos + t.neg : Int) : Rat)

/-- soynlp/noun/_noun_ver2.py:331 -/
def baseSupport (t : Tally) (minNounScore : Rat) : Int :=
  if baseScore t ≥ minNounScore then t.pos + t.fin + t.common else t.neg + t.fin + t.common

/-- soynlp/noun/_noun_ver2.py:346, 326-382: `(support, score)` of a word with the right parts `features` -/
def predictRow (p : Params) (F : Features) (word : Str) (features : List (Str × Int)) (minNounScore : Rat) : Int × Rat :=
  let t := tally F word features
  let sum := t.pos + t.common + t.neg + t.unk + t.fin
  if ((nonemptyFeatures F word features).length : Int) > p.minNumOfFeatures then (baseSupport t minNounScore, baseScore t)
  else if sum = 0 then (baseSupport t minNounScore, 0)
  else if t.fin > p.maxFrequencyWhenNounIsEojeol ∧ t.pos ≥ t.neg then (baseSupport t minNounScore, baseScore t)
  else if (t.common > 0 ∨ t.pos > 0) ∧ (t.fin : Rat) / (sum : Rat) ≥ 3/10 ∧ t.common ≥ t.neg then
    (t.pos + t.common + t.fin, ((t.pos + t.common + t.fin : Int) : Rat) / (sum : Rat))
  else if (firstChars F word features).length ≥ 2 then
    (t.pos + t.common + t.fin, ((t.pos + t.common + t.fin : Int) : Rat) / (sum : Rat))
  else (baseSupport t minNounScore, 0)

/-- soynlp/noun/_noun_ver2.py:323-382 on a graph -/
def predictIn (p : Params) (F : Features) (g : LR.State) (word : Str) (minNounScore : Rat := 3/10) : Rat × Rat :=
  let x := predictRow p F word (LR.getR g word (-1)) minNounScore
  ((x.1 : Rat), x.2)

/-- soynlp/noun/_noun_ver2.py:323-382; `None.get_r` raises -/
def predict (p : Params) (s : State) (word : Str) (minNounScore : Rat := 3/10) : PyM (Rat × Rat) :=
  match s.lrgraph with
  | none => .error .attributeError
  | some g => .ok (predictIn p s.feats g word minNounScore)

/-! ### batch prediction -/

/-- soynlp/noun/_noun_ver2.py:408-431 without the debugging argument; `pos` is the enumeration of the positive features -/
def nounCandidates (g : LR.State) (pos : List Str) : Dict Str Int :=
  pos.foldl (fun d r => (LR.getL g r (-1)).foldl (fun d lc => Dict.addI d lc.1 lc.2) d) []

/-- the order of the key `-len(x)`, soynlp/noun/_noun_ver2.py:439, 604 -/
def longerLe (x y : Str) : Bool := decide (y.length ≤ x.length)

/-- soynlp/noun/_noun_ver2.py:453-456 -/
def removeRow (g : LR.State) (word : Str) : LR.State :=
  (LR.getR g word (-1)).foldl (fun g rc => LR.removeEojeol g (word ++ rc.1) rc.2) g

/-- soynlp/noun/_noun_ver2.py:439-456, the loop -/
def batchGo (p : Params) (F : Features) (minNounScore : Rat) : LR.State → Dict Str (Rat × Rat) → List Str → LR.State × Dict Str (Rat × Rat)
  | g, d, [] => (g, d)
  | g, d, w :: ws =>
    let x := predictIn p F g w minNounScore
    batchGo p F minNounScore (if x.2 ≥ minNounScore then removeRow g w else g) (Dict.set d w x) ws

/-- soynlp/noun/_noun_ver2.py:433-466 -/
def batchPredicting (p : Params) (F : Features) (g : LR.State) (candidates : List Str) (minNounScore : Rat := 3/10) :
    LR.State × Dict Str (Rat × Rat) :=
  batchGo p F minNounScore g [] (sorted longerLe candidates)

/-! ### compounds -/

/-- soynlp/noun/_noun_ver2.py:533-550; `tokens[-1]` of an empty list raises -/
def parseCompound (pos : List Str) (tokens : List MaxScore.Tok) : PyM (Option (List Str)) :=
  if tokens.dropLast.any (fun t => decide (t.score ≤ 0)) then .ok none
  else match tokens.getLast? with
    | none => .error .indexError
    | some last =>
      if tokens.length ≥ 3 ∧ pos.contains last.word = true then .ok (some (tokens.dropLast.map (·.word)))
      else if last.score > 0 then .ok (some (tokens.map (·.word)))
      else .ok none

/-- `self._compound_decomposer.tokenize(word, flatten=False)[0]`, soynlp/noun/_noun_ver2.py:489, 528; the tokenizer's
    defaults are `max_length=10`, `default_score=0` -/
def decompose (scores : Dict Str Rat) (word : Str) : PyM (List MaxScore.Tok) :=
  match MaxScore.tokenizeSpans scores 10 0 word with
  | .error e => .error e
  | .ok [] => .error .indexError
  | .ok (t :: _) => .ok t

/-- soynlp/noun/_noun_ver2.py:489-490, 528-529 -/
def compoundParts (pos : List Str) (scores : Dict Str Rat) (word : Str) : PyM (Option (List Str)) :=
  match decompose scores word with
  | .error e => .error e
  | .ok ts => parseCompound pos ts

/-- soynlp/noun/_noun_ver2.py:526-531; before `extract_compounds` there is no decomposer. `if not compound_parts`: an
    empty tuple counts as none. -/
def decomposeCompound (s : State) (word : Str) : PyM (List Str) :=
  match s.decomposer with
  | none => .error .attributeError
  | some scores => (compoundParts s.feats.pos scores word).map (fun x => match x with
    | none => [word]
    | some [] => [word]
    | some parts => parts)

/-- soynlp/noun/_noun_ver2.py:470-471 -/
def nounScores (predictionScores : Dict Str (Rat × Rat)) (minNounScore : Rat) : Dict Str Rat :=
  (predictionScores.filter (fun e => decide (e.2.2 > minNounScore) && decide (e.1.length > 1))).map (fun e => (e.1, (e.1.length : Rat)))

/-- the loop's variables, soynlp/noun/_noun_ver2.py:479-481 and the candidates -/
structure Acc where
  candidates : Dict Str Int
  scores : Dict Str Rat := []
  counts : Dict Str Int := []
  components : Dict Str (List Str) := []
  graph : LR.State

/-- Python's `max` of a non-empty sequence (0 stands in for the empty one, which does not occur)
    (soynlp/noun/_noun_ver2.py:499) -/
def maxRat : List Rat → Rat
  | [] => 0
  | x :: xs => xs.foldl (fun a b => if b > a then b else a) x

/-- soynlp/noun/_noun_ver2.py:499 -/
def compoundScore (predictionScores : Dict Str (Rat × Rat)) (parts : List Str) : Rat :=
  maxRat (parts.map (fun t => ((Dict.get? predictionScores t).getD (0, 0)).2))

/-- soynlp/noun/_noun_ver2.py:504-510: the counts of the prefixes are lowered in `candidates` -/
def lowerPrefixes (candidates : Dict Str Int) (word : Str) (count : Int) : Dict Str Int :=
  ((List.range (word.length - 2)).map (· + 2)).foldl (fun d e =>
    if Dict.has d (word.take e) then Dict.set d (word.take e) (Dict.getD d (word.take e) 0 - count) else d) candidates

/-- soynlp/noun/_noun_ver2.py:494-513, for a word that has parts -/
def addCompound (predictionScores : Dict Str (Rat × Rat)) (a : Acc) (word : Str) (count : Int) (parts : List Str) : Acc :=
  let noun := parts.flatten
  let x := Dict.getD a.scores noun 0
  let y := compoundScore predictionScores parts
  { candidates := lowerPrefixes a.candidates word count
    scores := Dict.set a.scores noun (if y > x then y else x)
    counts := Dict.addI a.counts noun count
    components := Dict.set a.components noun parts
    graph := LR.removeEojeol a.graph word 1 }

/-- soynlp/noun/_noun_ver2.py:483-513. The pairs iterated over were sorted beforehand, so the lowered counts are not seen. -/
def compoundGo (pos : List Str) (scores : Dict Str Rat) (predictionScores : Dict Str (Rat × Rat)) : Acc → List (Str × Int) → PyM Acc
  | a, [] => .ok a
  | a, (word, count) :: rest => match compoundParts pos scores word with
    | .error e => .error e
    | .ok none => compoundGo pos scores predictionScores a rest
    | .ok (some []) => compoundGo pos scores predictionScores a rest
    | .ok (some (q :: qs)) => compoundGo pos scores predictionScores (addCompound predictionScores a word count (q :: qs)) rest

/-- the order of the key `-len(x[0])`, soynlp/noun/_noun_ver2.py:483 -/
def longerPairLe (x y : Str × Int) : Bool := decide (y.1.length ≤ x.1.length)

/-- soynlp/noun/_noun_ver2.py:475-476 -/
def compoundCandidates (origin : Nested Str) (scores : Dict Str Rat) : Dict Str Int :=
  (origin.filter (fun lt => decide (lt.1.length ≥ 4) && !Dict.has scores lt.1)).map (fun lt => (lt.1, Dict.getD lt.2 [] 0))

/-- what `extract_compounds` leaves and returns: the pairs are `(score, count)` (soynlp/noun/_noun_ver2.py:515-524) -/
structure Compounds where
  decomposer : Dict Str Rat
  components : Dict Str (List Str)
  graph : LR.State
  compounds : Dict Str (Rat × Rat)

/-- soynlp/noun/_noun_ver2.py:468-524 (the argument `candidates` is overwritten); a frozen graph has `_lr_origin = None` -/
def extractCompounds (F : Features) (g : LR.State) (predictionScores : Dict Str (Rat × Rat)) (minNounScore : Rat := 3/10) : PyM Compounds :=
  match g.origin with
  | none => .error .attributeError
  | some origin =>
    let scores := nounScores predictionScores minNounScore
    let candidates := compoundCandidates origin scores
    match compoundGo F.pos scores predictionScores { candidates := candidates, graph := g } (sorted longerPairLe candidates) with
    | .error e => .error e
    | .ok a => .ok { decomposer := scores, components := a.components, graph := a.graph
                     compounds := a.scores.map (fun e => (e.1, (e.2, ((Dict.getD a.counts e.1 0 : Int) : Rat)))) }

/-! ### extraction -/

/-- soynlp/noun/_noun_ver2.py:615-626: is the edge removed and counted? -/
def covers (F : Features) (word r : Str) : Bool :=
  decide (word.length > 1) || decide (r = []) || F.pos.contains r || F.common.contains r

/-- soynlp/noun/_noun_ver2.py:614-626 -/
def coverRow (F : Features) (word : Str) (gn : LR.State × Int) : LR.State × Int :=
  (LR.getR gn.1 word (-1)).foldl (fun gn rc => if covers F word rc.1 then (LR.removeEojeol gn.1 (word ++ rc.1) rc.2, gn.2 + rc.2) else gn) gn

/-- soynlp/noun/_noun_ver2.py:604-626 -/
def coverGo (F : Features) (nouns : Dict Str (Rat × Rat)) : LR.State × Int → List Str → LR.State × Int
  | gn, [] => gn
  | gn, w :: ws => coverGo F nouns (if Dict.has nouns w then coverRow F w gn else gn) ws

/-- soynlp/noun/_noun_ver2.py:597-634; the division of the last message raises when no eojeol was counted -/
def checkCovered (p : Params) (enum : List Str → List Str) (F : Features) (g : LR.State) (nouns : Dict Str (Rat × Rat)) (numCovered numEojeols : Int) :
    PyM (LR.State × Int) :=
  let g := (LR.reset g).1
  let r := coverGo F nouns (g, numCovered) (sorted longerLe (Dict.keys (nounCandidates g (enum F.pos))))
  if p.verbose = true ∧ numEojeols = 0 then .error .zeroDivision else .ok r

/-- soynlp/noun/_noun_ver2.py:204-241: the features and the graph afterwards, and the features found.
    `candidates` empty stands for an absent argument. -/
def extractDomainPosFeatures (p : Params) (entLt : List Int → Rat → Bool) (enum : Nat → List Str → List Str) (F : Features) (g : LR.State)
    (candidates : List Str := []) (ignored : List Str := []) (append : Bool := true) (jp : Josa.Params := {}) :
    PyM (Features × LR.State × Dict Str (Rat × Int)) :=
  let cands := if candidates = [] then Dict.keys (nounCandidates g (enum 0 F.pos)) else candidates
  let b := batchPredicting p F g cands jp.minNounScore
  let g := (LR.reset b.1).1
  match Josa.extractDomainPosFeatures jp entLt (enum 2) b.2 g F.pos ignored with
  | .error e => .error e
  | .ok found =>
    if append then (appendFeatures F "pos".toList (Dict.keys found)).map (fun F => (F, g, found)) else .ok (F, g, found)

/-- soynlp/noun/_noun_ver2.py:249-255: candidates and, on request, new features (with the defaults) -/
def extractBase (p : Params) (entLt : List Int → Rat → Bool) (enum : Nat → List Str → List Str) (F : Features) (g : LR.State) :
    PyM (Features × LR.State × List Str) :=
  let cands := Dict.keys (nounCandidates g (enum 0 F.pos))
  if p.extractPosFeature then (extractDomainPosFeatures p entLt enum F g cands).map (fun x => (x.1, x.2.1, cands))
  else .ok (F, g, cands)

/-- soynlp/noun/_noun_ver2.py:268-275 -/
def extractCompoundsIf (p : Params) (F : Features) (s : State) (g : LR.State) (predictionScores : Dict Str (Rat × Rat)) (minNounScore : Rat) :
    PyM (State × LR.State × Dict Str (Rat × Rat)) :=
  if p.extractCompound then (extractCompounds F g predictionScores minNounScore).map (fun c =>
    ({ s with decomposer := some c.decomposer, components := c.components }, c.graph, c.compounds))
  else .ok (s, g, [])

/-- `a.update(b)` on dicts (soynlp/noun/_noun_ver2.py:278-285) -/
def updateDict (a b : Dict Str (Rat × Rat)) : Dict Str (Rat × Rat) := b.foldl (fun d e => Dict.set d e.1 e.2) a

/-- soynlp/noun/_noun_ver2.py:278-285: single nouns and compounds together, then the filter on the first component -/
def combine (predictionScores compounds : Dict Str (Rat × Rat)) (minNounScore minNounFrequency : Rat) : Dict Str (Rat × Rat) :=
  (updateDict (predictionScores.filter (fun e => decide (e.2.2 ≥ minNounScore))) compounds).filter (fun e => decide (e.2.1 ≥ minNounFrequency))

/-- soynlp/noun/_noun_ver2.py:287-304 -/
def finish (p : Params) (enum : Nat → List Str → List Str) (F : Features) (s : State) (g : LR.State) (nouns : Dict Str (Rat × Rat)) (resetLrgraph : Bool) :
    PyM (State × Dict Str (Rat × Rat)) :=
  match NounPost.postProcessing F.pos F.common g.origin p.postprocessing nouns with
  | .error e => .error e
  | .ok nouns => match checkCovered p (enum 1) F g nouns 0 s.numEojeols with
    | .error e => .error e
    | .ok r => .ok ({ s with feats := F, lrgraph := some (if resetLrgraph then (LR.reset r.1).1 else r.1), numCovered := r.2, nouns := nouns }, nouns)

/-- soynlp/noun/_noun_ver2.py:243-304 -/
def extract (p : Params) (entLt : List Int → Rat → Bool) (enum : Nat → List Str → List Str) (s : State) (minNounScore : Rat := 3/10)
    (minNounFrequency : Rat := 1) (resetLrgraph : Bool := true) : PyM (State × Dict Str (Rat × Rat)) :=
  match s.lrgraph with
  | none => .error .attributeError
  | some g => match extractBase p entLt enum s.feats g with
    | .error e => .error e
    | .ok (F, g, cands) =>
      let b := batchPredicting p F g cands minNounScore
      match extractCompoundsIf p F s b.1 b.2 minNounScore with
      | .error e => .error e
      | .ok (s, g, compounds) => finish p enum F s g (combine b.2 compounds minNounScore minNounFrequency) resetLrgraph

/-- soynlp/noun/_noun_ver2.py:141-146 -/
def trainExtract (p : Params) (entLt : List Int → Rat → Bool) (enum : Nat → List Str → List Str) (s : State) (inputs : Input) (minNounScore : Rat := 3/10)
    (minNounFrequency : Rat := 1) (minEojeolFrequency : Int := 1) (resetLrgraph : Bool := true) : PyM (State × Dict Str (Rat × Rat)) :=
  match train p s inputs minEojeolFrequency with
  | .error e => .error e
  | .ok s => extract p entLt enum s minNounScore minNounFrequency resetLrgraph

end V2
