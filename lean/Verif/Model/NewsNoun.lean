import Verif.Model.NounV1
import Verif.Model.Hangle
/-!
Model of soynlp/noun/_noun_news.py `NewsNounExtractor`. Scores and thresholds are exact rationals. Predictor files are read by
`V1.loadPredictors` (the same code). Sets that are only tested for membership are lists. Printing is not modelled.
-/
namespace NewsNoun
open Py Nested

/-- the constructor's lengths, soynlp/noun/_noun_news.py:10 -/
structure Params where
  maxLeft : Int := 10
  maxRight : Int := 7
  deriving DecidableEq

/-- `NewsNounScore`, soynlp/noun/_noun_news.py:5 -/
structure Score where
  score : Rat
  frequency : Int
  featureProportion : Rat
  eojeolProportion : Rat
  nPositiveFeature : Nat
  uniquePositiveFeatureProportion : Rat
  deriving DecidableEq

/-- a value of `noun_dictionary`: during an extraction a bare frequency (lines 184, 211), otherwise a score
    (soynlp/noun/_noun_news.py:150,153,184,211) -/
inductive Value where
  | count (n : Int)
  | score (s : Score)
  deriving DecidableEq

/-- what `train` leaves in the object, soynlp/noun/_noun_news.py:86-88 -/
structure Trained where
  lrgraph : Nested Str
  rlgraph : Nested Str
  eojeols : Dict Str Nat
  lcount : Dict Str Int
  rcount : Dict Str Int
  deriving DecidableEq

/-- the object, soynlp/noun/_noun_news.py:13-36; `trained = none` before the first `train` -/
structure State where
  rScores : Dict Str Rat
  josa : List Str
  verbs : List Str
  nouns : Dict Str Value
  trained : Option Trained
  deriving DecidableEq

/-! ### construction -/

/-- soynlp/noun/_noun_news.py:58-71: the first tab-separated field of every line; a file that cannot be opened (`none`) gives the
    empty set (the `finally` clause raises on the unbound `f`, and the outer handler catches that too) -/
def loadDictionary : Option (List Str) → List Str
  | none => []
  | some lines => lines.map (fun line => (splitOn '\t' (strip line)).headD [])

/-- soynlp/noun/_noun_news.py:29-30 -/
def josaOf (rs : Dict Str Rat) : List Str := (rs.filter (fun e => decide (e.2 > 1/10))).map (·.1) ++ ["는".toList]

/-- soynlp/noun/_noun_news.py:10-36: any non-empty `base_noun_dictionary` reads the undefined name `noun_dictionary`. `files` are the
    lines of the predictor files, `verbFile` and `adjFile` those of `pos/dictionary/sejong/{Verb,Adjective}.txt`; the repository does
    not contain these two, so they are `none` in an installed package. -/
def construct (parseFloat : Str → Option Rat) (files : List (Option (List Str))) (verbFile adjFile : Option (List Str))
    (base : Dict Str Value) : PyM State :=
  if base ≠ [] then .error .nameError
  else
    let rs := V1.loadPredictors parseFloat files
    .ok { rScores := rs, josa := josaOf rs, verbs := loadDictionary verbFile ++ loadDictionary adjFile, nouns := [], trained := none }

/-! ### training -/

/-- soynlp/noun/_noun_news.py:99-103 -/
def countEojeols (p : Params) (sents : List Str) : Dict Str Nat :=
  Dict.counter ((sents.flatMap splitWs).filter (fun w => decide ((w.length : Int) ≤ p.maxLeft + p.maxRight)))

/-- soynlp/noun/_noun_news.py:108-112: the cuts of one eojeol -/
def cuts (p : Params) (w : Str) : List (Str × Str) :=
  ((List.range' 1 (min p.maxLeft w.length).toNat).filter (fun e : Nat => decide (¬ (((w.length : Int) - (e : Int)) > p.maxRight)))).map
    (fun e => (w.take e, w.drop e))

/-- soynlp/noun/_noun_news.py:107-113: every (l, r, count) in the order of the loops -/
def entries (p : Params) (eojeols : Dict Str Nat) : List (Str × Str × Int) :=
  eojeols.flatMap (fun wc => (cuts p wc.1).map (fun lr => (lr.1, lr.2, (wc.2 : Int))))

/-- soynlp/noun/_noun_news.py:105-113 -/
def buildLR (es : List (Str × Str × Int)) : Nested Str := es.foldl (fun g e => nadd g e.1 e.2.1 e.2.2) []

/-- soynlp/noun/_noun_news.py:106, 114-115 -/
def buildRL (es : List (Str × Str × Int)) : Nested Str :=
  (es.filter (fun e => decide (e.2.1 ≠ []))).foldl (fun g e => nadd g e.2.1 e.1 e.2.2) []

/-- soynlp/noun/_noun_news.py:87-88 -/
def sums (g : Nested Str) : Dict Str Int := g.map (fun e => (e.1, Dict.sumI e.2))

/-- soynlp/noun/_noun_news.py:80-116 (an empty corpus is a ValueError of `check_corpus`) -/
def train (p : Params) (s : State) (sents : List Str) : PyM State :=
  if sents = [] then .error .valueError
  else
    let eojeols := countEojeols p sents
    let lr := buildLR (entries p eojeols)
    let rl := buildRL (entries p eojeols)
    .ok { s with trained := some { lrgraph := lr, rlgraph := rl, eojeols := eojeols, lcount := sums lr, rcount := sums rl } }

/-! ### prediction -/

/-- the loop variables of `predict`, soynlp/noun/_noun_news.py:218 -/
structure Acc where
  norm : Int := 0
  score : Rat := 0
  total : Int := 0
  nPositive : Nat := 0
  nFeature : Nat := 0

/-- soynlp/noun/_noun_news.py:220-227 -/
def tally (rs : Dict Str Rat) (row : List (Str × Int)) : Acc :=
  row.foldl (fun a f => match Dict.get? rs f.1 with
    | none => { a with total := a.total + f.2 }
    | some c => { norm := a.norm + f.2, score := a.score + (f.2 : Rat) * c, total := a.total + f.2,
                  nPositive := a.nPositive + (if c > 0 then 1 else 0), nFeature := a.nFeature + 1 }) {}

/-- soynlp/noun/_noun_news.py:217-235 -/
def predict (rs : Dict Str Rat) (t : Trained) (l : Str) : Score :=
  let a := tally rs (row t.lrgraph l)
  let nEojeol : Int := (Dict.getD t.eojeols l 0 : Nat)
  { score := if a.norm ≠ 0 then a.score / (a.norm : Rat) else 0
    frequency := a.total
    featureProportion := if a.total - nEojeol > 0 then (a.norm : Rat) / ((a.total - nEojeol : Int) : Rat) else 0
    eojeolProportion := if a.total > 0 then (nEojeol : Rat) / (a.total : Rat) else 0
    nPositiveFeature := a.nPositive
    uniquePositiveFeatureProportion := if a.nFeature ≤ 0 then 0 else (a.nPositive : Rat) / (a.nFeature : Rat) }

/-! ### the tests on a candidate. `Ctx` is what the methods read. -/

/-- the attributes read by the filters: `scores` is `_noun_scores_` (line 241), `post` is `_noun_scores_postprocessed` (line 262), `nouns`
    is `noun_dictionary` (soynlp/noun/_noun_news.py:238-284) -/
structure Ctx where
  rScores : Dict Str Rat
  josa : List Str
  verbs : List Str
  t : Trained
  nouns : Dict Str Value
  scores : Dict Str Score
  post : Dict Str Score

/-- soynlp/noun/_noun_news.py:442-443 -/
def lFrequency (t : Trained) (l : Str) : Int := Dict.getD t.lcount l 0

/-- `(w in self._noun_scores_) or (w in self.noun_dictionary)`, soynlp/noun/_noun_news.py:353 -/
def Ctx.known (x : Ctx) (w : Str) : Bool := Dict.has x.scores w || Dict.has x.nouns w

/-- soynlp/noun/_noun_news.py:294-295: the lengths of the noun-like proper prefixes -/
def Ctx.nounLengths (x : Ctx) (l : Str) : List Nat :=
  (List.range' 2 (l.length - 2)).filter (fun e =>
    Dict.has x.nouns (l.take e) || decide ((predict x.rScores x.t (l.take e)).score > 2/5))

/-- soynlp/noun/_noun_news.py:286-305; `max` of the lengths is the last one -/
def Ctx.isNJsubJ (x : Ctx) (l : Str) : PyM Bool :=
  match (x.nounLengths l).getLast? with
  | none => .ok false
  | some m =>
    let base : Int := lFrequency x.t (l.take m)
    if base = 0 then .ok false
    else if (lFrequency x.t l : Rat) / (base : Rat) > 7/10 then .ok false
    else
      let tokens := row x.t.lrgraph l
      let hit : Int := ((tokens.filter (fun f => (x.nounLengths l).any (fun e => x.josa.contains ((l ++ f.1).drop e)))).map (·.2)).sum
      let all : Int := (tokens.map (·.2)).sum
      if all = 0 then .error .zeroDivision else .ok (decide ((hit : Rat) / (all : Rat) > 8/10))

/-- soynlp/noun/_noun_news.py:307-312: `/` is only evaluated for a prefix with a score above the threshold -/
def Ctx.findNsubJ (x : Ctx) (l : Str) : PyM (List Str) :=
  let l0s := ((List.range' 2 (l.length - 2)).filter (fun e => x.josa.contains (l.drop e))).map (fun e => l.take e)
  let l0s := l0s.filter (fun l0 => decide ((predict x.rScores x.t l0).score > 7/10))
  if l0s ≠ [] ∧ lFrequency x.t l = 0 then .error .zeroDivision
  else .ok (l0s.filter (fun l0 => decide ((lFrequency x.t l0 : Rat) / (lFrequency x.t l : Rat) > 7/10)))

/-- soynlp/noun/_noun_news.py:318-320 -/
def eojeolProportion (t : Trained) (w : Str) : Bool :=
  let sum : Int := ((row t.lrgraph w).map (·.2)).sum
  if sum = 0 then false else decide (min (1 : Rat) (((Dict.getD t.eojeols w 0 : Nat) : Rat) / (sum : Rat)) > 7/10)

/-- the suffix lengths tried, soynlp/noun/_noun_news.py:327,340 -/
def subLengths (l : Str) : List Nat := if l.length ≤ 3 then [1] else [1, 2]

/-- soynlp/noun/_noun_news.py:314-334 -/
def Ctx.isNVsubE (x : Ctx) (l : Str) : Bool :=
  let ext := row x.t.lrgraph l
  if ext = [] then false
  else (subLengths l).any (fun b =>
    let l0 := l.take (l.length - b)
    let r0 := l.drop (l.length - b)
    if !Dict.has x.scores l0 || !Dict.has x.nouns l0 then false
    else decide (((((ext.map (fun f => if eojeolProportion x.t (r0 ++ f.1) then f.2 else 0)).sum : Int) : Rat)
      / (((ext.map (·.2)).sum : Int) : Rat)) > 7/10))

/-- soynlp/noun/_noun_news.py:336-344 -/
def Ctx.isNWsub (x : Ctx) (l : Str) : Bool :=
  (subLengths l).any (fun b =>
    let l0 := l.take (l.length - b)
    x.known l0 && decide ((if lFrequency x.t l0 ≤ 0 then (0 : Rat) else (lFrequency x.t l : Rat) / (lFrequency x.t l0 : Rat)) < 1/10))

/-- soynlp/noun/_noun_news.py:346-361 -/
def Ctx.isCompound (x : Ctx) (l : Str) : Bool :=
  let n := l.length
  if n < 4 then false
  else if (List.range' 2 (n - 2)).any (fun e => x.known (l.take e) && x.known (l.drop e)) then true
  else if n ≥ 6 then
    (List.range' 2 (n - 5)).any (fun e1 => (List.range' (e1 + 2) (n - 1 - (e1 + 2))).any (fun e2 =>
      x.known (l.take e1) && x.known (slice l e1 e2) && x.known (l.drop e2)))
  else false

/-- soynlp/noun/_noun_news.py:363-368 -/
def Ctx.isNJ (x : Ctx) (w : Str) : Bool :=
  (List.range' 2 (w.length + 1 - 2)).any (fun e => x.known (w.take e) && (decide (w.drop e = []) || decide (Dict.getD x.rScores (w.drop e) 0 > 0)))

/-- soynlp/noun/_noun_news.py:370-374 -/
def Ctx.isNV (x : Ctx) (l : Str) : Bool :=
  (List.range' 2 (l.length - 2)).any (fun e => (Dict.has x.post (l.take e) || Dict.has x.nouns (l.take e)) && x.verbs.contains (l.drop e))

/-- soynlp/noun/_noun_news.py:378-384 -/
def passset : List Str := ["과", "는", "되고", "되는", "되다", "된다", "들", "들에", "들의", "들이", "로", "로는", "로도", "로서", "를",
  "부터", "뿐", "뿐만", "뿐이", "뿐인", "에게", "에도", "에서", "에와", "와", "으로", "으로의", "은", "의", "이", "이나", "이라", "이었",
  "인", "임", "처럼", "하다", "한", "할", "했던", "했고", "했다"].map String.toList

/-- soynlp/noun/_noun_news.py:376-397 -/
def Ctx.unijosaFilter (x : Ctx) (l : Str) : Bool :=
  match Dict.get? x.scores l with
  | none => true
  | some s =>
    if s.frequency ≤ 10 ∧ s.nPositiveFeature ≤ 1 then
      let rdict := row x.t.lrgraph l
      if rdict = [] then false
      else
        let nPass : Int := ((rdict.filter (fun f => decide (f.1 ≠ []) && (passset.contains (f.1.take 2) || x.isNJ f.1))).map (·.2)).sum
        let nNonempty : Int := ((rdict.filter (fun f => decide (f.1 ≠ []))).map (·.2)).sum
        decide ((if nNonempty ≠ 0 then (nPass : Rat) / (nNonempty : Rat) else 0) > 1/2)
    else true

/-- soynlp/noun/_noun_news.py:406-409: does the first character of `r` decompose to something that begins with ㅎ? (`decompose` never
    raises, `C01`) -/
def beginsWithH (r : Str) : Bool :=
  match r with
  | [] => false
  | c :: _ => match Hangle.decompose c with
    | .ok (some d) => decide (d.1 = 'ㅎ')
    | _ => false

/-- soynlp/noun/_noun_news.py:399-411 -/
def Ctx.dangHadaFilter (x : Ctx) (l : Str) : Bool :=
  if ¬ (l.getLast? = some '당') ∧ x.known l.dropLast = true then true
  else
    let rdict := row x.t.lrgraph l
    let nBase : Int := ((rdict.filter (fun f => decide (f.2 ≠ 0))).map (·.2)).sum
    let nH : Int := ((rdict.filter (fun f => beginsWithH f.1)).map (·.2)).sum
    if nBase ≤ 0 then true else decide ((nH : Rat) / (nBase : Rat) < 1/2)

/-- soynlp/noun/_noun_news.py:414-416 -/
def propR (t : Trained) (l r : Str) : Rat :=
  let base : Int := ((row t.lrgraph l).map (·.2)).sum
  if base = 0 then 0 else ((Dict.getD (row t.lrgraph l) r 0 : Int) : Rat) / (base : Rat)

/-- soynlp/noun/_noun_news.py:430,434 -/
def droprate (t : Trained) (l : Str) : Rat :=
  match Dict.get? t.lcount l.dropLast with
  | none => 0
  | some c => (lFrequency t l : Rat) / (c : Rat)

/-- `l[-2:]`, soynlp/noun/_noun_news.py:422,433,437 -/
def last2 (l : Str) : Str := l.drop (l.length - 2)

/-- soynlp/noun/_noun_news.py:413-440 (words are not empty) -/
def Ctx.suffixFilter (x : Ctx) (l : Str) : Bool :=
  let last := l.getLast?
  if x.verbs.contains l then false
  else if last2 l ∈ ["갔다", "이는", "겠지", "보는"].map String.toList then false
  else if last = some '으' ∧
      (propR x.t l "로".toList + propR x.t l "로써".toList + propR x.t l "로만".toList) + propR x.t l "로의".toList > 1/2 then false
  else if last = some '지' ∧ propR x.t l "만".toList > 1/2 then false
  else if last = some '없' ∧
      (propR x.t l "는".toList + propR x.t l "이".toList + propR x.t l "다".toList) + propR x.t l "었다".toList > 1/2 then false
  else if (last = some '인' ∨ last = some '은' ∨ last = some '의' ∨ last = some '와' ∨ last = some '과') ∧ droprate x.t l < 8/10 then false
  else if last2 l ∈ ["들이", "들은", "들도", "들을"].map String.toList ∧ droprate x.t l < 8/10 then false
  else if last2 l = "으로".toList ∧ (l.length = 3 ∨ (Dict.has x.nouns (l.take (l.length - 2)) || Dict.has x.post (l.take (l.length - 2))) = true) then false
  else true

/-! ### extraction -/

/-- soynlp/noun/_noun_news.py:164-168: the loop assigns to `l`, so that from the second round on `l` is its own prefix -/
def toNVGo (rs : Dict Str Rat) (t : Trained) (verbs : List Str) : List Nat → Str → Option (Str × Str)
  | [], _ => none
  | e :: es, l =>
    if (predict rs t (l.take e)).score ≥ 2/5 ∧ verbs.contains (l.drop e) = true then some (l.take e, l.drop e)
    else toNVGo rs t verbs es (l.take e)

/-- soynlp/noun/_noun_news.py:161-168 -/
def eojeolToNV (rs : Dict Str Rat) (t : Trained) (verbs : List Str) (l : Str) : Option (Str × Str) :=
  if l.length < 4 then none else toNVGo rs t verbs (List.range' 2 (l.length - 1 - 2)) l

/-- soynlp/noun/_noun_news.py:170-171, 192-193: the left parts that nearly always stand alone -/
def wholeEojeols (t : Trained) (minFrequency : Int) : Dict Str Int :=
  t.lcount.filter (fun e => decide (e.2 ≥ minFrequency) && decide (((Dict.getD t.eojeols e.1 0 : Nat) : Rat) / (e.2 : Rat) ≥ 99/100))

/-- soynlp/noun/_noun_news.py:160-184 -/
def preEojeolAnalysis (s : State) (t : Trained) (minFrequency : Int) : Dict Str Value :=
  (wholeEojeols t minFrequency).foldl (fun nd e => match eojeolToNV s.rScores t s.verbs e.1 with
    | none => nd
    | some nv => Dict.set nd nv.1 (.count (lFrequency t nv.1))) s.nouns

/-- soynlp/noun/_noun_news.py:123-126: an empty or missing `noun_candidates` is replaced by the trained left parts -/
def candidates (s : State) (t : Trained) (minFrequency : Int) (given : List Str) : List Str :=
  (if given = [] then (t.lcount.filter (fun e => decide (e.1.length ≥ 2))).map (·.1) else given).filter
    (fun l => decide (lFrequency t l ≥ minFrequency) && !Dict.has s.rScores l)

/-- soynlp/noun/_noun_news.py:128-130 -/
def scoreAll (s : State) (t : Trained) (cands : List Str) : Dict Str Score :=
  Dict.ofList (cands.map (fun l => (l, predict s.rScores t l)))

/-- soynlp/noun/_noun_news.py:241-248: the field compared with `min_feature_proportion` is the second one, the frequency -/
def thresholds (minNounScore minFeatureProportion : Rat) (d : Dict Str Score) : Dict Str Score :=
  d.filter (fun e => decide (e.2.score > minNounScore) && decide ((e.2.frequency : Rat) > minFeatureProportion) && decide (e.1.length > 1))

/-- soynlp/noun/_noun_news.py:264-280: one pass over `_noun_scores_`, filling `_noun_scores_postprocessed` -/
def hardrules (x : Ctx) (njsubjs nsubs nvsubes : List Str) : List (Str × Score) → Dict Str Score → Dict Str Score
  | [], post => post
  | e :: es, post =>
    let x' := { x with post := post }
    if njsubjs.contains e.1 || nsubs.contains e.1 || nvsubes.contains e.1 then hardrules x njsubjs nsubs nvsubes es post
    else if !x'.unijosaFilter e.1 && !x'.isCompound e.1 then hardrules x njsubjs nsubs nvsubes es post
    else if !x'.suffixFilter e.1 then hardrules x njsubjs nsubs nvsubes es post
    else if !x'.dangHadaFilter e.1 then hardrules x njsubjs nsubs nvsubes es post
    else hardrules x njsubjs nsubs nvsubes es (Dict.set post e.1 e.2)

/-- soynlp/noun/_noun_news.py:256-258 and 264-284; `x.post` is empty on entry (line 262) -/
def postprocessing (x : Ctx) : PyM (Dict Str Score) := do
  let nj ← x.scores.mapM (fun e => (x.isNJsubJ e.1).map (fun b => (e.1, b)))
  let njsubjs := (nj.filter (·.2)).map (·.1)
  let ns ← x.scores.mapM (fun e => (x.findNsubJ e.1).map (fun l0s => if njsubjs.contains e.1 then [] else l0s))
  let nvsubes := (Dict.keys x.scores).filter (fun l => x.isNVsubE l && x.isNWsub l && !x.isCompound l)
  pure (hardrules x njsubjs ns.flatten nvsubes x.scores [])

/-- soynlp/noun/_noun_news.py:196-211: one pass over the whole eojeols; `noun_dictionary` grows along the way -/
def postGo (x : Ctx) : List (Str × Int) → Dict Str Value → PyM (Dict Str Value)
  | [], nd => .ok nd
  | e :: es, nd =>
    let x' := { x with nouns := nd }
    if Dict.has x.post e.1 then postGo x es nd
    else do
      let nj ← x'.isNJsubJ e.1
      if nj || x'.isNJ e.1 || x'.isNV e.1 then postGo x es nd
      else if x'.suffixFilter e.1 && x'.isCompound e.1 then postGo x es (Dict.set nd e.1 (.count e.2))
      else postGo x es nd

/-- soynlp/noun/_noun_news.py:148-153 -/
def finish (rs : Dict Str Rat) (t : Trained) (post : Dict Str Score) (nd : Dict Str Value) : Dict Str Value :=
  let nd := nd.map (fun e => (e.1, if Dict.has post e.1 then e.2 else .score (predict rs t e.1)))
  post.foldl (fun d e => Dict.set d e.1 (.score e.2)) nd

/-- soynlp/noun/_noun_news.py:118-158: the table that is returned is the `noun_dictionary` of the resulting object. Before `train` the
    first access to `lcount` is an AttributeError. -/
def extract (s : State) (minNounScore : Rat := 2/5) (minFrequency : Int := 3) (given : List Str := [])
    (minFeatureProportion : Rat := 3/5) : PyM State :=
  match s.trained with
  | none => .error .attributeError
  | some t => do
    let nd := preEojeolAnalysis s t minFrequency
    let scores := thresholds minNounScore minFeatureProportion (scoreAll s t (candidates s t minFrequency given))
    let x : Ctx := { rScores := s.rScores, josa := s.josa, verbs := s.verbs, t := t, nouns := nd, scores := scores, post := [] }
    let post ← postprocessing x
    let nd ← postGo { x with post := post } (wholeEojeols t minFrequency) nd
    pure { s with nouns := finish s.rScores t post nd }

/-- soynlp/noun/_noun_news.py:73-78 -/
def trainExtract (p : Params) (s : State) (sents : List Str) (minFrequency : Int := 3) (minNounScore : Rat := 2/5) (given : List Str := [])
    (minFeatureProportion : Rat := 3/5) : PyM State := do
  let s ← train p s sents
  extract s minNounScore minFrequency given minFeatureProportion

end NewsNoun
