import Verif.Model.LRGraph
import Verif.Model.Normalizer
/-!
Model of soynlp/noun/_noun_ver1.py `LRNounExtractor`. Scores are exact rationals. The two `math.pow` roots compared by
`longer_has_larger_cohesion` are compared through exact integer powers (`C45_cohesion_exact` relates this to real roots).
Printing is not modelled. Python sets are enumerated in an arbitrary order, given as a parameter.
-/
namespace V1
open Py Nested

/-- the constructor's parameters, soynlp/noun/_noun_ver1.py:15-27 -/
structure Params where
  maxLeft : Int := 10
  maxRight : Int := 7
  minNumOfFeatures : Int := 1
  ensureNormalized : Bool := false
  deriving DecidableEq

/-- the trained fields, soynlp/noun/_noun_ver1.py:19-25: `lrgraph = None` before training; `words` is the set of the keys
    of `_substring_counter` -/
structure State where
  coefficient : Dict Str Rat := []
  lrgraph : Option LR.State := none
  substringCounter : Dict Str Nat := []
  deriving DecidableEq

/-! ### predictor files -/

/-- one line of a predictor file, soynlp/noun/_noun_ver1.py:51-52: exactly two tab-separated fields after stripping, the
    second a float; `none` when the line raises. `parseFloat` stands for `float(.)`. -/
def parseLine (parseFloat : Str → Option Rat) (line : Str) : Option (Str × Rat) :=
  match splitOn '\t' (strip line) with
  | [r, s] => (parseFloat s).map (fun x => (r, x))
  | _ => none

/-- soynlp/noun/_noun_ver1.py:53-56 -/
def addCoefficient (d : Dict Str Rat) (r : Str) (score : Rat) : Dict Str Rat :=
  match Dict.get? d r with
  | some x => Dict.set d r (if score > x then score else x)
  | none => Dict.set d r score

/-- soynlp/noun/_noun_ver1.py:50-58: the loop ends silently at the first line that raises -/
def loadLines (parseFloat : Str → Option Rat) (d : Dict Str Rat) : List Str → Dict Str Rat
  | [] => d
  | line :: lines => match parseLine parseFloat line with
    | some (r, x) => loadLines parseFloat (addCoefficient d r x) lines
    | none => d

/-- soynlp/noun/_noun_ver1.py:43-62 and 36-39: `none` is a file that cannot be opened, which only prints a message -/
def loadPredictors (parseFloat : Str → Option Rat) (files : List (Option (List Str))) : Dict Str Rat :=
  files.foldl (fun d f => match f with
    | some lines => loadLines parseFloat d lines
    | none => d) []

/-! ### training -/

/-- soynlp/noun/_noun_ver1.py:91-92, 119-120 -/
def prep (p : Params) (sent : Str) : Str := if !p.ensureNormalized then Normalizer.normalizeSentForLrgraph sent else sent

/-- soynlp/noun/_noun_ver1.py:97-98: `token[:i]`, `1 ≤ i ≤ min(max_left_length, len(token))` -/
def lefts (p : Params) (token : Str) : List Str :=
  (List.range (min p.maxLeft token.length).toNat).map (fun i => token.take (i + 1))

/-- soynlp/noun/_noun_ver1.py:99-100: `token[-i:]`, `1 ≤ i < min(max_right_length, len(token))` -/
def rights (p : Params) (token : Str) : List Str :=
  (List.range (min p.maxRight token.length - 1).toNat).map (fun i => token.drop (token.length - (i + 1)))

/-- soynlp/noun/_noun_ver1.py:90-95: the tokens of the scan, `sent.split(' ')` without empty ones -/
def scanTokens (p : Params) (sents : List Str) : List Str :=
  sents.flatMap (fun sent => (splitOn ' ' (prep p sent)).filter (fun t => t ≠ []))

/-- soynlp/noun/_noun_ver1.py:87-107: (`_substring_counter`, `wordset_r`) -/
def scanVocabulary (p : Params) (sents : List Str) (minFrequency : Int) : Dict Str Nat × List Str :=
  let l := Dict.counter ((scanTokens p sents).flatMap (lefts p))
  let r := Dict.counter ((scanTokens p sents).flatMap (rights p))
  (l.filter (fun e => decide ((e.2 : Int) ≥ minFrequency)),
   (r.filter (fun e => decide ((e.2 : Int) ≥ minFrequency))).map (·.1))

/-- soynlp/noun/_noun_ver1.py:121: `sent.split()` -/
def graphTokens (p : Params) (sents : List Str) : List Str := sents.flatMap (fun sent => splitWs (prep p sent))

/-- soynlp/noun/_noun_ver1.py:124-131: the pairs counted for one token -/
def pairs (p : Params) (wl wr : List Str) (token : Str) : List (Str × Str) :=
  ((List.range (min p.maxLeft token.length).toNat).map (fun i => (token.take (i + 1), token.drop (i + 1)))).filter
    (fun lr => wl.contains lr.1 && (decide (lr.2 = []) || wr.contains lr.2))

/-- soynlp/noun/_noun_ver1.py:115-141 -/
def buildLrgraph (p : Params) (sents : List Str) (wl wr : List Str) : Nested Str :=
  ((graphTokens p sents).flatMap (pairs p wl wr)).foldl (fun g lr => nadd g lr.1 lr.2 1) []

/-- soynlp/noun/_noun_ver1.py:70-75 (an empty corpus is a ValueError of `check_corpus`) -/
def train (p : Params) (s : State) (sents : List Str) (minNounFrequency : Int := 5) : PyM State :=
  if sents = [] then .error .valueError
  else
    let v := scanVocabulary p sents minNounFrequency
    match LR.construct (buildLrgraph p sents (Dict.keys v.1) v.2) with
    | .ok g => .ok { s with lrgraph := some g, substringCounter := v.1 }
    | .error e => .error e

/-! ### prediction -/

/-- soynlp/noun/_noun_ver1.py:170-174 -/
def rFeatures (g : LR.State) (word : Str) : List (Str × Int) := (LR.getR g word (-1)).filter (fun f => f.1 ≠ [])

/-- the argument `min_noun_score`: a number, or the noun table that `extract` passes in its place (line 153)
    (soynlp/noun/_noun_ver1.py:153,195) -/
inductive MinArg where
  | num (x : Rat)
  | table (d : Dict Str (Rat × Rat))

/-- `x > min_noun_score`; comparing a float with a dict is a TypeError (soynlp/noun/_noun_ver1.py:186) -/
def gtMin (x : Rat) : MinArg → PyM Bool
  | .num m => .ok (decide (x > m))
  | .table _ => .error .typeError

/-- Python's `max` of two pairs (lexicographic; the first unless the second is larger) (soynlp/noun/_noun_ver1.py:185) -/
def maxPair (a b : Rat × Rat) : Rat × Rat := if b.1 > a.1 ∨ (b.1 = a.1 ∧ b.2 > a.2) then b else a

/-- soynlp/noun/_noun_ver1.py:179-187, one cut -/
def subwordCut (coef : Dict Str Rat) (m : MinArg) (nouns : Dict Str (Rat × Rat)) (word : Str) (e : Nat) : PyM (Option (Str × (Rat × Rat))) :=
  match Dict.get? nouns (word.take e) with
  | none => .ok none
  | some s1 => match Dict.get? nouns (word.drop e) with
    | some s2 => .ok (some (word.take e, maxPair s1 s2))
    | none => (gtMin (Dict.getD coef (word.drop e) 0) m).map (fun b =>
        if b then some (word.take e, (Dict.getD coef (word.drop e) 0, 0)) else none)

/-- the best entry, soynlp/noun/_noun_ver1.py:188-190 (the keys, prefixes of different lengths, are distinct) -/
def bestSubword (l : List (Str × (Rat × Rat))) : Rat × Rat :=
  match sorted (fun x y : Str × (Rat × Rat) => decide (y.2.1 ≤ x.2.1)) l with
  | [] => (0, 0)
  | x :: _ => x.2

/-- soynlp/noun/_noun_ver1.py:176-190 -/
def subwordScore (coef : Dict Str Rat) (word : Str) (m : MinArg) (nouns : Dict Str (Rat × Rat)) : PyM (Rat × Rat) := do
  let l ← ((List.range (word.length - 1)).map (· + 1)).mapM (subwordCut coef m nouns word)
  pure (bestSubword (l.filterMap id))

/-- soynlp/noun/_noun_ver1.py:212-217: the suffixes `word[e:]`, `e = len(word)-1 .. 0` -/
def existLonger (coef : Dict Str Rat) (word r : Str) : Bool :=
  (List.range word.length).any (fun e => Dict.has coef (word.drop e ++ r))

/-- soynlp/noun/_noun_ver1.py:229-235: `(score, norm, unknown)` -/
def tally (coef : Dict Str Rat) (word : Str) (features : List (Str × Int)) : Rat × Int × Int :=
  features.foldl (fun a f => match Dict.get? coef f.1 with
    | some c => if existLonger coef word f.1 then a else (a.1 + (f.2 : Rat) * c, a.2.1 + f.2, a.2.2)
    | none => (a.1, a.2.1, a.2.2 + f.2)) (0, 0, 0)

/-- soynlp/noun/_noun_ver1.py:210-238 -/
def predictFeatures (coef : Dict Str Rat) (features : List (Str × Int)) (word : Str) : Rat × Rat :=
  let t := tally coef word features
  (if t.2.1 = 0 then 0 else t.1 / (t.2.1 : Rat),
   if t.2.1 + t.2.2 = 0 then 0 else (t.2.1 : Rat) / ((t.2.1 + t.2.2 : Int) : Rat))

/-- soynlp/noun/_noun_ver1.py:195-208; `None.get_r` is an AttributeError -/
def predict (p : Params) (s : State) (word : Str) (m : MinArg := .num (1/2)) (nouns : Option (Dict Str (Rat × Rat)) := none) : PyM (Rat × Rat) :=
  match s.lrgraph with
  | none => .error .attributeError
  | some g =>
    if ((rFeatures g word).length : Int) > p.minNumOfFeatures then .ok (predictFeatures s.coefficient (rFeatures g word) word)
    else subwordScore s.coefficient word m (nouns.getD [])

/-- soynlp/noun/_noun_ver1.py:192-193 -/
def isNoun (p : Params) (s : State) (word : Str) (minNounScore : Rat := 1/2) : PyM Bool :=
  (predict p s word).map (fun x => decide (x.1 ≥ minNounScore))

/-! ### extraction -/

/-- soynlp/noun/_noun_ver1.py:149-157 after sorting: `predict(word, nouns)` passes the table as `min_noun_score` -/
def predictAll (p : Params) (s : State) (minNounScore : Rat) (nouns : Dict Str (Rat × Rat)) : List Str → PyM (Dict Str (Rat × Rat))
  | [] => .ok nouns
  | w :: ws =>
    if w.length ≤ 1 then predictAll p s minNounScore nouns ws
    else match predict p s w (.table nouns) none with
      | .error e => .error e
      | .ok x => if x.1 < minNounScore then predictAll p s minNounScore nouns ws
        else predictAll p s minNounScore (Dict.set nouns w x) ws

/-- soynlp/noun/_noun_ver1.py:245-250: `cohesion(word)` is the `(n-1)`-th root of this number (0 when there is no base) -/
def cohesionBase (c : Dict Str Nat) (word : Str) : Rat :=
  if Dict.getD c (word.take 1) 0 = 0 ∨ word.length ≤ 1 then 0
  else ((Dict.getD c word 0 : Nat) : Rat) / ((Dict.getD c (word.take 1) 0 : Nat) : Rat)

/-- soynlp/noun/_noun_ver1.py:252-253, for `len(word) ≥ 3`: the `(n-1)`-th root of one ratio against the `(n-2)`-th root of
    the other, compared by raising both to the power `(n-1)(n-2)` -/
def longerHasLargerCohesion (c : Dict Str Nat) (word : Str) : Bool :=
  decide (cohesionBase c word ^ (word.length - 2) ≥ cohesionBase c word.dropLast ^ (word.length - 1))

/-- soynlp/noun/_noun_ver1.py:256-268: is the word added to `removals`? (words are not empty) -/
def isRemoved (s : State) (nouns : Dict Str (Rat × Rat)) (minNounScore : Rat) (word : Str) : Bool :=
  if word.getLast? = some '.' ∨ word.getLast? = some ',' then true
  else if word.length ≤ 2 ∨ longerHasLargerCohesion s.substringCounter word = true then false
  else ((List.range (word.length - 2)).map (· + 2)).any (fun e =>
    Dict.has nouns (word.take e) && decide (Dict.getD s.coefficient (word.drop e) 0 > minNounScore))

/-- soynlp/noun/_noun_ver1.py:240-270 (`min_noun_frequency` is not used) -/
def postprocess (s : State) (nouns : Dict Str (Rat × Rat)) (minNounScore : Rat) : Dict Str (Rat × Rat) :=
  nouns.filter (fun e => !isRemoved s nouns minNounScore e.1)

/-- soynlp/noun/_noun_ver1.py:277-278 -/
def claimRow (g : LR.State) (word : Str) (rs : List (Str × Int)) : LR.State :=
  rs.foldl (fun g rc => LR.removeEojeol g (word ++ rc.1) rc.2) g

/-- soynlp/noun/_noun_ver1.py:274-278: the loop over the words, longest first -/
def claim (g : LR.State) (freqs : Dict Str Int) : List Str → LR.State × Dict Str Int
  | [] => (g, freqs)
  | w :: ws =>
    let rc := LR.getR g w (-1)
    claim (claimRow g w rc) (Dict.set freqs w ((rc.map (·.2)).sum)) ws

/-- the order of the key `-len(x)`, soynlp/noun/_noun_ver1.py:274 -/
def longerLe (x y : Str) : Bool := decide (y.length ≤ x.length)
/-- the order of the key `len(w)`, soynlp/noun/_noun_ver1.py:149 -/
def shorterLe (x y : Str) : Bool := decide (x.length ≤ y.length)

/-- the reported triple (frequency, score, known_r_ratio), soynlp/noun/_noun_ver1.py:11 -/
structure NounScore where
  frequency : Int
  score : Rat
  knownRRatio : Rat
  deriving DecidableEq

/-- soynlp/noun/_noun_ver1.py:272-285: the graph after `reset_lrgraph` and the result -/
def toNounScore (g : LR.State) (nouns : Dict Str (Rat × Rat)) : LR.State × Dict Str NounScore :=
  let c := claim g [] (sorted longerLe (Dict.keys nouns))
  ((LR.reset c.1).1, nouns.map (fun e => (e.1, ⟨Dict.getD c.2 e.1 0, e.2.1, e.2.2⟩)))

/-- soynlp/noun/_noun_ver1.py:143-168. `candidates = []` is a falsy argument; then the candidates are the words counted in
    training, in the order `ord` in which their set is enumerated (before training `sorted(None)` is a TypeError,
    and with candidates the first use of `self.lrgraph = None`, at the latest its reset, is an AttributeError).
    `min_noun_frequency` has no effect here. -/
def extract (p : Params) (s : State) (ord : List Str) (minNounScore : Rat := 1/2) (candidates : List Str := []) :
    PyM (State × Dict Str NounScore) :=
  match s.lrgraph with
  | none => if candidates = [] then .error .typeError else .error .attributeError
  | some g =>
    match predictAll p s minNounScore [] (sorted shorterLe (if candidates = [] then ord else candidates)) with
    | .error e => .error e
    | .ok nouns =>
      let r := toNounScore g (postprocess s nouns minNounScore)
      .ok ({ s with lrgraph := some r.1 }, r.2)

/-- soynlp/noun/_noun_ver1.py:64-68; `enum` is the order in which the set of counted words is enumerated -/
def trainExtract (p : Params) (enum : List Str → List Str) (s : State) (sents : List Str) (minNounScore : Rat := 1/2) (minNounFrequency : Int := 5)
    (candidates : List Str := []) : PyM (State × Dict Str NounScore) :=
  match train p s sents minNounFrequency with
  | .error e => .error e
  | .ok s => extract p s (enum (Dict.keys s.substringCounter)) minNounScore candidates

end V1
