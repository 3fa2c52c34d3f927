import Verif.Model.LRGraph
/-!
Model of soynlp/noun/_josa.py. Python sets are lists used through membership, except that the set of nouns is enumerated
in an arbitrary order given by `enum`. Entropies are irrational numbers: the comparison of the entropy of a list of counts
with a threshold is the parameter `entLt` (`entLt counts x` is "the entropy is below `x`"); the divisions and logarithms
that can raise are modelled.
-/
namespace Josa
open Py Nested

/-- the numeric arguments, soynlp/noun/_josa.py:5-8 -/
structure Params where
  minNounScore : Rat := 3/10
  minNounFrequency : Rat := 100
  minPosScore : Rat := 3/10
  minPosFeatureFrequency : Int := 1000
  minNumOfUniqueLastchar : Int := 4
  minEntropyOfLastchar : Rat := 1/2
  minNounEntropy : Rat := 3/2

/-- soynlp/noun/_josa.py:10-12: the first component of the pair is compared with `min_noun_score`, the second with
    `min_noun_frequency` -/
def selectNouns (p : Params) (predictionScores : Dict Str (Rat × Rat)) : List Str :=
  (predictionScores.filter (fun e => decide (e.2.1 ≥ p.minNounScore) && decide (e.2.2 ≥ p.minNounFrequency))).map (·.1)

/-- soynlp/noun/_josa.py:17-22 -/
def posCandidates (g : LR.State) (known ignored nouns : List Str) : Dict Str Int :=
  nouns.foldl (fun d noun => (LR.getR g noun (-1)).foldl (fun d rc =>
    if known.contains rc.1 || ignored.contains rc.1 then d else Dict.addI d rc.1 rc.2) d) []

/-- soynlp/noun/_josa.py:58-59 -/
def nounFeature (g : LR.State) (r : Str) : List (Str × Int) := (LR.getL g r (-1)).filter (fun lc => decide (lc.1.length > 1))

/-- soynlp/noun/_josa.py:97-102 -/
def existLongerNoun (nouns : List Str) (l r : Str) : Bool :=
  (List.range r.length).any (fun i => nouns.contains (l ++ r.take (i + 1)))

/-- soynlp/noun/_josa.py:104-111, the loop over the prefixes: the inner loop returns in its first round, so only the
    shortest prefix that is a noun is considered -/
def isNJgo (nouns : List Str) (posR : Str → Bool) (r : Str) : List Nat → Bool
  | [] => false
  | i :: is => if nouns.contains (r.take i) then posR (r.drop i) else isNJgo nouns posR r is

/-- soynlp/noun/_josa.py:104-111 -/
def isNJ (nouns : List Str) (posR : Str → Bool) (r : Str) : Bool := isNJgo nouns posR r ((List.range (r.length - 1)).map (· + 1))

/-- soynlp/noun/_josa.py:79-95: `(pos, neg, unk)` -/
def tally (nouns : List Str) (posR : Str → Bool) (r : Str) (features : List (Str × Int)) : Int × Int × Int :=
  features.foldl (fun a lc =>
    if lc.1.length ≤ 1 then a
    else if isNJ nouns posR r then (a.1, a.2.1 + lc.2, a.2.2)
    else if existLongerNoun nouns lc.1 r then (a.1, a.2.1 + lc.2, a.2.2)
    else if nouns.contains lc.1 then (a.1 + lc.2, a.2.1, a.2.2)
    else (a.1, a.2.1, a.2.2 + lc.2)) (0, 0, 0)

/-- the entropy of a list of counts compared with a threshold: `c / sum` and `math.log` may raise,
    soynlp/noun/_josa.py:43-45, 121-123 -/
def entropyLt (entLt : List Int → Rat → Bool) (counts : List Int) (x : Rat) : PyM Bool :=
  if counts ≠ [] ∧ counts.sum = 0 then .error .zeroDivision
  else if counts.any (fun c => decide ((c : Rat) / (counts.sum : Rat) ≤ 0)) then .error .valueError
  else .ok (entLt counts x)

/-- soynlp/noun/_josa.py:115-118: the counts by last character (the strings are not empty) -/
def lastCounter (features : List (Str × Int)) : Dict (Option Char) Int :=
  features.foldl (fun d lc => Dict.addI d lc.1.getLast? lc.2) []

/-- soynlp/noun/_josa.py:71-77 -/
def scoreOf (p : Params) (t : Int × Int × Int) : Rat × Int :=
  let score : Rat := if t.1 + t.2.1 > 0 then ((t.1 - t.2.1 : Int) : Rat) / ((t.1 + t.2.1 : Int) : Rat) else 0
  let freq := if score ≥ p.minPosScore then t.1 else t.2.1 + t.2.2
  if freq < p.minPosFeatureFrequency then (0, freq) else (score, freq)

/-- soynlp/noun/_josa.py:61-77 -/
def predict (p : Params) (entLt : List Int → Rat → Bool) (nouns : List Str) (posR : Str → Bool) (r : Str)
    (features : List (Str × Int)) : PyM (Rat × Int) :=
  match entropyLt entLt ((lastCounter features).map (·.2)) p.minEntropyOfLastchar with
  | .error e => .error e
  | .ok low =>
    if ((lastCounter features).length : Int) < p.minNumOfUniqueLastchar ∨ low = true then .ok (0, 0)
    else .ok (scoreOf p (tally nouns posR r features))

/-- soynlp/noun/_josa.py:37-50: `some (score, freq)` when the candidate is accepted -/
def judge (p : Params) (entLt : List Int → Rat → Bool) (g : LR.State) (nouns : List Str) (posR : Str → Bool) (r : Str) :
    PyM (Option (Rat × Int)) :=
  match predict p entLt nouns posR r (nounFeature g r) with
  | .error e => .error e
  | .ok x =>
    match entropyLt entLt (((nounFeature g r).filter (fun lc => nouns.contains lc.1)).map (·.2)) p.minNounEntropy with
    | .error e => .error e
    | .ok low => .ok (if x.1 ≥ p.minPosScore ∧ x.2 ≥ p.minPosFeatureFrequency ∧ low = false then some x else none)

/-- soynlp/noun/_josa.py:32-50, the loop over the candidates, shortest first. `found` holds the accepted ones; together
    with the known features they are `domain_pos_features`. -/
def loop (p : Params) (entLt : List Int → Rat → Bool) (g : LR.State) (known nouns : List Str) :
    Dict Str (Rat × Int) → List Str → PyM (Dict Str (Rat × Int))
  | found, [] => .ok found
  | found, r :: rs =>
    if known.contains r || nouns.contains r then loop p entLt g known nouns found rs
    else match judge p entLt g nouns (fun x => known.contains x || Dict.has found x) r with
      | .error e => .error e
      | .ok (some x) => loop p entLt g known nouns (Dict.set found r x) rs
      | .ok none => loop p entLt g known nouns found rs

/-- the order of the key `len(x)`, soynlp/noun/_josa.py:32 -/
def shorterLe (x y : Str) : Bool := decide (x.length ≤ y.length)

/-- soynlp/noun/_josa.py:3-56. `known` is never among the accepted ones, so the last filter (lines 53-54) leaves `found`. -/
def extractDomainPosFeatures (p : Params) (entLt : List Int → Rat → Bool) (enum : List Str → List Str)
    (predictionScores : Dict Str (Rat × Rat)) (g : LR.State) (known : List Str) (ignored : List Str := []) :
    PyM (Dict Str (Rat × Int)) :=
  let nouns := selectNouns p predictionScores
  let cands := (posCandidates g known ignored (enum nouns)).filter (fun e => decide (e.2 ≥ p.minPosFeatureFrequency))
  loop p entLt g known nouns [] (sorted shorterLe (Dict.keys cands))

end Josa
