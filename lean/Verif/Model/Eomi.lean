import Verif.Model.ConjStem
import Verif.Model.LRGraph
import Mathlib.Data.List.Dedup
/-!
Model of soynlp/predicator/_eomi.py `EomiExtractor`. Sets are lists of which only membership matters, except where they are
enumerated: `enum` gives the order in which the set of stem surfaces, and the sets of lemma candidates, are enumerated.
Scores are rational numbers. Printing and the log file are not modelled. An empty left part, which no graph made from eojeols has, would raise an
IndexError in `_is_aNoun_Verb`; the model says no there.
-/
namespace Eomi
open Py Nested

/-- the constructor's arguments, soynlp/predicator/_eomi.py:11-20 -/
structure State where
  lrgraph : LR.State
  stems : List Str
  nouns : List Str
  minNumOfFeatures : Int := 5
  eomis : Option (Dict Str (Int × Rat)) := none

/-- soynlp/predicator/_eomi.py:22-24 -/
def isTrained (s : State) : Bool := s.eomis.isSome

/-- soynlp/predicator/_eomi.py:131-135 -/
def existLongerPos (S : List Str) (l r : Str) : Bool := (List.range' 1 r.length).any (fun i => S.contains (l ++ r.take i))

/-- soynlp/predicator/_eomi.py:137-138 -/
def isNounVerb (S nouns : List Str) (l : Str) : Bool :=
  match l with
  | [] => false
  | c :: l => nouns.contains [c] && S.contains l

/-- soynlp/predicator/_eomi.py:140-144: `l[-i:]` for `1 ≤ i < len(l)` -/
def hasStemAtLast (S : List Str) (l : Str) : Bool := (List.range' 1 (l.length - 1)).any (fun i => S.contains (l.drop (l.length - i)))

/-- `pos, neg, unk` (soynlp/predicator/_eomi.py:113) -/
structure Tally where
  pos : Int := 0
  neg : Int := 0
  unk : Int := 0
  deriving DecidableEq

/-- soynlp/predicator/_eomi.py:115-127, one left part -/
def tallyStep (S nouns : List Str) (r : Str) (t : Tally) (f : Str × Int) : Tally :=
  if nouns.contains (f.1 ++ r) then t
  else if existLongerPos S f.1 r then t
  else if S.contains f.1 then { t with pos := t.pos + f.2 }
  else if isNounVerb S nouns f.1 then { t with pos := t.pos + f.2 }
  else if hasStemAtLast S f.1 then { t with unk := t.unk + f.2 }
  else { t with neg := t.neg + f.2 }

/-- soynlp/predicator/_eomi.py:111-129 -/
def tally (S nouns : List Str) (r : Str) (features : List (Str × Int)) : Tally := features.foldl (tallyStep S nouns r) {}

/-- soynlp/predicator/_eomi.py:146-148 -/
def refine (S : List Str) (r : Str) (features : List (Str × Int)) : List (Str × Int) :=
  features.filter (fun f => S.contains f.1 && !existLongerPos S f.1 r)

/-- soynlp/predicator/_eomi.py:94-95 -/
def score (t : Tally) : Rat := if t.pos + t.neg = 0 then 0 else ((t.pos - t.neg : Int) : Rat) / ((t.pos + t.neg : Int) : Rat)

/-- soynlp/predicator/_eomi.py:92-109, on the left parts `features` -/
def predictRow (S nouns : List Str) (minNum : Int) (minScore : Rat) (r : Str) (features : List (Str × Int)) : Int × Rat :=
  let t := tally S nouns r features
  if ((refine S r features).length : Int) ≥ minNum then (if score t ≥ minScore then t.pos + t.unk else t.neg + t.unk, score t)
  else (0, 0)

/-- soynlp/predicator/_eomi.py:87-109, while `extract` runs -/
def predictIn (S nouns : List Str) (minNum : Int) (minScore : Rat) (g : LR.State) (r : Str) : Int × Rat :=
  predictRow S nouns minNum minScore r (LR.getL g r (-1))

/-- soynlp/predicator/_eomi.py:87-109, called by a user: `_stem_surfaces` is set by `extract` and deleted at its end (line 82), so the first
    left part raises in `_refine_features` at the latest -/
def predict (s : State) (r : Str) (_minScore : Rat := 3/10) (_minNum : Int := 5) : PyM (Int × Rat) :=
  if LR.getL s.lrgraph r (-1) = [] then .ok (0, 0) else .error .attributeError

/-- soynlp/predicator/_eomi.py:42: the exception of a stem that cannot be taken apart is not caught -/
def stemSurfaces : List Str → PyM (List Str)
  | [] => .ok []
  | s :: ss => match Lemma.conjugateStem s with
    | .error e => .error e
    | .ok a => (stemSurfaces ss).map (fun b => a ++ b)

/-- soynlp/predicator/_eomi.py:152-169: with `condition` only right parts that end with it (empty: no condition) -/
def wanted (condition r : Str) : Bool := decide (condition = []) || decide (r.drop (r.length - condition.length) = condition)

/-- soynlp/predicator/_eomi.py:150-171; `surfaces` as enumerated -/
def candidates (g : LR.State) (surfaces : List Str) (condition : Str) : Dict Str Int :=
  surfaces.foldl (fun d l => (LR.getR g l (-1)).foldl (fun d rc => if wanted condition rc.1 then Dict.addI d rc.1 rc.2 else d) d) []

/-- the order of the key `-len(x)`, soynlp/predicator/_eomi.py:179 -/
def longerLe (x y : Str) : Bool := decide (y.length ≤ x.length)

/-- soynlp/predicator/_eomi.py:194-197 -/
def removeColumn (S nouns : List Str) (g : LR.State) (r : Str) : LR.State :=
  (LR.getL g r (-1)).foldl (fun g lc => if S.contains lc.1 || isNounVerb S nouns lc.1 then LR.removeEojeol g (lc.1 ++ r) lc.2 else g) g

/-- soynlp/predicator/_eomi.py:179-197, the loop -/
def batchGo (S nouns : List Str) (minNum : Int) (minScore : Rat) : LR.State → Dict Str (Int × Rat) → List Str → LR.State × Dict Str (Int × Rat)
  | g, d, [] => (g, d)
  | g, d, r :: rs =>
    let x := predictIn S nouns minNum minScore g r
    batchGo S nouns minNum minScore (if x.2 ≥ minScore then removeColumn S nouns g r else g) (Dict.set d r x) rs

/-- soynlp/predicator/_eomi.py:173-205, without the reset at its end -/
def batchPrediction (S nouns : List Str) (minNum : Int) (minScore : Rat) (g : LR.State) (cands : List Str) : LR.State × Dict Str (Int × Rat) :=
  batchGo S nouns minNum minScore g [] (sorted longerLe cands)

/-- soynlp/predicator/_eomi.py:209-210; raises when the frequencies add up to 0 -/
def mergeScore (f0 : Int) (s0 : Rat) (fs1 : Int × Rat) : PyM (Int × Rat) :=
  if f0 + fs1.1 = 0 then .error .zeroDivision
  else .ok (f0 + fs1.1, (s0 * (f0 : Rat) + fs1.2 * (fs1.1 : Rat)) / ((f0 + fs1.1 : Int) : Rat))

/-- soynlp/predicator/_eomi.py:218-221: the pairs of one stem surface; an exception ends the loop and is caught, what was entered before stays -/
def mergeAll (stems : List Str) (count : Int) (score0 : Rat) : Dict Str (Int × Rat) → List (Str × Str) → Dict Str (Int × Rat)
  | d, [] => d
  | d, (stem, eomi) :: rest =>
    if !stems.contains stem then mergeAll stems count score0 d rest
    else match mergeScore count score0 (Dict.getD d eomi (0, 0)) with
      | .error _ => d
      | .ok x => mergeAll stems count score0 (Dict.set d eomi x) rest

/-- soynlp/predicator/_eomi.py:217-226 -/
def lemmatizeOne (enum : List (Str × Str) → List (Str × Str)) (stems : List Str) (eomi : Str) (score0 : Rat) (d : Dict Str (Int × Rat)) (lc : Str × Int) :
    Dict Str (Int × Rat) :=
  match Lemma.lemmaCandidate lc.1 eomi with
  | .error _ => d
  | .ok cs => mergeAll stems lc.2 score0 d (enum cs.dedup)

/-- soynlp/predicator/_eomi.py:207-228 -/
def lemmatize (enum : List (Str × Str) → List (Str × Str)) (stems : List Str) (g : LR.State) (eomis : Dict Str (Int × Rat)) : Dict Str (Int × Rat) :=
  eomis.foldl (fun d e => (LR.getL g e.1 (-1)).foldl (lemmatizeOne enum stems e.1 e.2.2) d) []

/-- soynlp/predicator/_eomi.py:50-51 -/
def accepted (minScore : Rat) (d : Dict Str (Int × Rat)) : Dict Str (Int × Rat) := d.filter (fun e => decide (e.2.2 ≥ minScore))

/-- soynlp/predicator/_eomi.py:60-61 -/
def frequent (minFrequency : Int) (minScore : Rat) (d : Dict Str (Int × Rat)) : Dict Str (Int × Rat) :=
  d.filter (fun e => decide (e.2.1 ≥ minFrequency) && decide (e.2.2 ≥ minScore))

/-- soynlp/predicator/_eomi.py:35-85. The graph is reset after the batch prediction (line 199), again on line 57, and on line 80 if asked; nothing
    changes it in between. -/
def extract (enumS : List Str → List Str) (enumL : List (Str × Str) → List (Str × Str)) (s : State) (condition : Str := []) (minScore : Rat := 3/10)
    (minFrequency : Int := 1) (_resetLrgraph : Bool := true) : PyM (State × Dict Str (Int × Rat)) :=
  match stemSurfaces s.stems with
  | .error e => .error e
  | .ok S =>
    let b := batchPrediction S s.nouns s.minNumOfFeatures minScore s.lrgraph (Dict.keys (candidates s.lrgraph (enumS S.dedup) condition))
    let g := (LR.reset b.1).1
    let out := frequent minFrequency minScore (lemmatize enumL s.stems g (accepted minScore b.2))
    .ok ({ s with lrgraph := g, eomis := some out }, out)

end Eomi
