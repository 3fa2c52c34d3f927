import Verif.Model.Conjugation
import Verif.Model.LRGraph
import Mathlib.Data.List.Dedup
/-!
Model of soynlp/predicator/_stem.py `StemExtractor`. Sets are lists of which only membership matters, except where they are enumerated:
`enumR` gives the order in which the set of ending surfaces is enumerated, `enumL` that of a set of lemma candidates. Scores are rational numbers;
`entLt cs x` compares the entropy of a list of counts with a threshold (see Model/Josa.lean). Printing is not modelled.
-/
namespace Stem
open Py Nested

/-- soynlp/predicator/_stem.py:7-25 -/
structure State where
  lrgraph : LR.State
  stems : List Str
  eomis : List Str
  minUnique : Int := 10
  minEntropy : Rat := 1/2
  L : List Str
  R : List Str
  surfaces : Option (Dict Str (Rat × Int)) := none
  removals : Option (List Str) := none

/-- soynlp/predicator/_stem.py:21-25 -/
def josa : List Str := ["거나", "게", "게는", "게도", "고", "고도", "고만", "는", "다", "다가", "서는", "아", "은"].map String.toList

/-- soynlp/predicator/_stem.py:54-59: the pairs `(l, r)` of one stem and ending; an exception gives none -/
def pairsOf (counter : Dict Str Int) (stem eomi : Str) : List (Str × Str) :=
  match Lemma.conjugate stem eomi with
  | .error _ => []
  | .ok words => (words.filter (fun w => !(decide (Dict.getD counter w 0 = 0) || decide (w.length ≤ stem.length)))).map
      (fun w => (w.take stem.length, w.drop stem.length))

/-- soynlp/predicator/_stem.py:36-69 -/
def conjugateAll (counter : Dict Str Int) (stems eomis : List Str) : List (Str × Str) :=
  stems.flatMap (fun s => eomis.flatMap (fun e => pairsOf counter s e))

/-- soynlp/predicator/_stem.py:7-25 (the threshold `min_entropy_of_R` is kept and never used) -/
def construct (g : LR.State) (stems eomis : List Str) (minUnique : Int := 10) (minEntropy : Rat := 1/2) : State :=
  let lr := conjugateAll (LR.counterOf g.lr) stems eomis
  { lrgraph := g, stems := stems, eomis := eomis, minUnique := minUnique, minEntropy := minEntropy, L := lr.map Prod.fst, R := lr.map Prod.snd }

/-- soynlp/predicator/_stem.py:77-82 -/
def candidates (s : State) (ignore : List Str) (rs : List Str) : Dict Str Int :=
  rs.foldl (fun d r => (LR.getL s.lrgraph r (-1)).foldl (fun d lc => if s.L.contains lc.1 || ignore.contains lc.1 then d else Dict.addI d lc.1 lc.2) d) []

/-- soynlp/predicator/_stem.py:207-212 -/
def rIsPredicator (s : State) (r : Str) : Bool :=
  (List.range' 1 (r.length - 1)).any (fun i => s.L.contains (r.take i) && s.R.contains (r.drop i))

/-- soynlp/predicator/_stem.py:214-218 -/
def existLongerEomi (s : State) (l r : Str) : Bool :=
  (List.range' 1 l.length).any (fun i => s.R.contains (l.drop (l.length - i) ++ r))

/-- `pos, neg, unk` (soynlp/predicator/_stem.py:169) -/
structure Tally where
  pos : Int := 0
  neg : Int := 0
  unk : Int := 0

/-- soynlp/predicator/_stem.py:170-182, one right part -/
def tallyStep (s : State) (l : Str) (t : Tally) (f : Str × Int) : Tally :=
  if josa.contains f.1 then t
  else if f.1 = [] then { t with neg := t.neg + f.2 }
  else if s.R.contains f.1 then { t with pos := t.pos + f.2 }
  else if rIsPredicator s f.1 then { t with neg := t.neg + f.2 }
  else if existLongerEomi s l f.1 then { t with neg := t.neg + f.2 }
  else { t with unk := t.unk + f.2 }

/-- soynlp/predicator/_stem.py:168-183 -/
def tally (s : State) (l : Str) (features : List (Str × Int)) : Tally := features.foldl (tallyStep s l) {}

/-- soynlp/predicator/_stem.py:185-190: the keys of the counter -/
def firstChars (features : List (Str × Int)) : List Char := (features.filterMap (fun f => f.1.head?)).dedup

/-- soynlp/predicator/_stem.py:200-205 -/
def selectPos (s : State) (l : Str) (features : List (Str × Int)) : List (Str × Int) :=
  features.filter (fun f => !(josa.contains f.1 || rIsPredicator s f.1 || existLongerEomi s l f.1) && s.R.contains f.1)

/-- soynlp/predicator/_stem.py:192-198 compared with a threshold -/
def entropyLt (entLt : List Int → Rat → Bool) (counts : List Int) (x : Rat) : Bool :=
  if counts.length ≤ 1 then decide (0 < x) else entLt counts x

/-- soynlp/predicator/_stem.py:152 -/
def score (t : Tally) : Rat := if t.pos + t.neg > 0 then ((t.pos - t.neg : Int) : Rat) / ((t.pos + t.neg : Int) : Rat) else 0

/-- soynlp/predicator/_stem.py:140-166 on the right parts `features` -/
def predictRow (entLt : List Int → Rat → Bool) (s : State) (l : Str) (features : List (Str × Int)) (minScore : Rat) (minFreq : Int) : Rat × Int :=
  let t := tally s l features
  let freq := if score t ≥ minScore then t.pos else t.neg + t.unk
  if decide (((firstChars features).length : Int) < s.minUnique) || entropyLt entLt ((selectPos s l features).map (·.2)) s.minEntropy then (0, 0)
  else if freq < minFreq then (0, freq)
  else (score t, freq)

/-- soynlp/predicator/_stem.py:140-166 -/
def predict (entLt : List Int → Rat → Bool) (s : State) (l : Str) (minScore : Rat := 7/10) (minFreq : Int := 1) : Rat × Int :=
  predictRow entLt s l (LR.getR s.lrgraph l (-1)) minScore minFreq

/-- the order of the key `-len(x)`, soynlp/predicator/_stem.py:115 -/
def longerLe (x y : Str) : Bool := decide (y.length ≤ x.length)

/-- soynlp/predicator/_stem.py:117-122. The keys of `extracted` are known surfaces or earlier candidates, which are distinct: `l in extracted` adds nothing. -/
def skipped (s : State) (l : Str) : Bool :=
  s.L.contains l || s.R.contains l || decide (l.length = 1) || decide (l.getLast? = some '다')

/-- soynlp/predicator/_stem.py:115-136, the loop; known surfaces, which are put in first and removed at the end, are left out (they are skipped anyway) -/
def batchGo (entLt : List Int → Rat → Bool) (s : State) (minScore : Rat) (minFreq : Int) : Dict Str (Rat × Int) → List Str → Dict Str (Rat × Int)
  | d, [] => d
  | d, l :: ls =>
    if skipped s l || Dict.has d l then batchGo entLt s minScore minFreq d ls
    else
      let x := predict entLt s l minScore minFreq
      batchGo entLt s minScore minFreq (if x.1 < minScore ∨ x.2 < minFreq then d else Dict.set d l x) ls

/-- soynlp/predicator/_stem.py:108-138 -/
def batchPrediction (entLt : List Int → Rat → Bool) (s : State) (minScore : Rat) (minFreq : Int) (cands : List Str) : Dict Str (Rat × Int) :=
  batchGo entLt s minScore minFreq [] (sorted longerLe cands)

/-- soynlp/predicator/_stem.py:222-230 -/
def isStemAndEomi (s : State) (ext : Dict Str (Rat × Int)) (l : Str) : Bool :=
  (List.range' 1 (l.length - 1)).any (fun i => (s.L.contains (l.take i) || Dict.has ext (l.take i)) &&
    (List.range' (i + 1) (l.length - i)).any (fun j => s.R.contains ((l.take j).drop i)))

/-- soynlp/predicator/_stem.py:232-236 -/
def existSubword (ext : Dict Str (Rat × Int)) (l : Str) : Bool := (List.range' 2 (l.length - 2)).any (fun i => Dict.has ext (l.take i))

/-- soynlp/predicator/_stem.py:238-241; the order of the loop does not matter, it only fills a set -/
def removalsOf (s : State) (ext : Dict Str (Rat × Int)) : List Str := (Dict.keys ext).filter (fun l => isStemAndEomi s ext l || existSubword ext l)

/-- soynlp/predicator/_stem.py:242-245 -/
def postProcessing (s : State) (ext : Dict Str (Rat × Int)) : Dict Str (Rat × Int) × List Str :=
  (ext.filter (fun e => !(removalsOf s ext).contains e.1), removalsOf s ext)

/-- soynlp/predicator/_stem.py:249-250 -/
def mergeScore (f0 s0 : Rat) (fs1 : Rat × Rat) : PyM (Rat × Rat) :=
  if f0 + fs1.1 = 0 then .error .zeroDivision else .ok (f0 + fs1.1, (s0 * f0 + fs1.2 * fs1.1) / (f0 + fs1.1))

/-- soynlp/predicator/_stem.py:256-260; an exception ends the loop and is caught -/
def mergeAll (eomis : List Str) (f0 s0 : Rat) : Dict Str (Rat × Rat) → List (Str × Str) → Dict Str (Rat × Rat)
  | d, [] => d
  | d, (stem, eomi) :: rest =>
    if eomis.contains eomi then mergeAll eomis f0 s0 d rest
    else match mergeScore f0 s0 (Dict.getD d stem (0, 0)) with
      | .error _ => d
      | .ok x => mergeAll eomis f0 s0 (Dict.set d stem x) rest

/-- soynlp/predicator/_stem.py:255-262 -/
def toStemOne (enumL : List (Str × Str) → List (Str × Str)) (eomis : List Str) (f0 s0 : Rat) (l : Str) (d : Dict Str (Rat × Rat)) (rc : Str × Int) : Dict Str (Rat × Rat) :=
  match Lemma.lemmaCandidate l rc.1 with
  | .error _ => d
  | .ok cs => mergeAll eomis f0 s0 d (enumL cs.dedup)

/-- soynlp/predicator/_stem.py:247-264. The values of `surfaces` are pairs `(score, frequency)`; they are unpacked as `(freq0, score0)`. -/
def toStem (enumL : List (Str × Str) → List (Str × Str)) (s : State) (surfaces : Dict Str (Rat × Int)) : Dict Str (Rat × Rat) :=
  surfaces.foldl (fun d e => (LR.getR s.lrgraph e.1 (-1)).foldl (toStemOne enumL s.eomis e.2.1 ((e.2.2 : Int) : Rat) e.1) d) []

/-- soynlp/predicator/_stem.py:71-106; the attribute `stems` is replaced by the result -/
def extract (entLt : List Int → Rat → Bool) (enumR : List Str → List Str) (enumL : List (Str × Str) → List (Str × Str)) (s : State) (ignore : List Str := [])
    (minScore : Rat := 7/10) (minFreq : Int := 100) : State × Dict Str (Rat × Rat) :=
  let cands := (candidates s ignore (enumR s.R.dedup)).filter (fun e => decide (e.2 ≥ minFreq))
  let p := postProcessing s (batchPrediction entLt s minScore minFreq (Dict.keys cands))
  let out := toStem enumL s p.1
  ({ s with surfaces := some p.1, removals := some p.2, stems := Dict.keys out }, out)

end Stem
