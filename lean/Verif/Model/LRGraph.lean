import Verif.Py.Nested
import Verif.Model.EojeolCounter
/-!
Model of `LRGraph` and `EojeolCounter.to_lrgraph` in soynlp/utils/utils.py. Graphs are two-level dictionaries with `Int`
counts. Object identity is not modelled: `_check_lrgraph` keeps the caller's own inner dicts when they are plain
dicts, so a caller that goes on mutating its argument is outside the model. The `type(...)` tests are settled by typing.
-/
namespace LR
open Py Nested

/-- the object's fields; `origin = none` is `_lr_origin = None` (soynlp/utils/utils.py:325-339) -/
structure State where
  lr : Nested Str := []
  rl : Nested Str := []
  origin : Option (Nested Str) := some []
  lMax : Int := 10
  rMax : Int := 9
  deriving DecidableEq

/-- soynlp/utils/utils.py:367-373: the reversed graph -/
def reverse (g : Nested Str) : Nested Str :=
  g.foldl (fun rl lt => lt.2.foldl (fun rl rc => if rc.1 = [] then rl else nadd rl rc.1 lt.1 rc.2) rl) []

/-- soynlp/utils/utils.py:354-374; `list(lrgraph.values())[0]` raises on an empty graph -/
def checkLrgraph (g : Nested Str) : PyM (Nested Str × Nested Str) :=
  if g = [] then .error .indexError else .ok (g, reverse g)

/-- the splits of one word, soynlp/utils/utils.py:346-349 and 291-294: `(l, r)` with `1 ≤ len(l) ≤ min(len(w), lMax)`
    and `len(r) ≤ rMax` -/
def splits (lMax rMax : Int) (w : Str) : List (Str × Str) :=
  ((List.range w.length).map (fun i => (w.take (i + 1), w.drop (i + 1)))).filter
    (fun p => decide ((p.1.length : Int) ≤ lMax) && decide ((p.2.length : Int) ≤ rMax))

/-- soynlp/utils/utils.py:341-352. The weight added is `e`, the length of `l`, not 1 (line 350). -/
def constructGraph (lMax rMax : Int) (sents : List Str) : Nested Str :=
  sents.foldl (fun g sent => (splitWs sent).foldl (fun g word =>
    (splits lMax rMax (strip word)).foldl (fun g p => nadd g p.1 p.2 (p.1.length : Int)) g) g) []

/-- soynlp/utils/utils.py:333-339 -/
def ofGraph (g : Nested Str) (lMax rMax : Int) : PyM State :=
  if g = [] then .ok { lr := [], rl := [], origin := some [], lMax := lMax, rMax := rMax }
  else match checkLrgraph g with
    | .ok (lr, rl) => .ok { lr := lr, rl := rl, origin := some lr, lMax := lMax, rMax := rMax }
    | .error e => .error e

/-- soynlp/utils/utils.py:320-339; absent arguments are empty ones (both are falsy) -/
def construct (lrgraph : Nested Str := []) (sents : List Str := []) (lMax : Int := 10) (rMax : Int := 9) : PyM State :=
  if ¬ lMax > 1 then .error .assertion
  else if ¬ rMax > 0 then .error .assertion
  else if sents ≠ [] then
    if lrgraph ≠ [] then .error .valueError
    else ofGraph (constructGraph lMax rMax sents) lMax rMax
  else ofGraph lrgraph lMax rMax

/-- soynlp/utils/utils.py:376-383 -/
def reset (s : State) : State × PyM Unit :=
  match s.origin with
  | none => (s, .ok ())
  | some g => if g = [] then (s, .ok ())
    else match checkLrgraph g with
      | .ok (lr, rl) => ({ s with lr := lr, rl := rl }, .ok ())
      | .error e => (s, .error e)

/-- `g[a][b] += c` on plain dicts: `KeyError` unless both keys are present (soynlp/utils/utils.py:386,388) -/
def bump (g : Nested Str) (a b : Str) (c : Int) : PyM (Nested Str) :=
  match Dict.get? g a with
  | none => .error .keyError
  | some t => match Dict.get? t b with
    | none => .error .keyError
    | some v => .ok (Dict.set g a (Dict.set t b (v + c)))

/-- soynlp/utils/utils.py:385-388 -/
def addPair (s : State) (l r : Str) (count : Int) : State × PyM Unit :=
  match bump s.lr l r count with
  | .error e => (s, .error e)
  | .ok lr =>
    if r = [] then ({ s with lr := lr }, .ok ())
    else match bump s.rl r l count with
      | .error e => ({ s with lr := lr }, .error e)
      | .ok rl => ({ s with lr := lr, rl := rl }, .ok ())

/-- all `(w[:i], w[i:])`, `1 ≤ i ≤ len(w)`, soynlp/utils/utils.py:391-392 and 414-415 -/
def cuts (w : Str) : List (Str × Str) := (List.range w.length).map (fun i => (w.take (i + 1), w.drop (i + 1)))

/-- the loop of soynlp/utils/utils.py:391-393, stopped by the first exception -/
def addPairs (s : State) (count : Int) : List (Str × Str) → State × PyM Unit
  | [] => (s, .ok ())
  | p :: ps => match addPair s p.1 p.2 count with
    | (s, .ok ()) => addPairs s count ps
    | (s, .error e) => (s, .error e)

/-- soynlp/utils/utils.py:390-393 -/
def addEojeol (s : State) (w : Str) (count : Int) : State × PyM Unit := addPairs s count (cuts w)

/-- soynlp/utils/utils.py:396-403 (and 404-411 for the other direction): decrement, drop the entry at `≤ 0`, drop the
    table when it becomes empty -/
def lower (g : Nested Str) (a b : Str) (c : Int) : Nested Str :=
  match Dict.get? g a with
  | none => g
  | some t => match Dict.get? t b with
    | none => g
    | some v =>
      if v - c ≤ 0 then
        let t' := Dict.erase t b
        if t'.length ≤ 0 then Dict.erase g a else Dict.set g a t'
      else Dict.set g a (Dict.set t b (v - c))

/-- soynlp/utils/utils.py:395-411 -/
def removePair (s : State) (l r : Str) (count : Int) : State :=
  { s with lr := lower s.lr l r count, rl := lower s.rl r l count }

/-- soynlp/utils/utils.py:413-416 -/
def removeEojeol (s : State) (w : Str) (count : Int) : State :=
  (cuts w).foldl (fun s p => removePair s p.1 p.2 count) s

/-- the order of the key `-x[1]`, soynlp/utils/utils.py:419, 425 -/
def countLe (x y : Str × Int) : Bool := decide (y.2 ≤ x.2)

/-- `[:topk]` when `topk > 0` (soynlp/utils/utils.py:420-421,426-427) -/
def topK {α} (l : List α) (topk : Int) : List α := if topk > 0 then l.take topk.toNat else l

/-- soynlp/utils/utils.py:418-422 -/
def getR (s : State) (l : Str) (topk : Int := 10) : List (Str × Int) := topK (sorted countLe (row s.lr l)) topk

/-- soynlp/utils/utils.py:424-428 -/
def getL (s : State) (r : Str) (topk : Int := 10) : List (Str × Int) := topK (sorted countLe (row s.rl r)) topk

/-- soynlp/utils/utils.py:430-433 -/
def freeze (s : State) : State := { s with origin := none }

/-- soynlp/utils/utils.py:435-444; iterating over `None` is an AttributeError (`None.items()`) -/
def copyOrigin (s : State) : PyM State := do
  let base ← construct [] [] s.lMax s.rMax
  match s.origin with
  | none => .error .attributeError
  | some g => match checkLrgraph g with
    | .ok (lr, rl) => .ok { base with lr := lr, rl := rl }
    | .error e => .error e

/-- soynlp/utils/utils.py:448-451 -/
def counterOf (g : Nested Str) : Dict Str Int :=
  g.foldl (fun d lt => lt.2.foldl (fun d rc => Dict.set d (lt.1 ++ rc.1) rc.2) d) []

/-- soynlp/utils/utils.py:446-455 -/
def toEojeolCounter (s : State) (resetGraph : Bool := false) : PyM EC.State :=
  let mk (g : Nested Str) : EC.State := { counter := counterOf g, countSum := Dict.sumI (counterOf g), coverage := 0 }
  if resetGraph then
    match s.origin with
    | none => .error .attributeError
    | some g => .ok (mk g)
  else .ok (mk s.lr)

/-- soynlp/utils/utils.py:286-296 with `ignore_one_syllable=False` -/
def lrOfCounter (lMax rMax : Int) (c : Dict Str Int) : Nested Str :=
  c.foldl (fun g ec => (splits lMax rMax ec.1).foldl (fun g p => nadd g p.1 p.2 ec.2) g) []

/-- soynlp/utils/utils.py:283-284 and 286-299: the argument `ignore_one_syllable` is accepted and not passed on. -/
def toLrgraph (s : EC.State) (lMax : Int := 10) (rMax : Int := 9) (_ignoreOneSyllable : Bool := false) : PyM State :=
  construct (lrOfCounter lMax rMax s.counter) [] lMax rMax

/-- soynlp/utils/utils.py:464 -/
def saveLine (l : Str) (rc : Str × Int) : Str := l ++ ' ' :: rc.1 ++ ' ' :: intStr rc.2

/-- soynlp/utils/utils.py:457-464. Tuples are compared by key alone: keys are distinct. -/
def save (s : State) : PyM Str :=
  match s.origin with
  | none => .error .attributeError
  | some g => .ok ((sorted (fun x y : Str × Dict Str Int => strLe x.1 y.1) g).flatMap (fun lt =>
      (sorted (fun x y : Str × Int => strLe x.1 y.1) lt.2).flatMap (fun rc => saveLine lt.1 rc ++ ['\n'])))

/-- soynlp/utils/utils.py:472-483, one line, with the loop state `_lr_origin, l, rdict` -/
def loadLine (o : Nested Str) (l : Str) (rdict : Dict Str Int) (line : Str) : PyM (Nested Str × Str × Dict Str Int) :=
  match splitWs line with
  | [] => .error .indexError
  | l' :: rest =>
    let (o, rdict) := if l' = l then (o, rdict) else if rdict = [] then (o, rdict) else (Dict.set o l rdict, [])
    match rest with
    | [c] => do
      let n ← parseInt c
      pure (o, l', Dict.set rdict [] n)
    | [r, c] => do
      let n ← parseInt c
      pure (o, l', Dict.set rdict r n)
    | _ => .error .valueError

/-- soynlp/utils/utils.py:471-485, the loop -/
def loadGo (o : Nested Str) (l : Str) (rdict : Dict Str Int) : List Str → PyM (Nested Str)
  | [] => .ok (if rdict = [] then o else Dict.set o l rdict)
  | line :: lines => match loadLine o l rdict line with
    | .ok (o, l, rdict) => loadGo o l rdict lines
    | .error e => .error e

/-- soynlp/utils/utils.py:471-483: `_lr_origin` as it is left by the loop when a line raises. The finished group is stored (lines 474-476) before the line is
    looked at any further; a line without any field raises before that (line 473). -/
def loadLeft (o : Nested Str) (l : Str) (rdict : Dict Str Int) : List Str → Nested Str
  | [] => o
  | line :: lines => match loadLine o l rdict line with
    | .ok (o, l, rdict) => loadLeft o l rdict lines
    | .error _ => match splitWs line with
      | [] => o
      | l' :: _ => if l' = l then o else if rdict = [] then o else Dict.set o l rdict

/-- soynlp/utils/utils.py:466-488 -/
def load (s : State) (text : Str) : State × PyM Unit :=
  match loadGo [] [] [] (fileLines text) with
  | .error e => ({ s with origin := some (loadLeft [] [] [] (fileLines text)) }, .error e)
  | .ok o => match checkLrgraph o with
    | .ok (lr, rl) => ({ s with lr := lr, rl := rl, origin := some o }, .ok ())
    | .error e => ({ s with origin := some o }, .error e)

/-- the public operations that change a graph (soynlp/utils/utils.py:376-433,466) -/
inductive Op where
  | addPair (l r : Str) (count : Int)
  | addEojeol (w : Str) (count : Int)
  | removePair (l r : Str) (count : Int)
  | removeEojeol (w : Str) (count : Int)
  | reset
  | freeze

/-- one call, raising or not (soynlp/utils/utils.py:376-433,466) -/
def step (s : State) : Op → State × PyM Unit
  | .addPair l r c => addPair s l r c
  | .addEojeol w c => addEojeol s w c
  | .removePair l r c => (removePair s l r c, .ok ())
  | .removeEojeol w c => (removeEojeol s w c, .ok ())
  | .reset => reset s
  | .freeze => (freeze s, .ok ())

/-- a history of calls (the caller catches whatever is raised) (soynlp/utils/utils.py:376-433,466) -/
def run (s : State) (ops : List Op) : State := ops.foldl (fun s op => (step s op).1) s

end LR
