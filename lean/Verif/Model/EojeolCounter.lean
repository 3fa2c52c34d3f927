import Verif.Py.DictInt
import Verif.Py.File
import Mathlib.Algebra.Order.Field.Rat
/-!
Model of `check_corpus` and `EojeolCounter` in soynlp/utils/utils.py. Counts are `Int`, coverage (a float there) is an
exact rational. `verbose` printing is not modelled.
-/
namespace EC
open Py

/-- constructor parameters, soynlp/utils/utils.py:193-204; `preprocess` defaults to the identity -/
structure Params where
  minCount : Int := 1
  maxLength : Int := 15
  checkpoint : Int := 0
  preprocess : Str → Str := id

/-- the object's mutable fields `_counter`, `_count_sum`, `_coverage` (soynlp/utils/utils.py:200,207-212) -/
structure State where
  counter : Dict Str Int := []
  countSum : Int := 0
  coverage : Rat := 0
  deriving DecidableEq

/-- soynlp/utils/utils.py:81-98 for a list (which has `__iter__` and `__len__`) -/
def checkCorpus {α} (corpus : List α) : PyM Bool :=
  if corpus.length ≤ 0 then .error .valueError else .ok true

/-- soynlp/utils/utils.py:237-240, one eojeol -/
def addEojeol (p : Params) (d : Dict Str Int) (e : Str) : Dict Str Int :=
  if e = [] ∨ (e.length : Int) > p.maxLength then d else Dict.addI d e 1

/-- soynlp/utils/utils.py:234-235 and 246 -/
def filterMin (m : Int) (d : Dict Str Int) : Dict Str Int := d.filter (fun kv => decide (kv.2 ≥ m))

/-- soynlp/utils/utils.py:230-233 -/
def atCheckpoint (p : Params) (i : Nat) : Bool :=
  decide (p.minCount > 1) && decide (p.checkpoint > 0) && decide (i > 0) && decide ((i : Int) % p.checkpoint = 0)

/-- soynlp/utils/utils.py:228-240, one round of the loop -/
def countSent (p : Params) (d : Dict Str Int) (si : Str × Nat) : Dict Str Int :=
  let sent := p.preprocess si.1
  let d := if atCheckpoint p si.2 then filterMin p.minCount d else d
  (splitWs sent).foldl (addEojeol p) d

/-- soynlp/utils/utils.py:223-250 -/
def counting (p : Params) (sents : List Str) : PyM (Dict Str Int) := do
  let _ ← checkCorpus sents
  pure (filterMin p.minCount (sents.zipIdx.foldl (countSent p) []))

/-- soynlp/utils/utils.py:193-212 -/
def construct (p : Params) (sents : Option (List Str)) : PyM State :=
  match sents with
  | none => .ok { counter := [], countSum := Dict.sumI ([] : Dict Str Int), coverage := 0 }
  | some sents => do
    let c ← counting p sents
    pure { counter := c, countSum := Dict.sumI c, coverage := 0 }

/-- `__getitem__` and `get_eojeol_count`, soynlp/utils/utils.py:214-215, 277-278 -/
def getitem (s : State) (e : Str) : Int := Dict.getD s.counter e 0

/-- `__len__`, `num_of_unique_uncovered_eojeols`, soynlp/utils/utils.py:217-218, 262-264 -/
def len (s : State) : Nat := s.counter.length

/-- soynlp/utils/utils.py:266-268 -/
def numUncovered (s : State) : Int := Dict.sumI s.counter

/-- soynlp/utils/utils.py:270-271 -/
def getUncovered (s : State) (minCount : Int := 0) : Dict Str Int := filterMin minCount s.counter

/-- the `coverage` setter, soynlp/utils/utils.py:256-260 -/
def setCoverage (s : State) (v : Rat) : State × PyM Unit :=
  if ¬ (0 ≤ v ∧ v ≤ 1) then (s, .error .valueError) else ({ s with coverage := v }, .ok ())

/-- soynlp/utils/utils.py:273-275; `eojeols` is any container, used through `in` only. The counter is replaced before
    the division can raise. -/
def removeCovered (s : State) (eojeols : Str → Bool) : State × PyM Unit :=
  let s := { s with counter := s.counter.filter (fun kv => !eojeols kv.1) }
  if s.countSum = 0 then (s, .error .zeroDivision)
  else setCoverage s (1 - (numUncovered s : Rat) / (s.countSum : Rat))

/-- the sort key `(-x[1], x[0])` of soynlp/utils/utils.py:306 -/
def saveLe (x y : Str × Int) : Bool := if x.2 > y.2 then true else if y.2 > x.2 then false else strLe x.1 y.1

/-- one line `'{} {}\n'`, without the newline, soynlp/utils/utils.py:307 -/
def saveLine (x : Str × Int) : Str := x.1 ++ ' ' :: intStr x.2

/-- soynlp/utils/utils.py:301-307: the text written -/
def save (s : State) : Str := (sorted saveLe s.counter).flatMap (fun x => saveLine x ++ ['\n'])

/-- soynlp/utils/utils.py:314-315, one line; `word, count = line.split()` needs exactly two pieces -/
def loadLine (d : Dict Str Int) (line : Str) : PyM (Dict Str Int) :=
  match splitWs line with
  | [word, count] => do
    let n ← parseInt count
    pure (Dict.set d word n)
  | _ => .error .valueError

/-- soynlp/utils/utils.py:313-315, the loop, with the counter as it is left when a line raises -/
def loadGo (d : Dict Str Int) : List Str → Dict Str Int × PyM Unit
  | [] => (d, .ok ())
  | l :: ls => match loadLine d l with
    | .ok d => loadGo d ls
    | .error e => (d, .error e)

/-- soynlp/utils/utils.py:309-316 -/
def load (s : State) (text : Str) : State × PyM Unit :=
  match loadGo [] (fileLines text) with
  | (d, .ok ()) => ({ counter := d, countSum := Dict.sumI d, coverage := 0 }, .ok ())
  | (d, .error e) => ({ counter := d, countSum := s.countSum, coverage := 0 }, .error e)

end EC
