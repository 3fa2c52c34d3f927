import Verif.Model.Bigram
import Verif.Model.V2Left
import Verif.Model.Eomi
/-!
The property `is_trained` of the trainers that have one, and the histories of calls it is asked after.  `PredicatorExtractor.is_trained`
(soynlp/predicator/_predicator.py:134-136) reads an attribute `lrgraph` that no line of the class sets: it raises AttributeError whenever it is read, and is not
modelled further.
-/
open Py

namespace BG

/-- soynlp/word/_phrase.py:31-33: the counter itself, used as a truth value -/
def isTrained (s : State) : Bool :=
  match s.counter with
  | none => false
  | some c => decide (c ≠ [])

end BG

namespace V2

/-- soynlp/noun/_noun_ver2.py:58-60: the graph itself, used as a truth value; `LRGraph` has neither `__bool__` nor `__len__`, so a graph is true -/
def isTrained (s : State) : Bool := s.lrgraph.isSome

/-- a call of a user (soynlp/noun/_noun_ver2.py:148,243) -/
inductive Call where
  | train (x : Input) (minEojeolFrequency : Int)
  | extract (enum : Nat → List Str → List Str) (minNounScore minNounFrequency : Rat) (reset : Bool)

/-- soynlp/noun/_noun_ver2.py:148-199: `train` assigns nothing before the graph has been made, and counting the eojeols of a graph does not raise; so a call that
    raises leaves the extractor as it was -/
def callLeft (p : Params) (entLt : List Int → Rat → Bool) (s : State) : Call → State × PyM Unit
  | .train x m => match train p s x m with
    | .ok s => (s, .ok ())
    | .error e => (s, .error e)
  | .extract enum m f r => match extractLeft p entLt enum s m f r with
    | (s, .ok _) => (s, .ok ())
    | (s, .error e) => (s, .error e)

/-- a history of calls, whether they raise or not: what is left, and what came of each (soynlp/noun/_noun_ver2.py:148-304) -/
def history (p : Params) (entLt : List Int → Rat → Bool) : State → List Call → State × List (Call × PyM Unit)
  | s, [] => (s, [])
  | s, c :: cs =>
    let r := callLeft p entLt s c
    let h := history p entLt r.1 cs
    (h.1, (c, r.2) :: h.2)

end V2

namespace Eomi

/-- soynlp/predicator/_eomi.py:35-85 with what it leaves when it raises: the endings are emptied first (line 40), and the stems are the only thing that can raise (line 42) -/
def extractLeft (enumS : List Str → List Str) (enumL : List (Str × Str) → List (Str × Str)) (s : State) (condition : Str) (minScore : Rat)
    (minFrequency : Int) (reset : Bool) : State × PyM (Dict Str (Int × Rat)) :=
  match extract enumS enumL s condition minScore minFrequency reset with
  | .error e => ({ s with eomis := some [] }, .error e)
  | .ok (s, out) => (s, .ok out)

/-- the arguments of a call of `extract` (soynlp/predicator/_eomi.py:35-36) -/
structure Args where
  enumS : List Str → List Str
  enumL : List (Str × Str) → List (Str × Str)
  condition : Str
  minScore : Rat
  minFrequency : Int
  reset : Bool

/-- a history of calls of `extract`, whether they raise or not (soynlp/predicator/_eomi.py:35-85) -/
def history (s : State) (cs : List Args) : State :=
  cs.foldl (fun s c => (extractLeft c.enumS c.enumL s c.condition c.minScore c.minFrequency c.reset).1) s

end Eomi
