import Verif.Model.WordExtractor
/-!
Model of `WordExtractor.save` and `.load`, soynlp/word/_word.py:248-305. Pickling is trusted: what is dumped is what is loaded
(after training the tables are plain dictionaries, soynlp/word/_word.py:113-116, so they can be pickled).
-/
namespace WX
open Py

/-- the values that are pickled (soynlp/word/_word.py:248-272) -/
inductive Val where
  | int (n : Int)
  | float (x : ℝ)
  | bool (b : Bool)
  | counts (d : Dict Str Nat)
  | dict (items : List (Str × Val))

/-- the object: configuration and tables, soynlp/word/_word.py:34-51 -/
structure Extractor where
  maxLeft : Int
  maxRight : Int
  minFrequency : Int
  verbose : Int
  minCohesionForward : ℝ
  minCohesionBackward : ℝ
  maxDroprate : ℝ
  minLeftBE : ℝ
  minRightBE : ℝ
  minLeftAV : Int
  minRightAV : Int
  removeSubwords : Bool
  tables : State

/-- the parameters that training uses (soynlp/word/_word.py:34-42) -/
def Extractor.params (e : Extractor) : Params := ⟨e.maxLeft, e.maxRight, e.minFrequency⟩

/-- the thresholds that `extract` uses (soynlp/word/_word.py:43-51) -/
def Extractor.cuts (e : Extractor) : Cuts :=
  ⟨e.minFrequency, e.minCohesionForward, e.minCohesionBackward, e.maxDroprate, e.minLeftBE, e.minRightBE, e.minLeftAV, e.minRightAV, e.removeSubwords⟩

/-- soynlp/word/_word.py:248-275: the pickled value -/
def save (e : Extractor) : Val :=
  .dict [
    ("configuration".toList, .dict [
      ("max_left_length".toList, .int e.maxLeft),
      ("max_right_length".toList, .int e.maxRight),
      ("min_frequency".toList, .int e.minFrequency),
      ("verbose_points".toList, .int e.verbose),
      ("min_cohesion_forward".toList, .float e.minCohesionForward),
      ("min_cohesion_backward".toList, .float e.minCohesionBackward),
      ("max_droprate_leftside_frequency".toList, .float e.maxDroprate),
      ("min_left_branching_entropy".toList, .float e.minLeftBE),
      ("min_right_branching_entropy".toList, .float e.minRightBE),
      ("min_left_accessor_variety".toList, .int e.minLeftAV),
      ("min_right_accessor_variety".toList, .int e.minRightAV),
      ("remove_subwords".toList, .bool e.removeSubwords)]),
    ("data".toList, .dict [
      ("L".toList, .counts e.tables.L),
      ("R".toList, .counts e.tables.R),
      ("aL".toList, .counts e.tables.aL),
      ("aR".toList, .counts e.tables.aR)])]

/-- `params[key]` (soynlp/word/_word.py:280-303) -/
def Val.item : Val → Str → PyM Val
  | .dict items, k => match Dict.get? items k with
    | none => .error .keyError
    | some v => .ok v
  | _, _ => .error .typeError

/-- reading a field of the expected type (Python does not check the types) (soynlp/word/_word.py:280-303) -/
def Val.asInt : Val → PyM Int | .int n => .ok n | _ => .error .typeError
/-- reading a number, soynlp/word/_word.py:280-303 -/
def Val.asFloat : Val → PyM ℝ | .float x => .ok x | _ => .error .typeError
/-- reading a flag, soynlp/word/_word.py:280-303 -/
def Val.asBool : Val → PyM Bool | .bool b => .ok b | _ => .error .typeError
/-- reading a counter, soynlp/word/_word.py:280-303 -/
def Val.asCounts : Val → PyM (Dict Str Nat) | .counts d => .ok d | _ => .error .typeError

/-- soynlp/word/_word.py:277-305: every attribute of the receiving object is overwritten (its state when `load` raises half way is not
    modelled) -/
def load (_receiver : Extractor) (v : Val) : PyM Extractor := do
  let configuration ← v.item "configuration".toList
  let maxLeft ← (← configuration.item "max_left_length".toList).asInt
  let maxRight ← (← configuration.item "max_right_length".toList).asInt
  let minFrequency ← (← configuration.item "min_frequency".toList).asInt
  let verbose ← (← configuration.item "verbose_points".toList).asInt
  let minCohesionForward ← (← configuration.item "min_cohesion_forward".toList).asFloat
  let minCohesionBackward ← (← configuration.item "min_cohesion_backward".toList).asFloat
  let maxDroprate ← (← configuration.item "max_droprate_leftside_frequency".toList).asFloat
  let minLeftBE ← (← configuration.item "min_left_branching_entropy".toList).asFloat
  let minRightBE ← (← configuration.item "min_right_branching_entropy".toList).asFloat
  let minLeftAV ← (← configuration.item "min_left_accessor_variety".toList).asInt
  let minRightAV ← (← configuration.item "min_right_accessor_variety".toList).asInt
  let removeSubwords ← (← configuration.item "remove_subwords".toList).asBool
  let data ← v.item "data".toList
  let l ← (← data.item "L".toList).asCounts
  let r ← (← data.item "R".toList).asCounts
  let aL ← (← data.item "aL".toList).asCounts
  let aR ← (← data.item "aR".toList).asCounts
  .ok ⟨maxLeft, maxRight, minFrequency, verbose, minCohesionForward, minCohesionBackward, maxDroprate, minLeftBE, minRightBE,
    minLeftAV, minRightAV, removeSubwords, ⟨l, r, aL, aR⟩⟩

end WX
