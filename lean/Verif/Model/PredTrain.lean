import Verif.Model.Predicator
import Verif.Model.Eomi
import Verif.Model.Stem
/-!
Model of the training of soynlp/predicator/_predicator.py `PredicatorExtractor` with `extract_eomi` and `extract_stem`. The set of endings is the
caller's object and is updated in place; in the model it is the field `eomis`. An `eomis` argument that is no set is not modelled.
-/
namespace Pred
open Py Nested

/-- soynlp/predicator/_predicator.py:251-256 -/
def containsNoun (nouns : List Str) (eojeol : Str) : Bool := (List.range' 2 (eojeol.length - 1)).any (fun e => nouns.contains (eojeol.take e))

/-- soynlp/predicator/_predicator.py:258-260 -/
def predEojeols (nouns : List Str) (c : Dict Str Int) : Dict Str Int := c.filter (fun kv => decide (kv.1.length > 1) && !containsNoun nouns kv.1)

/-- soynlp/predicator/_predicator.py:249-262 -/
def prepareLrgraph (s : State) : PyM LR.State :=
  match s.counter with
  | none => .error .attributeError
  | some c => LR.toLrgraph { counter := predEojeols s.nouns c.counter, countSum := 0, coverage := 0 }

/-- the thresholds, soynlp/predicator/_predicator.py:156-161 -/
structure Thresholds where
  numFeatures : Int := 5
  eomiScore : Rat := 3/10
  eomiFrequency : Int := 1
  uniqueChars : Int := 10
  entropy : Rat := 1/2
  stemScore : Rat := 7/10
  stemFrequency : Int := 100

/-- soynlp/predicator/_predicator.py:264-291: the extractor and the graph it leaves -/
def extractEomi (enumS : List Str → List Str) (enumL : List (Str × Str) → List (Str × Str)) (t : Thresholds) (s : State) (g : LR.State) : PyM (State × LR.State) :=
  match Eomi.extract enumS enumL { lrgraph := g, stems := enumS s.stems, nouns := s.nouns, minNumOfFeatures := t.numFeatures } [] t.eomiScore t.eomiFrequency true with
  | .error e => .error e
  | .ok (x, out) => .ok ({ s with eomis := s.eomis ++ (Dict.keys out).filter (fun y => !s.eomis.contains y) }, x.lrgraph)

/-- soynlp/predicator/_predicator.py:293-319 -/
def extractStem (entLt : List Int → Rat → Bool) (enumS : List Str → List Str) (enumL : List (Str × Str) → List (Str × Str)) (t : Thresholds) (s : State) (g : LR.State) : State :=
  let out := (Stem.extract entLt enumS enumL (Stem.construct g s.stems s.eomis t.uniqueChars t.entropy) [] t.stemScore t.stemFrequency).2
  { s with stems := s.stems ++ (Dict.keys out).filter (fun y => !s.stems.contains y) }

/-- soynlp/predicator/_predicator.py:179-181 -/
def eomiStep (enumS : List Str → List Str) (enumL : List (Str × Str) → List (Str × Str)) (t : Thresholds) (doEomi : Bool) (s : State) (g : LR.State) : PyM (State × LR.State) :=
  if doEomi then extractEomi enumS enumL t s g else .ok (s, g)

/-- soynlp/predicator/_predicator.py:174-188: what `train` does after the counting -/
def learn (entLt : List Int → Rat → Bool) (enumS : List Str → List Str) (enumL : List (Str × Str) → List (Str × Str)) (t : Thresholds) (doEomi doStem : Bool) (s : State) : PyM State :=
  if !(doEomi || doStem) then .ok s
  else match prepareLrgraph s with
    | .error e => .error e
    | .ok g => match eomiStep enumS enumL t doEomi s g with
      | .error e => .error e
      | .ok (s1, g1) => .ok (if doStem then extractStem entLt enumS enumL t s1 (if doEomi then (LR.reset g1).1 else g1) else s1)

/-- what `train` takes (soynlp/predicator/_predicator.py:163-171) -/
inductive Input where
  | sentences (sents : List Str)
  | counter (c : EC.State)
  | graph (g : LR.State)

/-- soynlp/predicator/_predicator.py:163-171 (`filtering_checkpoint` is not used by the code) -/
def count (s : State) (x : Input) (minFrequency : Int := 2) : PyM State :=
  match x with
  | .graph g => trainWithLrgraph s g minFrequency
  | .counter c => .ok (trainWithEojeolCounter s c minFrequency).1
  | .sentences sents => trainWithSentences s sents minFrequency

/-- soynlp/predicator/_predicator.py:155-192 -/
def train (entLt : List Int → Rat → Bool) (enumS : List Str → List Str) (enumL : List (Str × Str) → List (Str × Str)) (t : Thresholds) (doEomi doStem : Bool)
    (s : State) (x : Input) (minFrequency : Int := 2) : PyM State :=
  match count s x minFrequency with
  | .error e => .error e
  | .ok s => learn entLt enumS enumL t doEomi doStem s

/-- soynlp/predicator/_predicator.py:138-153; no candidates (`None`) is the empty list. `reset_lrgraph` is not used by the code. -/
def trainExtract (entLt : List Int → Rat → Bool) (enumS : List Str → List Str) (enumL : List (Str × Str) → List (Str × Str)) (t : Thresholds) (doEomi doStem : Bool)
    (s : State) (x : Input) (minFrequency : Int := 2) (candidates : List (Str × Int) := []) (minPredicatorFrequency : Int := 1) :
    PyM (State × Dict Str Entry × Dict Str Entry) :=
  match train entLt enumS enumL t doEomi doStem s x minFrequency with
  | .error e => .error e
  | .ok s => extract enumL s candidates minPredicatorFrequency

end Pred
