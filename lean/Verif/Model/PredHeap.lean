import Verif.Model.PredTrain
/-!
Several `PredicatorExtractor` objects and the objects they share with their callers, with identity: the set of endings is the caller's own set
(soynlp/predicator/_predicator.py:56) and is changed in place by `train` (:286), but replaced by a new one by `extract` (:443); the `EojeolCounter` passed to `train` is kept and
its table is replaced by the filtered one (:219-229). Everything else an extractor holds is its own. Calls that raise are not modelled here.
-/
namespace PredHeap
open Py Pred

/-- one extractor: the set of endings and the counter by reference, the rest (in `st`, whose `eomis` and `counter` are not used) by value
    (soynlp/predicator/_predicator.py:51-67) -/
structure Obj where
  ref : Nat
  cref : Option Nat
  doEomi : Bool
  doStem : Bool
  st : State

/-- the sets of endings and the counters, by reference, and the extractors in order of construction (soynlp/predicator/_predicator.py:51-67) -/
structure World where
  sets : List (List Str) := []
  counters : List EC.State := []
  objs : List Obj := []

/-- an extractor as `Pred.State`, reading what is behind its references (soynlp/predicator/_predicator.py:51-67) -/
def view (w : World) (o : Obj) : State :=
  { o.st with eomis := w.sets.getD o.ref [], counter := o.cref.map (fun r => w.counters.getD r {}) }

/-- the arguments of the constructor (soynlp/predicator/_predicator.py:38-40); `eomis` is `none` or a set that exists -/
structure Args where
  nouns : List Str
  josas : Option (List Str) := none
  adjectives : Option (List Str) := none
  verbs : Option (List Str) := none
  eomis : Option Nat := none
  doEomi : Bool := false
  doStem : Bool := false
  verbose : Bool := true
  ensureNormalized : Bool := false

/-- `PredicatorExtractor(...)`, soynlp/predicator/_predicator.py:38-67: without `eomis` the set is a new one with the default endings -/
def new (dj da dv de : List Str) (w : World) (a : Args) : World :=
  let mk (w : World) (ref : Nat) : World :=
    let st := construct dj da dv de a.nouns a.josas a.adjectives a.verbs (some (w.sets.getD ref [])) a.verbose a.ensureNormalized
    { w with objs := w.objs ++ [{ ref := ref, cref := none, doEomi := a.doEomi, doStem := a.doStem, st := st }] }
  match a.eomis with
  | some ref => mk w ref
  | none => mk { w with sets := w.sets ++ [de] } w.sets.length

/-- what `train` takes: a counter is an object of the caller (soynlp/predicator/_predicator.py:163-171) -/
inductive Source where
  | sentences (sents : List Str)
  | counter (ref : Nat)
  | graph (g : LR.State)

/-- soynlp/predicator/_predicator.py:163-171 -/
def Source.read (w : World) : Source → Input
  | .sentences ss => .sentences ss
  | .counter r => .counter (w.counters.getD r {})
  | .graph g => .graph g

/-- a call of `train` or `extract`; `enumS`, `enumL` are the orders in which sets happen to be gone through (soynlp/predicator/_predicator.py:155,236) -/
inductive Op where
  | train (enumS : List Str → List Str) (enumL : List (Str × Str) → List (Str × Str)) (t : Thresholds) (x : Source) (minFrequency : Int)
  | extract (enumL : List (Str × Str) → List (Str × Str)) (given : List (Str × Int)) (minFrequency : Int)

/-- the endings are updated in place, the counter is the one passed or a new one: soynlp/predicator/_predicator.py:219-229,286 -/
def trained (w : World) (i : Nat) (o : Obj) (x : Source) (s : State) : World :=
  let c := s.counter.getD {}
  match x with
  | .counter r => { sets := w.sets.set o.ref s.eomis, counters := w.counters.set r c, objs := w.objs.set i { o with cref := some r, st := s } }
  | _ => { sets := w.sets.set o.ref s.eomis, counters := w.counters ++ [c], objs := w.objs.set i { o with cref := some w.counters.length, st := s } }

/-- the endings are a new set: soynlp/predicator/_predicator.py:443 -/
def extracted (w : World) (i : Nat) (o : Obj) (s : State) : World :=
  { w with sets := w.sets ++ [s.eomis], objs := w.objs.set i { o with ref := w.sets.length, st := s } }

/-- a call on the `i`-th extractor, if it does not raise (soynlp/predicator/_predicator.py:155-192,236-247) -/
def call (entLt : List Int → Rat → Bool) (w : World) (i : Nat) (op : Op) : PyM World :=
  match w.objs[i]? with
  | none => .error .indexError
  | some o => match op with
    | .train enumS enumL t x m => (Pred.train entLt enumS enumL t o.doEomi o.doStem (view w o) (x.read w) m).map (trained w i o x)
    | .extract enumL given m => (Pred.extract enumL (view w o) given m).map (fun r => extracted w i o r.1)

/-- a history of calls on several extractors, none of which raises (soynlp/predicator/_predicator.py:155-192,236-247) -/
def calls (entLt : List Int → Rat → Bool) : World → List (Nat × Op) → PyM World
  | w, [] => .ok w
  | w, c :: cs => match call entLt w c.1 c.2 with
    | .error e => .error e
    | .ok w => calls entLt w cs

/-- what `extract` of the `i`-th extractor would return (soynlp/predicator/_predicator.py:236-247) -/
def answer (w : World) (i : Nat) (enumL : List (Str × Str) → List (Str × Str)) (given : List (Str × Int)) (m : Int) : PyM (Dict Str Entry × Dict Str Entry) :=
  match w.objs[i]? with
  | none => .error .indexError
  | some o => (Pred.extract enumL (view w o) given m).map (·.2)

end PredHeap
