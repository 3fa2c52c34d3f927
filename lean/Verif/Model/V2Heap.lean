import Verif.Model.NounV2
/-!
Several `LRNounExtractor_v2` objects working on one `LRGraph` of their caller: `train` keeps the graph it is given
(soynlp/noun/_noun_ver2.py:148-154,189-199), `extract` takes eojeols out of it and puts them back with `reset_lrgraph` (the default). Calls that raise are not modelled here.
-/
namespace V2Heap
open Py

/-- the graph, and the extractors in order of construction; the `lrgraph` of an extractor is `none`, or the shared graph (its value in the state is not used)
    (soynlp/noun/_noun_ver2.py:189-199) -/
structure World where
  graph : LR.State
  objs : List (V2.Params × V2.State) := []

/-- an extractor with the shared graph as it is now (soynlp/noun/_noun_ver2.py:189-199) -/
def view (w : World) (o : V2.Params × V2.State) : V2.State := { o.2 with lrgraph := o.2.lrgraph.map (fun _ => w.graph) }

/-- `train(graph)`, or `extract` (soynlp/noun/_noun_ver2.py:148,204) -/
inductive Op where
  | train
  | extract (enum : Nat → List Str → List Str) (minScore minFrequency : Rat) (reset : Bool)

/-- a call on the `i`-th extractor, if it does not raise (soynlp/noun/_noun_ver2.py:148-154,204-305) -/
def call (entLt : List Int → Rat → Bool) (w : World) (i : Nat) (op : Op) : PyM World :=
  match w.objs[i]? with
  | none => .error .indexError
  | some o => match op with
    | .train => (V2.train o.1 (view w o) (.graph w.graph)).map (fun s => { w with objs := w.objs.set i (o.1, s) })
    | .extract enum m f r => (V2.extract o.1 entLt enum (view w o) m f r).map (fun x =>
        { graph := x.1.lrgraph.getD w.graph, objs := w.objs.set i (o.1, x.1) })

/-- a history of calls, none of which raises (soynlp/noun/_noun_ver2.py:148-154,204-305) -/
def calls (entLt : List Int → Rat → Bool) : World → List (Nat × Op) → PyM World
  | w, [] => .ok w
  | w, c :: cs => match call entLt w c.1 c.2 with
    | .error e => .error e
    | .ok w => calls entLt w cs

/-- what `extract` of the `i`-th extractor would return (soynlp/noun/_noun_ver2.py:204-305) -/
def answer (entLt : List Int → Rat → Bool) (w : World) (i : Nat) (enum : Nat → List Str → List Str) (m f : Rat) (r : Bool) : PyM (Dict Str (Rat × Rat)) :=
  match w.objs[i]? with
  | none => .error .indexError
  | some o => (V2.extract o.1 entLt enum (view w o) m f r).map (·.2)

end V2Heap
