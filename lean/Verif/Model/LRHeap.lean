import Verif.Model.LRGraph
/-!
Several `LRGraph` objects and the dicts they hold, with identity. `_check_lrgraph` returns the very dict it was given when
that is a plain dict of plain dicts, so `_lr` of a new graph *is* the caller's dict; `_rl`, `_lr_origin` and the dicts
made by `reset_lrgraph` are always fresh. A reference to a dict stands for it together with its inner dicts, which are
never shared separately: every place that builds an outer dict anew also builds the inner ones anew.
-/
namespace LRHeap
open Py Nested LR

/-- one `LRGraph`: the dict behind `_lr` by reference, the rest by value (soynlp/utils/utils.py:325-339) -/
structure Obj where
  ref : Nat
  rl : Nested Str
  origin : Option (Nested Str)
  lMax : Int
  rMax : Int

/-- the dicts, by reference, and the graphs, in order of construction (soynlp/utils/utils.py:320-339) -/
structure World where
  dicts : List (Nested Str) := []
  objs : List Obj := []

/-- the dict behind a reference (soynlp/utils/utils.py:334) -/
def deref (w : World) (ref : Nat) : Nested Str := w.dicts.getD ref []

/-- a graph as `LR.State`, reading the dict behind `_lr` (soynlp/utils/utils.py:325-339) -/
def view (w : World) (o : Obj) : State :=
  { lr := deref w o.ref, rl := o.rl, origin := o.origin, lMax := o.lMax, rMax := o.rMax }

/-- how the caller holds a graph: a plain dict of plain dicts that already exists, a defaultdict of defaultdicts (copied
    on the way in), or sentences (soynlp/utils/utils.py:328-334,355-366) -/
inductive Source where
  | dict (ref : Nat)
  | defaultdict (g : Nested Str)
  | sents (ss : List Str)

/-- `LRGraph(...)`, soynlp/utils/utils.py:320-339; an empty dict is falsy and replaced by a fresh one (335-336) -/
def new (w : World) (src : Source) (lMax : Int := 10) (rMax : Int := 9) : World × PyM Unit :=
  let mk (w : World) (ref : Nat) (s : State) : World × PyM Unit :=
    ({ w with objs := w.objs ++ [{ ref := ref, rl := s.rl, origin := s.origin, lMax := s.lMax, rMax := s.rMax }] }, .ok ())
  let fresh (s : PyM State) : World × PyM Unit := match s with
    | .error e => (w, .error e)
    | .ok s => mk { w with dicts := w.dicts ++ [s.lr] } w.dicts.length s
  match src with
  | .dict ref =>
    if deref w ref = [] then fresh (construct [] [] lMax rMax)
    else match construct (deref w ref) [] lMax rMax with
      | .error e => (w, .error e)
      | .ok s => mk w ref s
  | .defaultdict g => fresh (construct g [] lMax rMax)
  | .sents ss => fresh (construct [] ss lMax rMax)

/-- the operations that rebind `_lr` to a new dict rather than change the one it holds: `reset_lrgraph` with something
    to reset to (soynlp/utils/utils.py:376-383) -/
def rebinds (s : State) : Op → Bool
  | .reset => match s.origin with
    | none => false
    | some g => decide (g ≠ [])
  | _ => false

/-- a call on the `i`-th graph (soynlp/utils/utils.py:376-433): what the method does to its dicts, written back to the
    dict behind `_lr` or to a fresh one -/
def call (w : World) (i : Nat) (op : Op) : World × PyM Unit :=
  match w.objs[i]? with
  | none => (w, .error .indexError)
  | some o =>
    let s := view w o
    let t := (step s op).1
    let ref := if rebinds s op then w.dicts.length else o.ref
    let dicts := if rebinds s op then w.dicts ++ [t.lr] else w.dicts.set o.ref t.lr
    ({ dicts := dicts, objs := w.objs.set i { ref := ref, rl := t.rl, origin := t.origin, lMax := t.lMax, rMax := t.rMax } },
     (step s op).2)

/-- a history of calls on several graphs (soynlp/utils/utils.py:376-433) -/
def calls (w : World) (cs : List (Nat × Op)) : World := cs.foldl (fun w c => (call w c.1 c.2).1) w

/-- `get_r` and `get_l` of the `i`-th graph (soynlp/utils/utils.py:418-428); no such graph: nothing -/
def getR (w : World) (i : Nat) (l : Str) (topk : Int := 10) : List (Str × Int) :=
  match w.objs[i]? with
  | none => []
  | some o => LR.getR (view w o) l topk

/-- soynlp/utils/utils.py:424-428 -/
def getL (w : World) (i : Nat) (r : Str) (topk : Int := 10) : List (Str × Int) :=
  match w.objs[i]? with
  | none => []
  | some o => LR.getL (view w o) r topk

end LRHeap
