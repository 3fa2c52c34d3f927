import Verif.Model.Postagger
/-!
Model of several `Dictionary` objects of soynlp/postagger/_dictionary.py in one program: `Dictionary(pos_dict)` keeps the caller's dict object and
replaces its values, so that two objects built from the same dict share it. The caller may change its own dicts and containers at any time.
-/
namespace PT
open Py

/-- the dict objects (tag to container), the containers, and the `Dictionary` objects: the dict an object uses and its `max_length`
    (soynlp/postagger/_dictionary.py:11-19) -/
structure World where
  dicts : List (Dict Str Nat) := []
  heap : List Obj := []
  objs : List (Nat × Nat) := []

/-- the `Dictionary` object number `k`, soynlp/postagger/_dictionary.py:11-19 -/
def World.view (w : World) (k : Nat) : Option State :=
  match w.objs[k]? with
  | none => none
  | some (d, m) => match w.dicts[d]? with
    | none => none
    | some pos => some ⟨pos, w.heap, m⟩

/-- the words of the container `r`, soynlp/postagger/_dictionary.py:14-18 -/
def World.content (w : World) (r : Nat) : List Str :=
  match w.heap[r]? with
  | some o => o.words
  | none => []

/-- soynlp/postagger/_dictionary.py:11-19,26-27 for the dict object `d`: its values are replaced by new sets (also when `max` then raises) -/
def World.construct (w : World) (d : Nat) : World × PyM Unit :=
  match w.dicts[d]? with
  | none => (w, .error .nameError)
  | some pos =>
    let values := pos.map (fun e => w.content e.2)
    let w' : World := ⟨w.dicts.set d (pos.zipIdx.map (fun e => (e.1.1, w.heap.length + e.2))), w.heap ++ values.map Obj.set, w.objs⟩
    match maxLen values.flatten with
    | none => (w', .error .valueError)
    | some m => (⟨w'.dicts, w'.heap, w'.objs ++ [(d, m)]⟩, .ok ())

/-- what a call on object `k` leaves behind, soynlp/postagger/_dictionary.py:39-67 -/
def World.put (w : World) (k d : Nat) (s : State) : World := ⟨w.dicts.set d s.pos, s.heap, w.objs.set k (d, s.maxLength)⟩

/-- a step of a program: the caller makes a container or a dict, changes one of its containers or dicts, or builds or uses a `Dictionary`
    (soynlp/postagger/_dictionary.py:11-86) -/
inductive Step where
  | container (o : Obj)
  | dict (pos : Dict Str Nat)
  | change (r : Nat) (o : Obj)
  | item (d : Nat) (tag : Str) (r : Nat)
  | construct (d : Nat)
  | add (k : Nat) (tag : Str) (words : Arg) (force : Bool)
  | remove (k : Nat) (tag : Str) (words : Option Arg)
  | load (k : Nat) (f : File)

/-- a call that changes the object `k`, soynlp/postagger/_dictionary.py:39-67 -/
def World.call (w : World) (k : Nat) (f : State → State × PyM Unit) : World × PyM Unit :=
  match w.objs[k]?, w.view k with
  | some (d, _), some s => (w.put k d (f s).1, (f s).2)
  | _, _ => (w, .error .nameError)

/-- one step, soynlp/postagger/_dictionary.py:11-86; `load` (lines 74-86) gives the object a new dict with new sets -/
def World.step (w : World) : Step → World × PyM Unit
  | .container o => (⟨w.dicts, w.heap ++ [o], w.objs⟩, .ok ())
  | .dict pos => (⟨w.dicts ++ [pos], w.heap, w.objs⟩, .ok ())
  | .change r o => (⟨w.dicts, w.heap.set r o, w.objs⟩, .ok ())
  | .item d tag r => (⟨w.dicts.modify d (fun pos => Dict.set pos tag r), w.heap, w.objs⟩, .ok ())
  | .construct d => w.construct d
  | .add k tag words force => w.call k (fun s => addWords s tag words force)
  | .remove k tag words => w.call k (fun s => removeWords s tag words)
  | .load k f =>
    (⟨w.dicts ++ [f.posDict.zipIdx.map (fun e => (e.1.1, w.heap.length + e.2))], w.heap ++ f.posDict.map (fun e => Obj.set e.2),
      w.objs.set k (w.dicts.length, f.maxLength)⟩, .ok ())

/-- a program: exceptions are caught by the caller (soynlp/postagger/_dictionary.py:11-86) -/
def World.run (w : World) (steps : List Step) : World := steps.foldl (fun w x => (w.step x).1) w

end PT
