import Verif.Model.Postagger
/-!
Model of `SimpleTagger.tag` with `debug=True`, soynlp/postagger/_tagger.py:16-52.
-/
namespace PT
open Py

/-- the order of the candidates in the debugging output, soynlp/postagger/_tagger.py:42: by `(begin, score)` -/
def debugLe {α : Type} (begin : α → Nat) (x y : α × Rat) : Bool :=
  decide (begin x.1 < begin y.1) || (decide (begin x.1 = begin y.1) && decide (x.2 ≤ y.2))

/-- soynlp/postagger/_tagger.py:40-43; `begin` is the attribute `b` of a candidate, `none` if candidates have no such attribute (a candidate of
    `EojeolTemplateMatcher` is a list) -/
def debugRow {α : Type} (begin : Option (α → Nat)) (evaluate : α → Rat) (candidates : List α) : PyM (List (α × Rat)) :=
  match begin, candidates with
  | _, [] => .ok []
  | none, _ :: _ => .error .attributeError
  | some b, _ :: _ => .ok (sorted (debugLe b) (candidates.map (fun c => (c, evaluate c))))

/-- soynlp/postagger/_tagger.py:21-43: the eojeols in order, `generate` the generator, `select` the evaluator's `select_best` -/
def tagDebugGo {α : Type} (generate : Str → List α) (select : List α → Option (List LR)) (post : Option (Str → List LR → List LR))
    (begin : Option (α → Nat)) (evaluate : α → Rat) : List Str → PyM (List (List (Str × Option Str)) × List (List (α × Rat)))
  | [] => .ok ([], [])
  | e :: es =>
    match tagEojeol (fun e => select (generate e)) post e with
    | .error x => .error x
    | .ok tags =>
      match debugRow begin evaluate (generate e) with
      | .error x => .error x
      | .ok row =>
        match tagDebugGo generate select post begin evaluate es with
        | .error x => .error x
        | .ok (ts, rows) => .ok (tags :: ts, row :: rows)

/-- soynlp/postagger/_tagger.py:16-52 with `debug=True`; the tags before they are flattened -/
def tagDebug {α : Type} (generate : Str → List α) (select : List α → Option (List LR)) (post : Option (Str → List LR → List LR))
    (begin : Option (α → Nat)) (evaluate : α → Rat) (sentence : Str) : PyM (List (List (Str × Option Str)) × List (List (α × Rat))) :=
  tagDebugGo generate select post begin evaluate (splitWs sentence)

end PT
