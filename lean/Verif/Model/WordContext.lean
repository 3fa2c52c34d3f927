import Verif.Py.Dict
import Verif.Py.Sort
import Mathlib.Algebra.Order.Field.Rat
/-!
Model of soynlp/vectorizer/_word_context.py. Weights are exact rationals. `word2contexts` (a dict of dicts) is represented as a dict
keyed by (word, context) pairs; only the order of the triples handed to the sparse matrix may differ, which the matrix ignores.
Printing is modelled only where it raises.
-/
namespace WC
open Py

/-- soynlp/vectorizer/_word_context.py:5-6 -/
structure Params where
  windows : Int := 3
  minTf : Int := 10
  tokenizer : Str → List Str := splitWs
  dynamicWeight : Bool := false
  verbose : Bool := true

/-- soynlp/vectorizer/_word_context.py:31-40 -/
def wordCounter (p : Params) (sents : List Str) : Dict Str Nat :=
  sents.foldl (fun d sent => (p.tokenizer sent).foldl (fun d w => Dict.add d w 1) d) []

/-- soynlp/vectorizer/_word_context.py:46, the set of kept words as a list -/
def kept (p : Params) (sents : List Str) : List Str :=
  ((wordCounter p sents).filter (fun e => decide ((e.2 : Int) ≥ p.minTf))).map (·.1)

/-- soynlp/vectorizer/_word_context.py:47-49; `order` is the order in which Python enumerates the set of kept words -/
def vocab2idx (p : Params) (sents : List Str) (order : List Str) : Dict Str Nat :=
  Dict.ofList (sorted (fun a b => decide (Dict.getD (wordCounter p sents) b 0 ≤ Dict.getD (wordCounter p sents) a 0)) order).zipIdx
/-- soynlp/vectorizer/_word_context.py:49 -/
def idx2vocab (v2i : Dict Str Nat) : List Str := (sorted (fun a b => decide (a.2 ≤ b.2)) v2i).map (·.1)

/-- soynlp/vectorizer/_word_context.py:65-68: `weight[w]` for `w < windows` -/
def weight (p : Params) (w : Nat) : Rat := if p.dynamicWeight then ((p.windows : Rat) - w) / p.windows else 1

/-- soynlp/vectorizer/_word_context.py:85-97: the increments made for position `i` holding the known word `word` -/
def increments (p : Params) (known : Str → Bool) (words : List Str) (i : Nat) (word : Str) : List ((Str × Str) × Rat) :=
  (List.range p.windows.toNat).filterMap (fun w =>
    if i < w + 1 then none
    else match words[i - (w + 1)]? with
      | some c => if known c then some ((word, c), weight p w) else none
      | none => none) ++
  (List.range p.windows.toNat).filterMap (fun w =>
    match words[i + w + 1]? with
    | some c => if known c then some ((word, c), weight p w) else none
    | none => none)

/-- soynlp/vectorizer/_word_context.py:81-97, all increments of one sentence -/
def sentIncrements (p : Params) (known : Str → Bool) (words : List Str) : List ((Str × Str) × Rat) :=
  words.zipIdx.flatMap (fun wi => if known wi.1 then increments p known words wi.2 wi.1 else [])

/-- `word2contexts[a][b] += x` (soynlp/vectorizer/_word_context.py:90,97) -/
def bump (d : Dict (Str × Str) Rat) (e : (Str × Str) × Rat) : Dict (Str × Str) Rat := Dict.set d e.1 (Dict.getD d e.1 0 + e.2)

/-- soynlp/vectorizer/_word_context.py:60-102 (an empty sentence makes no increment) -/
def wordContext (p : Params) (v2i : Dict Str Nat) (sents : List Str) : Dict (Str × Str) Rat :=
  (sents.flatMap (fun sent => sentIncrements p (fun w => Dict.has v2i w) (p.tokenizer sent))).foldl bump []

/-- one item of soynlp/vectorizer/_word_context.py:109-115 -/
def encodeEntry (v2i : Dict Str Nat) (e : (Str × Str) × Rat) : PyM (Nat × Nat × Rat) :=
  match Dict.get? v2i e.1.1, Dict.get? v2i e.1.2 with
  | some i, some j => .ok (i, j, e.2)
  | _, _ => .error .keyError

/-- soynlp/vectorizer/_word_context.py:104-122: the triples; scipy cannot infer the shape of a matrix without entries (ValueError) -/
def encodeAsMatrix (v2i : Dict Str Nat) (w2c : Dict (Str × Str) Rat) : PyM (List (Nat × Nat × Rat)) :=
  match w2c.mapM (encodeEntry v2i) with
  | .error x => .error x
  | .ok [] => .error .valueError
  | .ok l => .ok l

/-- soynlp/vectorizer/_word_context.py:5-26; with `verbose` and no sentence the status message reads an unset variable -/
def matrix (p : Params) (sents : List Str) (order : List Str) : PyM (List (Nat × Nat × Rat) × List Str) :=
  if p.verbose ∧ sents = [] then .error .unboundLocal
  else
    match encodeAsMatrix (vocab2idx p sents order) (wordContext p (vocab2idx p sents order) sents) with
    | .error x => .error x
    | .ok x => .ok (x, idx2vocab (vocab2idx p sents order))

end WC
