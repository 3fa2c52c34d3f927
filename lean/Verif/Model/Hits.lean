import Verif.Py.Dict
import Verif.Py.Nested
import Mathlib.Data.List.Dedup
import Mathlib.Algebra.Order.Field.Rat
/-!
Model of `EojeolPatternTrainer.train_hits` (soynlp/tokenizer/_tokenizer_builder.py:161-205). The function is declared in the class without a
`self` parameter, but its body uses `self`. Numbers are exact. Graphs are dicts of dicts.
-/
namespace Hits
open Py Nested

/-- soynlp/tokenizer/_tokenizer_builder.py:161: how it can be called: on a trainer (whatever else is passed, the trainer itself is then the first argument, `lrgraph`), or on the class with two graphs -/
inductive Call where
  | onObject
  | onClass (lrgraph rlgraph : Option (Nested Str))

/-- soynlp/tokenizer/_tokenizer_builder.py:180,187: `sum({freq * rank[x] for x, freq in d.items() ...})`, the sum of a *set*: equal products count once -/
def setSum (rank : Dict Str Rat) (d : Dict Str Int) : PyM Rat :=
  (d.mapM (fun (e : Str × Int) => match Dict.get? rank e.1 with
    | some x => Except.ok ((e.2 : Rat) * x)
    | none => Except.error PyErr.keyError)).map (fun (l : List Rat) => l.dedup.sum)

/-- soynlp/tokenizer/_tokenizer_builder.py:178-181: the next ranks of left parts, before normalisation -/
def nextL (rankR : Dict Str Rat) (lr : Nested Str) : PyM (Dict Str Rat) :=
  lr.mapM (fun (e : Str × Dict Str Int) => (setSum rankR (e.2.filter (fun x => decide (x.1 ≠ [])))).map (fun x => (e.1, x)))

/-- soynlp/tokenizer/_tokenizer_builder.py:184-188: the next ranks of right parts -/
def nextR (rankL : Dict Str Rat) (rl : Nested Str) : PyM (Dict Str Rat) :=
  (rl.filter (fun e => decide (e.1 ≠ []))).mapM (fun (e : Str × Dict Str Int) => (setSum rankL e.2).map (fun x => (e.1, x)))

/-- soynlp/tokenizer/_tokenizer_builder.py:162-166 -/
def normalize (g : Dict Str Rat) (sumOfRank df : Rat) : PyM (Dict Str Rat) :=
  if (Dict.values g).sum = 0 then .error .zeroDivision
  else if g.length = 0 then .error .zeroDivision
  else .ok ((g.filter (fun e => decide (e.1 ≠ []))).map (fun e =>
    (e.1, df * sumOfRank / (Dict.values g).sum * e.2 + (1 - df) * sumOfRank / g.length)))

/-- soynlp/tokenizer/_tokenizer_builder.py:177-189: one round of the loop, up to the first use of `self` -/
def round (lr rl : Nested Str) (rankL rankR : Dict Str Rat) (sumOfRank df : Rat) : PyM (Dict Str Rat × Dict Str Rat) :=
  match nextL rankR lr with
  | .error e => .error e
  | .ok l => match normalize l sumOfRank df with
    | .error e => .error e
    | .ok l' => match nextR rankL rl with
      | .error e => .error e
      | .ok r => match normalize r sumOfRank df with
        | .error e => .error e
        | .ok r' => .ok (l', r')

/-- soynlp/tokenizer/_tokenizer_builder.py:161,168-205: `self` is not defined in the function, so its first evaluation (:191, or :202 when the loop runs zero
    times, or :169 when no graph is given) raises `NameError`: everything behind it is never reached. A trainer has no `len` (:171) -/
def trainHits (c : Call) (sumOfRank : Rat := 10000) (df : Rat := 9/10) (maxIter : Int := 10) : PyM (Dict Str Rat × Dict Str Rat) :=
  match c with
  | .onObject => .error .typeError
  | .onClass none _ => .error .nameError
  | .onClass (some lr) rl =>
    if lr.length = 0 then .error .zeroDivision
    else match rl with
      | none => .error .typeError
      | some rl =>
        if rl.length = 0 then .error .zeroDivision
        else
          let rankL := lr.map (fun (e : Str × Dict Str Int) => (e.1, sumOfRank / lr.length))
          let rankR := (rl.filter (fun (e : Str × Dict Str Int) => decide (e.1 ≠ []))).map (fun e => (e.1, sumOfRank / rl.length))
          if maxIter ≤ 0 then .error .nameError
          else match round lr rl rankL rankR sumOfRank df with
            | .error e => .error e
            | .ok _ => .error .nameError

end Hits
