import Verif.Py.Dict
import Verif.Py.Sort
/-!
Model of `LTokenizer` in soynlp/tokenizer/_tokenizer.py. Scores are rationals (floats are exact numbers here).
-/
namespace LTok
open Py

/-- a candidate `(score, l, r)` (soynlp/tokenizer/_tokenizer.py:102) -/
abbrev Cand := Rat × Str × Str

/-- `max([...])` of a list of numbers; `ValueError` when empty (soynlp/tokenizer/_tokenizer.py:104) -/
def pyMax : List Rat → PyM Rat
  | [] => .error .valueError
  | x :: xs => .ok (xs.foldl (fun m y => if m < y then y else m) x)

/-- soynlp/tokenizer/_tokenizer.py:98-109 -/
def tokenToLr (scores : Dict Str Rat) (ds : Rat) (tolerance : Rat) (token : Str) : PyM (Str × Str) :=
  let length := token.length
  if length ≤ 2 then .ok (token, [])
  else
    let candidates := (List.range' 2 (length - 1)).map (fun e => (token.take e, token.drop e))
    let candidates : List Cand := candidates.map (fun t => (Dict.getD scores t.1 ds, t.1, t.2))
    do
      let best ←
        if tolerance > 0 then do
          let maxScore ← pyMax (candidates.map (·.1))
          let candidates := candidates.filter (fun c => maxScore - c.1 ≤ tolerance)
          getItem (sorted (fun x y => decide (y.2.1.length ≤ x.2.1.length)) candidates) 0
        else
          getItem (sorted (fun x y => decide (y.1 < x.1 ∨ (y.1 = x.1 ∧ y.2.1.length ≤ x.2.1.length))) candidates) 0
      .ok (best.2.1, best.2.2)

/-- soynlp/tokenizer/_tokenizer.py:111, the list of pairs (flatten=False, remove_r=False) -/
def tokenizePairs (scores : Dict Str Rat) (ds tolerance : Rat) (sentence : Str) : PyM (List (Str × Str)) :=
  (splitWs sentence).mapM (tokenToLr scores ds tolerance)

/-- soynlp/tokenizer/_tokenizer.py:96-119 with flatten=True, remove_r=False -/
def tokenize (scores : Dict Str Rat) (ds tolerance : Rat) (sentence : Str) : PyM (List Str) := do
  let tokens ← tokenizePairs scores ds tolerance sentence
  .ok ((tokens.flatMap (fun t => [t.1, t.2])).filter (fun s => s ≠ []))

/-- soynlp/tokenizer/_tokenizer.py:113-114 with remove_r=True -/
def tokenizeL (scores : Dict Str Rat) (ds tolerance : Rat) (sentence : Str) : PyM (List Str) := do
  let tokens ← tokenizePairs scores ds tolerance sentence
  .ok (tokens.map (·.1))

end LTok
