import Verif.Py.Dict
import Verif.Py.Sort
/-!
Model of `MaxScoreTokenizer` in soynlp/tokenizer/_tokenizer.py. Scores are rationals (floats are exact numbers here);
`max_length` is a natural number.
-/
namespace MaxScore
open Py

/-- the tuple `(word, b, e, score, r)` (soynlp/tokenizer/_tokenizer.py:174) -/
structure Tok where
  word : Str
  b : Nat
  e : Nat
  score : Rat
  len : Nat
  deriving DecidableEq, Repr

/-- the order of the key `(-x[3], -x[4], x[1])`, soynlp/tokenizer/_tokenizer.py:176 -/
def rankLe (x y : Tok) : Bool :=
  decide (y.score < x.score ∨ (y.score = x.score ∧ (y.len < x.len ∨ (y.len = x.len ∧ x.b ≤ y.b))))

/-- the order of the key `x[1]` (soynlp/tokenizer/_tokenizer.py:161,200) -/
def beginLe (x y : Tok) : Bool := decide (x.b ≤ y.b)

/-- soynlp/tokenizer/_tokenizer.py:164-174, the candidates before sorting -/
def candidates (scores : Dict Str Rat) (ds : Rat) (token : Str) (rangeL length : Nat) : List Tok :=
  (List.range (length - 1)).flatMap fun b =>
    (List.range' 2 (rangeL - 1)).filterMap fun r =>
      let e := b + r
      if e > length then none
      else
        let subtoken := slice token b e
        some ⟨subtoken, b, e, Dict.getD scores subtoken ds, r⟩

/-- soynlp/tokenizer/_tokenizer.py:163-176 -/
def initCands (scores : Dict Str Rat) (ds : Rat) (token : Str) (rangeL length : Nat) : List Tok :=
  sorted rankLe (candidates scores ds token rangeL length)

/-- soynlp/tokenizer/_tokenizer.py:191 (both disjuncts are the same condition) -/
def overlaps (c d : Tok) : Bool := (d.b < c.e && c.b < d.e) || (d.b < c.e && d.e > c.b)

/-- soynlp/tokenizer/_tokenizer.py:182-198, the loop. `fuel` counts the iterations left before
    `if num_iter > 100: break` fires (initially 101). -/
def findGo : Nat → List Tok → List Tok
  | 0, _ => []
  | _, [] => []
  | fuel + 1, c :: cs => c :: findGo fuel (cs.filter (fun d => !overlaps c d))

/-- soynlp/tokenizer/_tokenizer.py:178-200 -/
def find (cands : List Tok) : List Tok := sorted beginLe (findGo 101 cands)

/-- soynlp/tokenizer/_tokenizer.py:202-213 -/
def addInter (ds : Rat) (token : Str) (result : List Tok) : List Tok :=
  (result.zip result.tail).filterMap fun (base, next) =>
    if base.e = next.b then none
    else some ⟨slice token base.e next.b, base.e, next.b, ds, next.b - base.e⟩

/-- soynlp/tokenizer/_tokenizer.py:215-219 -/
def addFirst (scores : Dict Str Rat) (ds : Rat) (token : Str) (first : Tok) : List Tok :=
  let e := first.b
  let subtoken := slice token 0 e
  [⟨subtoken, 0, e, Dict.getD scores subtoken ds, e⟩]

/-- soynlp/tokenizer/_tokenizer.py:221-225 -/
def addLast (scores : Dict Str Rat) (ds : Rat) (token : Str) (last : Tok) : List Tok :=
  let b := last.e
  let subtoken := token.drop b
  [⟨subtoken, b, token.length, Dict.getD scores subtoken ds, subtoken.length⟩]

/-- soynlp/tokenizer/_tokenizer.py:138-161 with the default `range_l=0` -/
def recursiveTokenize (scores : Dict Str Rat) (maxLength : Nat) (ds : Rat) (token : Str) : PyM (List Tok) :=
  let length := token.length
  if length ≤ 2 then .ok [⟨token, 0, length, ds, length⟩]
  else
    let rangeL := min maxLength length
    let result := find (initCands scores ds token rangeL length)
    let adds := addInter ds token result
    match result.head?, result.getLast? with
    | some first, some last =>
      let adds := if last.e ≠ length then adds ++ addLast scores ds token last else adds
      let adds := if first.b ≠ 0 then adds ++ addFirst scores ds token first else adds
      .ok (sorted beginLe (result ++ adds))
    | _, _ => .error .indexError

/-- soynlp/tokenizer/_tokenizer.py:133 (flatten=False) -/
def tokenizeSpans (scores : Dict Str Rat) (maxLength : Nat) (ds : Rat) (sentence : Str) : PyM (List (List Tok)) :=
  (splitWs sentence).mapM (recursiveTokenize scores maxLength ds)

/-- soynlp/tokenizer/_tokenizer.py:132-136 (flatten=True) -/
def tokenize (scores : Dict Str Rat) (maxLength : Nat) (ds : Rat) (sentence : Str) : PyM (List Str) := do
  let tokens ← tokenizeSpans scores maxLength ds sentence
  .ok (tokens.flatMap (fun t => t.map (·.word)))

end MaxScore
