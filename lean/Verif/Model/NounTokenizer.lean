import Verif.Model.MaxScore
/-!
Model of soynlp/tokenizer/_noun_tokenizer.py. The noun collection of `NounLMatchTokenizer` is used only through `in`,
so it is a predicate.
-/
namespace NounTok
open Py

/-- a candidate `(word, begin, length)` (soynlp/tokenizer/_noun_tokenizer.py:45) -/
abbrev Cand := Str × Nat × Nat

/-- soynlp/tokenizer/_noun_tokenizer.py:40-45 -/
def lcands (isNoun : Str → Bool) (token : Str) : List Cand :=
  (List.range token.length).flatMap fun b =>
    (List.range' b (token.length + 1 - b)).filterMap fun e =>
      let subword := slice token b e
      if isNoun subword then some (subword, b, e - b) else none

/-- the order of the key `(x[1], -x[2])`, soynlp/tokenizer/_noun_tokenizer.py:48 -/
def candLe (x y : Cand) : Bool := decide (x.2.1 < y.2.1 ∨ (x.2.1 = y.2.1 ∧ y.2.2 ≤ x.2.2))

/-- soynlp/tokenizer/_noun_tokenizer.py:53-62, the loop; the result is `nouns_`. Every round pops one candidate, so
    `fuel = len(nouns)` rounds are all there can be. -/
def lloop : Nat → Nat → List Cand → List Str
  | 0, _, _ => []
  | _, _, [] => []
  | fuel + 1, e, (noun, b, len) :: rest =>
    if b ≠ e then []
    else noun :: lloop fuel (b + len) (rest.filter (fun c => decide (c.2.1 ≥ b + len)))

/-- soynlp/tokenizer/_noun_tokenizer.py:30-64 -/
def maxLengthLTokenize (isNoun : Str → Bool) (token : Str) : List Str × Str :=
  let cands := sorted candLe (lcands isNoun token)
  let nouns := lloop cands.length 0 cands
  (nouns, token.drop (nouns.map List.length).sum)

/-- soynlp/tokenizer/_noun_tokenizer.py:11-28 -/
def tokenizeL (isNoun : Str → Bool) (sentence : Str) (composeCompound : Bool) : List Str :=
  let tokens := (splitWs sentence).map (maxLengthLTokenize isNoun)
  let tokens := tokens.filter (fun t => t.1 ≠ [])
  let tokens := tokens.map (·.1)
  let tokens := if composeCompound then tokens.map List.flatten else tokens.flatten
  tokens.filter (fun t => t ≠ [])

/-- soynlp/tokenizer/_noun_tokenizer.py:76-86, the loop of `concatenate` with its state `b, e, score` -/
def concatGo (eojeol : Str) : List MaxScore.Tok → Nat → Nat → Rat → List MaxScore.Tok
  | [], b, e, score => if e > b then [⟨slice eojeol b e, b, e, score, e - b⟩] else []
  | w :: ws, b, e, score =>
    if e = w.b then concatGo eojeol ws b w.e (max score w.score)
    else ⟨slice eojeol b e, b, e, score, e - b⟩ :: concatGo eojeol ws w.b w.e score

/-- soynlp/tokenizer/_noun_tokenizer.py:76-86 -/
def concatenate (eojeol : Str) (words : List MaxScore.Tok) : List MaxScore.Tok := concatGo eojeol words 0 0 0

/-- soynlp/tokenizer/_noun_tokenizer.py:89-102, one eojeol. The inner tokenizer has max_length 10 and default score 0
    (soynlp/tokenizer/_noun_tokenizer.py:69, soynlp/tokenizer/_tokenizer.py:124). -/
def matchEojeol (scores : Dict Str Rat) (composeCompound : Bool) (eojeol : Str) : PyM (List MaxScore.Tok) := do
  let spans ← MaxScore.tokenizeSpans scores 10 0 eojeol
  let words ← getItem spans 0
  let words := words.filter (fun w => decide (w.score > 0))
  .ok (if composeCompound then concatenate eojeol words else words)

/-- soynlp/tokenizer/_noun_tokenizer.py:88-107 with flatten=False -/
def matchSpans (scores : Dict Str Rat) (sentence : Str) (composeCompound : Bool) : PyM (List (List MaxScore.Tok)) :=
  (((splitWs sentence).map strip).filter (fun e => e ≠ [])).mapM (matchEojeol scores composeCompound)

/-- soynlp/tokenizer/_noun_tokenizer.py:74-107 with flatten=True -/
def matchTokenize (scores : Dict Str Rat) (sentence : Str) (composeCompound : Bool) : PyM (List Str) := do
  let s ← matchSpans scores sentence composeCompound
  .ok ((s.flatten.map (·.word)).filter (fun w => w ≠ []))

end NounTok
