import Verif.Model.RegexTokenizer
import Verif.Model.LTokenizer
import Verif.Model.NounTokenizer
import Verif.Model.MaxLR
/-!
The options of the tokenizers' `tokenize`, and calling a tokenizer object (`__call__`), in soynlp/tokenizer/_tokenizer.py and
soynlp/tokenizer/_noun_tokenizer.py. What `debug` prints is not modelled.
-/
namespace Calls
open Py

/-- what is returned: a list of single items (`flatten=True`) or one value per eojeol (soynlp/tokenizer/_tokenizer.py:41-44, 113-119, 132-136, 280-284) -/
inductive Out (α β : Type) where
  | flat (items : List α)
  | nested (perEojeol : List β)
  deriving DecidableEq, Repr

/-- `RegexTokenizer.tokenize` (soynlp/tokenizer/_tokenizer.py:27-44) -/
def regex (isDigit : Char → Bool) (s : Str) (_debug : Bool := false) (flatten : Bool := true) : Out Str (List Str) :=
  let tokens := (splitWs s).map (RegexTok.tokenizeOne isDigit)
  if flatten then .flat (tokens.flatten.filter (fun t => t ≠ [])) else .nested tokens

/-- `RegexTokenizer.__call__` (soynlp/tokenizer/_tokenizer.py:24-25) -/
def regexCall (isDigit : Char → Bool) (s : Str) (debug : Bool := true) (flatten : Bool := true) : Out Str (List Str) :=
  regex isDigit s debug flatten

/-- `LTokenizer.tokenize` (soynlp/tokenizer/_tokenizer.py:96-119): with `remove_r` the pairs are replaced by their left parts first, and then never flattened -/
def ltok (scores : Dict Str Rat) (ds : Rat) (sentence : Str) (tolerance : Rat := 0) (flatten : Bool := true) (removeR : Bool := false) :
    PyM (Out Str (Str × Str)) :=
  match (splitWs sentence).mapM (LTok.tokenToLr scores ds tolerance) with
  | .error e => .error e
  | .ok tokens =>
    if removeR then .ok (.flat (tokens.map (·.1)))
    else if flatten then .ok (.flat ((tokens.flatMap (fun t => [t.1, t.2])).filter (fun s => s ≠ [])))
    else .ok (.nested tokens)

/-- `LTokenizer.__call__` (soynlp/tokenizer/_tokenizer.py:93-94) -/
def ltokCall (scores : Dict Str Rat) (ds : Rat) (sentence : Str) (tolerance : Rat := 0) (flatten : Bool := true) (removeR : Bool := false) :
    PyM (Out Str (Str × Str)) := ltok scores ds sentence tolerance flatten removeR

/-- `MaxScoreTokenizer.tokenize` (soynlp/tokenizer/_tokenizer.py:132-136) -/
def maxScore (scores : Dict Str Rat) (maxLength : Nat) (ds : Rat) (sentence : Str) (flatten : Bool := true) : PyM (Out Str (List MaxScore.Tok)) :=
  match (splitWs sentence).mapM (MaxScore.recursiveTokenize scores maxLength ds) with
  | .error e => .error e
  | .ok tokens => .ok (if flatten then .flat (tokens.flatMap (fun t => t.map (·.word))) else .nested tokens)

/-- `MaxScoreTokenizer.__call__` (soynlp/tokenizer/_tokenizer.py:129-130) -/
def maxScoreCall (scores : Dict Str Rat) (maxLength : Nat) (ds : Rat) (sentence : Str) (flatten : Bool := true) : PyM (Out Str (List MaxScore.Tok)) :=
  maxScore scores maxLength ds sentence flatten

/-- `NounMatchTokenizer.tokenize` (soynlp/tokenizer/_noun_tokenizer.py:74-107) -/
def nounMatch (scores : Dict Str Rat) (sentence : Str) (flatten : Bool := true) (composeCompound : Bool := true) : PyM (Out Str (List MaxScore.Tok)) :=
  match NounTok.matchSpans scores sentence composeCompound with
  | .error e => .error e
  | .ok s => .ok (if flatten then .flat ((s.flatten.map (·.word)).filter (fun w => w ≠ [])) else .nested s)

/-- `NounMatchTokenizer.__call__` (soynlp/tokenizer/_noun_tokenizer.py:71-72) -/
def nounMatchCall (scores : Dict Str Rat) (sentence : Str) (flatten : Bool := true) (composeCompound : Bool := true) : PyM (Out Str (List MaxScore.Tok)) :=
  nounMatch scores sentence flatten composeCompound

/-- `NounLMatchTokenizer.__call__` (soynlp/tokenizer/_noun_tokenizer.py:8-9) -/
def nounLMatchCall (isNoun : Str → Bool) (sentence : Str) (composeCompound : Bool := true) : List Str :=
  NounTok.tokenizeL isNoun sentence composeCompound

/-- one item of the result of `MaxLRScoreTokenizer`: a tagged word, or with `debug` the list `[l, r, p0, p1, p2, len_l, len_r, len_lr, score_l, score_r, total]`
    itself (soynlp/tokenizer/_tokenizer.py:297-300). Simplification: the list of a piece found by the base tokenizer has no last element; here it is 0. -/
inductive Item where
  | word (w : Str) (tag : MaxLR.Tag)
  | raw (c : MaxLR.Cand)
  deriving DecidableEq, Repr

/-- `MaxLRScoreTokenizer._tokenize` (soynlp/tokenizer/_tokenizer.py:286-300) -/
def maxLREojeol (g : MaxLR.Config) (t : Str) (debug : Bool := false) : PyM (List Item) :=
  match MaxLR.removeSubset g (MaxLR.initCands g t) with
  | .error e => .error e
  | .ok cs =>
    match MaxLR.choosePost g t (MaxLR.findBest (MaxLR.score g cs)) with
    | .error e => .error e
    | .ok post =>
      if debug then .ok (post.map Item.raw)
      else .ok (((post.flatMap (fun p => [(p.l, MaxLR.Tag.L), (p.r, MaxLR.Tag.R)])).filter (fun w => w.1 ≠ [])).map (fun w => Item.word w.1 w.2))

/-- `MaxLRScoreTokenizer.tokenize` (soynlp/tokenizer/_tokenizer.py:280-284) -/
def maxLR (g : MaxLR.Config) (sent : Str) (debug : Bool := false) (flatten : Bool := true) : PyM (Out Item (List Item)) :=
  match ((splitWs sent).filter (fun t => t ≠ [])).mapM (fun t => maxLREojeol g t debug) with
  | .error e => .error e
  | .ok ws => .ok (if flatten then .flat ws.flatten else .nested ws)

/-- `MaxLRScoreTokenizer.__call__` (soynlp/tokenizer/_tokenizer.py:277-278): `debug` is on by default -/
def maxLRCall (g : MaxLR.Config) (sent : Str) (debug : Bool := true) (flatten : Bool := true) : PyM (Out Item (List Item)) :=
  maxLR g sent debug flatten

end Calls
