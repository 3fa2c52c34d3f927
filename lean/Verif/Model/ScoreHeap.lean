import Verif.Model.LTokenizer
import Verif.Model.MaxScore
import Verif.Model.NounTokenizer
import Verif.Model.MaxLR
/-!
Model of the tokenizer objects of soynlp/tokenizer/_tokenizer.py and _noun_tokenizer.py together with the score dicts of their caller: an object keeps
the caller's dict itself, not a copy, unless the dict is empty (`scores if scores else {}`). The caller may change its dicts at any time.
`NounLMatchTokenizer(None)` (which raises when it is used) is not modelled.
-/
namespace ScoreHeap
open Py

/-- which tokenizer, with its constructor's other arguments: `LTokenizer(scores, ds)`, `MaxScoreTokenizer(scores, maxLength, ds)`, `NounMatchTokenizer(scores)`,
    `NounLMatchTokenizer(nouns)` (soynlp/tokenizer/_tokenizer.py:89-91,124-127, soynlp/tokenizer/_noun_tokenizer.py:5-6,68-69) -/
inductive Kind where
  | left (ds : Rat)
  | maxScore (maxLength : Nat) (ds : Rat)
  | nounMatch
  | nounLeft
  deriving DecidableEq

/-- the dict objects, the caller's names for some of them, the tokenizers, each with the dict it uses, and the MaxLRScoreTokenizers, each with its
    attributes (the fields `Pl`, `Pr` as they were at construction) and the two dicts it uses for the preferences
    (soynlp/tokenizer/_tokenizer.py:239-275)
    (soynlp/tokenizer/_tokenizer.py:89-91,124-127, soynlp/tokenizer/_noun_tokenizer.py:5-6,68-69) -/
structure World where
  heap : List (Dict Str Rat) := []
  named : List Nat := []
  toks : List (Kind × Nat) := []
  lrs : List (MaxLR.Config × Nat × Nat) := []

/-- what the program does: make a dict, change the contents of the `h`-th dict it made in place, make a tokenizer with no dict or with the `h`-th one, make a
    MaxLRScoreTokenizer from any of them
    (soynlp/tokenizer/_tokenizer.py:89-91,124-127, soynlp/tokenizer/_noun_tokenizer.py:5-6,68-69) -/
inductive Op where
  | newDict (d : Dict Str Rat)
  | change (h : Nat) (d : Dict Str Rat)
  | make (k : Kind) (h : Option Nat)
  | makeLR (dl dr pl pr : Option Nat) (maxLDiff maxLRatio ensL ensLRDiff : Rat)

/-- an object with a new empty dict of its own, soynlp/tokenizer/_tokenizer.py:90,125 -/
def World.own (w : World) (k : Kind) : World :=
  { w with heap := w.heap ++ [[]], toks := w.toks ++ [(k, w.heap.length)] }

/-- the contents of a dict object (soynlp/tokenizer/_tokenizer.py:90,125) -/
def World.at (w : World) (r : Nat) : Dict Str Rat := w.heap[r]?.getD []

/-- the contents of an argument: nothing when it is not given (soynlp/tokenizer/_tokenizer.py:247-248,258-259) -/
def World.given (w : World) (h : Option Nat) : Dict Str Rat :=
  match h.bind (fun h => w.named[h]?) with
  | none => []
  | some r => w.at r

/-- `preference if preference else {}`: the dict object that is kept, soynlp/tokenizer/_tokenizer.py:258-259 -/
def World.pref (w : World) (h : Option Nat) : World × Nat :=
  match h.bind (fun h => w.named[h]?) with
  | none => ({ w with heap := w.heap ++ [[]] }, w.heap.length)
  | some r => if w.at r = [] then ({ w with heap := w.heap ++ [[]] }, w.heap.length) else (w, r)

/-- `MaxLRScoreTokenizer(Dl, Dr, preference_l, preference_r, …)` with dicts and neither a graph nor a builder: `Dl` and `Dr` are copied into new dicts, the
    preferences are kept, soynlp/tokenizer/_tokenizer.py:239-275 -/
def World.makeLR (w : World) (dl dr pl pr : Option Nat) (maxLDiff maxLRatio ensL ensLRDiff : Rat) : World :=
  let c := MaxLR.make (MaxLR.update [] (w.given dl)) (MaxLR.update [] (w.given dr)) (w.given pl) (w.given pr) maxLDiff maxLRatio ensL ensLRDiff
  let a := w.pref pl
  let b := a.1.pref pr
  { b.1 with lrs := b.1.lrs ++ [(c, a.2, b.2)] }

/-- one step; a step on a dict that does not exist does nothing. `NounLMatchTokenizer` keeps what it is given even when that is empty.
    (soynlp/tokenizer/_tokenizer.py:89-91,124-127, soynlp/tokenizer/_noun_tokenizer.py:5-6,68-69) -/
def step (w : World) : Op → World
  | .newDict d => { w with heap := w.heap ++ [d], named := w.named ++ [w.heap.length] }
  | .change h d => match w.named[h]? with
    | none => w
    | some r => { w with heap := w.heap.set r d }
  | .make k none => if k = .nounLeft then w else w.own k
  | .make k (some h) => match w.named[h]? with
    | none => w
    | some r => if k = .nounLeft then { w with toks := w.toks ++ [(k, r)] }
      else if w.at r = [] then w.own k else { w with toks := w.toks ++ [(k, r)] }
  | .makeLR dl dr pl pr a b c d => w.makeLR dl dr pl pr a b c d

/-- a program (soynlp/tokenizer/_tokenizer.py:89-91,124-127) -/
def run (ops : List Op) : World := ops.foldl step {}

/-- what a tokenizer of kind `k` that looks at the dict contents `d` answers (flat lists), soynlp/tokenizer/_tokenizer.py:96-121,132-136,
    soynlp/tokenizer/_noun_tokenizer.py:11-36,74-110; none of the calls changes the dict -/
def ask (k : Kind) (d : Dict Str Rat) (tolerance : Rat) (compose : Bool) (sentence : Str) : PyM (List Str) :=
  match k with
  | .left ds => LTok.tokenize d ds tolerance sentence
  | .maxScore maxLength ds => MaxScore.tokenize d maxLength ds sentence
  | .nounMatch => NounTok.matchTokenize d sentence compose
  | .nounLeft => .ok (NounTok.tokenizeL (fun w => (Dict.get? d w).isSome) sentence compose)

/-- what the `i`-th tokenizer answers now, soynlp/tokenizer/_tokenizer.py:96-121,132-136, soynlp/tokenizer/_noun_tokenizer.py:11-36,74-110 -/
def answer (w : World) (i : Nat) (tolerance : Rat) (compose : Bool) (sentence : Str) : Option (PyM (List Str)) :=
  match w.toks[i]? with
  | none => none
  | some (k, r) => some (ask k (w.at r) tolerance compose sentence)

/-- what the `i`-th MaxLRScoreTokenizer answers now: the preferences are looked up in the dicts it keeps, soynlp/tokenizer/_tokenizer.py:280-300,391,398 -/
def answerLR (w : World) (i : Nat) (sentence : Str) : Option (PyM (List (Str × MaxLR.Tag))) :=
  match w.lrs[i]? with
  | none => none
  | some (c, l, r) => some (MaxLR.tokenize { c with Pl := w.at l, Pr := w.at r } sentence)

end ScoreHeap
