import Verif.Py.Basic
/-!
Model of `RegexTokenizer` in soynlp/tokenizer/_tokenizer.py. A compiled pattern is the function giving the length of
the match that Python's `re` (leftmost, backtracking, greedy) finds at the start of the remaining text, if any.
`isDigit` is the regex class `\d`.
-/
namespace RegexTok
open Py

/-- length of the longest prefix in the class (soynlp/tokenizer/_tokenizer.py:16-18) -/
def runLength (p : Char → Bool) (s : Str) : Nat := (s.takeWhile p).length

/-- a pattern `[class]+` (soynlp/tokenizer/_tokenizer.py:16-18) -/
def matchRun (p : Char → Bool) (s : Str) : Option Nat :=
  if runLength p s = 0 then none else some (runLength p s)

/-- the digits part `\d*[\.]?[\d]+` at the start of `s`. Backtracking: with a `.` followed by a digit everything is
    taken; otherwise `\d*` gives one digit back to `[\d]+`, so all leading digits are taken.
    (soynlp/tokenizer/_tokenizer.py:15) -/
def matchDigits (isDigit : Char → Bool) (s : Str) : Option Nat :=
  let d := runLength isDigit s
  match s.drop d with
  | '.' :: rest =>
    let f := runLength isDigit rest
    if f ≠ 0 then some (d + 1 + f) else if d ≠ 0 then some d else none
  | _ => if d ≠ 0 then some d else none

/-- soynlp/tokenizer/_tokenizer.py:15 `[-+]?\d*[\.]?[\d]+|[-+]?\d+`. The second alternative never matches where the
    first does not. A sign not followed by a number cannot be skipped because it is neither a digit nor a dot. -/
def matchNumber (isDigit : Char → Bool) (s : Str) : Option Nat :=
  match s with
  | c :: rest => if c = '-' || c = '+' then (matchDigits isDigit rest).map (· + 1) else matchDigits isDigit s
  | [] => none

/-- soynlp/tokenizer/_tokenizer.py:16 `[가-힣]` -/
def isSyllable (c : Char) : Bool := 0xAC00 ≤ c.toNat && c.toNat ≤ 0xD7A3
/-- soynlp/tokenizer/_tokenizer.py:17 `[ㄱ-ㅎ]` -/
def isJaum (c : Char) : Bool := 0x3131 ≤ c.toNat && c.toNat ≤ 0x314E
/-- soynlp/tokenizer/_tokenizer.py:18 `[ㅏ-ㅣ]` -/
def isMoum (c : Char) : Bool := 0x314F ≤ c.toNat && c.toNat ≤ 0x3163
/-- soynlp/tokenizer/_tokenizer.py:19 `[a-zA-ZÀ-ÿ]` -/
def isLatin (c : Char) : Bool :=
  (0x61 ≤ c.toNat && c.toNat ≤ 0x7A) || (0x41 ≤ c.toNat && c.toNat ≤ 0x5A) || (0xC0 ≤ c.toNat && c.toNat ≤ 0xFF)

/-- index of the last `'s'` of a word, but not index 0 (soynlp/tokenizer/_tokenizer.py:19) -/
def lastS (w : Str) : Option Nat :=
  ((List.range w.length).filter (fun k => k ≠ 0 && w[k]? = some 's')).getLast?

/-- the letters of the first alternative given back one by one until an `s` follows (then any `]`); if there is
    none, the second alternative takes all `m` letters (soynlp/tokenizer/_tokenizer.py:19) -/
def englishBack (s : Str) (m : Nat) : Nat :=
  match lastS (s.take m) with
  | some k => if k + 1 = m then m + runLength (fun c => c = ']') (s.drop m) else k + 1
  | none => m

/-- soynlp/tokenizer/_tokenizer.py:19 ``[a-zA-ZÀ-ÿ]+[[`']?s]*|[a-zA-ZÀ-ÿ]+``. The first alternative reads: letters,
    an optional one of ``[ ` '``, the letter `s`, any number of `]`. The letters are taken greedily and given back one
    by one until an `s` follows. -/
def matchEnglish (s : Str) : Option Nat :=
  let m := runLength isLatin s
  if m = 0 then none
  else
    match s.drop m with
    | q :: 's' :: rest =>
      if q = '[' || q = '`' || q = '\'' then some (m + 2 + runLength (fun c => c = ']') rest)
      else some (englishBack s m)
    | _ => some (englishBack s m)

/-- `pattern.findall(s)`; `skip` counts the characters of the current match still to pass
    (soynlp/tokenizer/_tokenizer.py:49) -/
def findAll (m : Str → Option Nat) : Nat → Str → List Str
  | _, [] => []
  | 0, c :: cs =>
    match m (c :: cs) with
    | some k => (c :: cs).take k :: findAll m (k - 1) cs
    | none => findAll m 0 cs
  | skip + 1, _ :: cs => findAll m skip cs

/-- soynlp/tokenizer/_tokenizer.py:60-79: the rescan. `found`/`founds` is what is still to be located, `skip` is
    `b - i`. -/
def rescan (found : Str) (founds : List Str) : Nat → Str → Str
  | _, [] => []
  | skip + 1, _ :: cs => rescan found founds skip cs
  | 0, c :: cs =>
    if (c :: cs).take found.length = found then
      ' ' :: (found ++ ' ' ::
        match founds with
        | [] => (c :: cs).drop found.length
        | f :: fs => rescan f fs (found.length - 1) cs)
    else c :: rescan found founds 0 cs

/-- soynlp/tokenizer/_tokenizer.py:47-80, one pattern -/
def applyPattern (m : Str → Option Nat) (s : Str) : Str :=
  match findAll m 0 s with
  | [] => s
  | f :: fs => rescan f fs 0 s

/-- soynlp/tokenizer/_tokenizer.py:14-20 -/
def patterns (isDigit : Char → Bool) : List (Str → Option Nat) :=
  [matchNumber isDigit, matchRun isSyllable, matchRun isJaum, matchRun isMoum, matchEnglish]

/-- soynlp/tokenizer/_tokenizer.py:46-84 (debug output not modelled) -/
def tokenizeOne (isDigit : Char → Bool) (s : Str) : List Str :=
  splitWs (strip (collapse ((patterns isDigit).foldl (fun s m => applyPattern m s) s)))

/-- soynlp/tokenizer/_tokenizer.py:27-44 with flatten=True -/
def tokenize (isDigit : Char → Bool) (s : Str) : List Str :=
  ((splitWs s).flatMap (tokenizeOne isDigit)).filter (fun t => t ≠ [])

end RegexTok
