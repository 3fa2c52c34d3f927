import Verif.Model.Hangle
/-!
Model of soynlp/normalizer/_normalizer.py.
`isWord` stands for the regex class `\w`.
-/
namespace Normalizer
open Py Hangle

/-- soynlp/normalizer/_normalizer.py:15 `[ㄱ-ㅎㅏ-ㅣ가-힣]` -/
def hangleClass (c : Char) : Bool :=
  let i := c.toNat
  (0x3131 ≤ i && i ≤ 0x314E) || (0x314F ≤ i && i ≤ 0x3163) || (0xAC00 ≤ i && i ≤ 0xD7A3)
/-- soynlp/normalizer/_normalizer.py:16 `[a-zA-Z]` -/
def alphabetClass (c : Char) : Bool :=
  let i := c.toNat
  (0x61 ≤ i && i ≤ 0x7A) || (0x41 ≤ i && i ≤ 0x5A)
/-- soynlp/normalizer/_normalizer.py:12 `[0-9]` -/
def numberClass (c : Char) : Bool := let i := c.toNat; 0x30 ≤ i && i ≤ 0x39
/-- soynlp/normalizer/_normalizer.py:13 `[,\.\?\!]` -/
def punctuationClass (c : Char) : Bool := c == ',' || c == '.' || c == '?' || c == '!'
/-- soynlp/normalizer/_normalizer.py:14 ``[()\[\]\{\}`]`` -/
def symbolClass (c : Char) : Bool :=
  c == '(' || c == ')' || c == '[' || c == ']' || c == '{' || c == '}' || c == '`'
/-- soynlp/normalizer/_normalizer.py:20, the complement of the negated class
    `[^ㄱ-ㅎㅏ-ㅣ가-힣a-zA-Z0-9,\.\?\!\"\'-()\[\]\{\}]`. Inside the (non-raw) literal `\'-(` reaches the
    regex engine as the range `'-(`, code points 0x27..0x28; the hyphen itself is not in the class. -/
def textClass (c : Char) : Bool :=
  let i := c.toNat
  hangleClass c || alphabetClass c || numberClass c || c == ',' || c == '.' || c == '?' || c == '!' || c == '"' ||
  (0x27 ≤ i && i ≤ 0x28) || c == ')' || c == '[' || c == ']' || c == '{' || c == '}'

/-- `re.sub('[class]', ' ', s)` (soynlp/normalizer/_normalizer.py:22-37,89-96) -/
def blankOut (p : Char → Bool) (s : Str) : Str := s.map (fun c => if p c then ' ' else c)

/-- soynlp/normalizer/_normalizer.py:22-37 -/
def normalize (isWord : Char → Bool) (doc : Str) (alphabet number punctuation symbol : Bool) (removeRepeat : Nat) : Str :=
  let doc := blankOut (fun c => !textClass c) doc
  let doc := if !alphabet then blankOut alphabetClass doc else doc
  let doc := if !number then blankOut numberClass doc else doc
  let doc := if !punctuation then blankOut punctuationClass doc else doc
  let doc := if !symbol then blankOut symbolClass doc else doc
  let doc := if removeRepeat > 0 then repeatSub isWord 3 removeRepeat doc else doc
  strip (collapse doc)

/-- soynlp/normalizer/_normalizer.py:39-40 -/
def removeDoublespace (sent : Str) : Str := collapse sent

/-- soynlp/normalizer/_normalizer.py:42-46 -/
def repeatNormalize (isWord : Char → Bool) (sent : Str) (numRepeats : Nat) : Str :=
  let sent := if numRepeats > 0 then repeatSub isWord 3 numRepeats sent else sent
  strip (collapse sent)

/-- soynlp/normalizer/_normalizer.py:53-62; `none` is the code's -1 -/
def pattern (c : Char) : Option Nat :=
  let i := c.toNat
  if 12593 ≤ i && i ≤ 12622 then some 0
  else if 12623 ≤ i && i ≤ 12643 then some 1
  else if 44032 ≤ i && i ≤ 55203 then some 2
  else none

/-- `cho, jung, jong = decompose(c)`: unpacking `None` raises `TypeError` (soynlp/normalizer/_normalizer.py:69,76,81) -/
def unpack (c : Char) : PyM (Char × Char × Char) := do
  match ← decompose c with
  | some t => .ok t
  | none => .error .typeError

/-- soynlp/normalizer/_normalizer.py:67-86, loop body: what is appended to `sent_` for the character `c` whose
    left neighbour (`i > 0`) and right neighbour (`i < last_idx`) are given -/
def emoticonPiece (prev : Option Char) (c : Char) (next : Option Char) : PyM Str :=
  let idx := pattern c
  let pidx := prev.bind pattern
  let nidx := next.bind pattern
  if prev.isSome && next.isSome && (pidx == some 0 && idx == some 2 && nidx == some 1) then do
    let (cho, jung, jong) ← unpack c
    if some cho = prev && some jung = next && jong = ' ' then .ok [cho, jung] else .ok [c]
  else if next.isSome && idx == some 2 && nidx == some 0 then do
    let (cho, jung, jong) ← unpack c
    if some jong = next then do
      let x ← compose cho jung ' '
      .ok [x, jong]
    else .ok []
  else if prev.isSome && (idx == some 2 && pidx == some 0) then do
    let (cho, jung, _) ← unpack c
    if some cho = prev then .ok [cho, jung] else .ok []
  else .ok [c]

/-- soynlp/normalizer/_normalizer.py:64-86, the loop; `prev` is the character before the rest -/
def emoticonGo (prev : Option Char) : Str → PyM Str
  | [] => .ok []
  | c :: cs => do
    let p ← emoticonPiece prev c cs.head?
    let rest ← emoticonGo (some c) cs
    .ok (p ++ rest)

/-- soynlp/normalizer/_normalizer.py:48-87 -/
def emoticonNormalize (isWord : Char → Bool) (sent : Str) (numRepeats : Nat) : PyM Str :=
  if sent = [] then .ok sent
  else do
    let s ← emoticonGo none sent
    .ok (repeatNormalize isWord s numRepeats)

/-- soynlp/normalizer/_normalizer.py:89-90 -/
def onlyHangle (sent : Str) : Str := strip (collapse (blankOut (fun c => !hangleClass c) sent))
/-- soynlp/normalizer/_normalizer.py:92-93 (the class of line 19) -/
def onlyHangleNumber (sent : Str) : Str :=
  strip (collapse (blankOut (fun c => !(hangleClass c || numberClass c)) sent))
/-- soynlp/normalizer/_normalizer.py:95-96 -/
def onlyText (sent : Str) : Str := strip (collapse (blankOut (fun c => !textClass c) sent))

/-- soynlp/normalizer/_normalizer.py:98-103. `matchs[-1].span()[1]` is one past the last Hangul position. -/
def remainHangleOnLast (eojeol : Str) : Str :=
  let matchs := (List.range eojeol.length).filter (fun i => (eojeol[i]?).any hangleClass)
  match matchs.getLast? with
  | none => []
  | some i => strip (eojeol.take (i + 1))

/-- soynlp/normalizer/_normalizer.py:105-112 -/
def normalizeSentForLrgraph (sent : Str) : Str :=
  let sent := blankOut (fun c => !textClass c) sent
  let sent := blankOut symbolClass sent
  let sent_ := (splitWs sent).map remainHangleOnLast
  let sent_ := sent_.filter (fun e => e ≠ [])
  if sent_ = [] then [] else join [' '] sent_

end Normalizer
