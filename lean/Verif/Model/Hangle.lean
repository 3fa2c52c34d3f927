import Verif.Py.Basic
/-!
Model of soynlp/hangle/_hangle.py.
-/
namespace Hangle
open Py

/-- soynlp/hangle/_hangle.py:11 -/
abbrev korBegin : Nat := 44032
/-- soynlp/hangle/_hangle.py:12 -/
abbrev korEnd : Nat := 55203
/-- soynlp/hangle/_hangle.py:13 -/
abbrev chosungBase : Nat := 588
/-- soynlp/hangle/_hangle.py:14 -/
abbrev jungsungBase : Nat := 28
/-- soynlp/hangle/_hangle.py:15 -/
abbrev jaumBegin : Nat := 12593
/-- soynlp/hangle/_hangle.py:16 -/
abbrev jaumEnd : Nat := 12622
/-- soynlp/hangle/_hangle.py:17 -/
abbrev moumBegin : Nat := 12623
/-- soynlp/hangle/_hangle.py:18 -/
abbrev moumEnd : Nat := 12643

/-- soynlp/hangle/_hangle.py:20-21 -/
def chosungList : List Char :=
  ['ㄱ', 'ㄲ', 'ㄴ', 'ㄷ', 'ㄸ', 'ㄹ', 'ㅁ', 'ㅂ', 'ㅃ',
   'ㅅ', 'ㅆ', 'ㅇ' , 'ㅈ', 'ㅉ', 'ㅊ', 'ㅋ', 'ㅌ', 'ㅍ', 'ㅎ']

/-- soynlp/hangle/_hangle.py:23-26 -/
def jungsungList : List Char :=
  ['ㅏ', 'ㅐ', 'ㅑ', 'ㅒ', 'ㅓ', 'ㅔ',
   'ㅕ', 'ㅖ', 'ㅗ', 'ㅘ', 'ㅙ', 'ㅚ',
   'ㅛ', 'ㅜ', 'ㅝ', 'ㅞ', 'ㅟ', 'ㅠ',
   'ㅡ', 'ㅢ', 'ㅣ']

/-- soynlp/hangle/_hangle.py:28-32 -/
def jongsungList : List Char :=
  [' ', 'ㄱ', 'ㄲ', 'ㄳ', 'ㄴ', 'ㄵ', 'ㄶ', 'ㄷ',
   'ㄹ', 'ㄺ', 'ㄻ', 'ㄼ', 'ㄽ', 'ㄾ', 'ㄿ', 'ㅀ',
   'ㅁ', 'ㅂ', 'ㅄ', 'ㅅ', 'ㅆ', 'ㅇ', 'ㅈ', 'ㅊ',
   'ㅋ', 'ㅌ', 'ㅍ', 'ㅎ']

/-- soynlp/hangle/_hangle.py:97-98 -/
def isComplete (c : Char) : Bool := korBegin ≤ c.toNat && c.toNat ≤ korEnd

/-- soynlp/hangle/_hangle.py:100-101 -/
def isJaum (c : Char) : Bool := jaumBegin ≤ c.toNat && c.toNat ≤ jaumEnd

/-- soynlp/hangle/_hangle.py:103-104 -/
def isMoum (c : Char) : Bool := moumBegin ≤ c.toNat && c.toNat ≤ moumEnd

/-- soynlp/hangle/_hangle.py:93-95 -/
def isKorean (c : Char) : Bool :=
  (korBegin ≤ c.toNat && c.toNat ≤ korEnd) ||
  (jaumBegin ≤ c.toNat && c.toNat ≤ jaumEnd) ||
  (moumBegin ≤ c.toNat && c.toNat ≤ moumEnd)

/-- soynlp/hangle/_hangle.py:118-120 -/
def isNumber (c : Char) : Bool := c.toNat ≥ 48 && c.toNat ≤ 57

/-- soynlp/hangle/_hangle.py:122-124 -/
def isEnglish (c : Char) : Bool :=
  (c.toNat ≥ 97 && c.toNat ≤ 122) || (c.toNat ≥ 65 && c.toNat ≤ 90)

/-- soynlp/hangle/_hangle.py:126-128 -/
def isPunctuation (c : Char) : Bool :=
  let i := c.toNat
  i == 33 || i == 34 || i == 39 || i == 44 || i == 46 || i == 63 || i == 96

/-- soynlp/hangle/_hangle.py:76-77. Arguments are single characters (the code also accepts any other object
    and then raises `ValueError` from `index`, as for an unlisted character). -/
def compose (cho jung jong : Char) : PyM Char := do
  let a ← index chosungList cho
  let b ← index jungsungList jung
  let c ← index jongsungList jong
  chr (korBegin + chosungBase * a + jungsungBase * b + c)

/-- soynlp/hangle/_hangle.py:79-91. `none` is Python's `None`. -/
def decompose (c : Char) : PyM (Option (Char × Char × Char)) :=
  if !isKorean c then .ok none
  else
    let i := c.toNat
    if jaumBegin ≤ i && i ≤ jaumEnd then .ok (some (c, ' ', ' '))
    else if moumBegin ≤ i && i ≤ moumEnd then .ok (some (' ', c, ' '))
    else
      let i := i - korBegin
      let cho := i / chosungBase
      let jung := (i - cho * chosungBase) / jungsungBase
      let jong := i - cho * chosungBase - jung * jungsungBase
      do
        let x ← getItem chosungList cho
        let y ← getItem jungsungList jung
        let z ← getItem jongsungList jong
        .ok (some (x, y, z))

/-- soynlp/hangle/_hangle.py:52-73, the loop body: the character appended for `c` -/
def normalizeChar (english number punctuation : Bool) (remains : Char → Bool) (c : Char) : Char :=
  if c = ' ' then c
  else
    let i := c.toNat
    if (korBegin ≤ i && i ≤ korEnd) || (jaumBegin ≤ i && i ≤ jaumEnd) || (moumBegin ≤ i && i ≤ moumEnd) then c
    else if english && ((i ≥ 97 && i ≤ 122) || (i ≥ 65 && i ≤ 90)) then c
    else if number && (i ≥ 48 && i ≤ 57) then c
    else if punctuation && (i == 33 || i == 34 || i == 39 || i == 44 || i == 46 || i == 63 || i == 96) then c
    else if remains c then c
    else ' '

/-- worker of `repeatSub`: `c` is the current run's character, `k` its length so far, minus one
    (soynlp/hangle/_hangle.py:42,49) -/
def repeatSubGo (isWord : Char → Bool) (k n : Nat) (c : Char) (run : Nat) : Str → Str
  | [] => if isWord c && run + 1 ≥ k then List.replicate n c else List.replicate (run + 1) c
  | d :: ds =>
    if d = c then repeatSubGo isWord k n c (run + 1) ds
    else
      (if isWord c && run + 1 ≥ k then List.replicate n c else List.replicate (run + 1) c)
        ++ repeatSubGo isWord k n d 0 ds

/-- `re.sub('(\w)\1{k-1,}', '\1' * n, s)`: every maximal run of at least `k` equal word characters becomes
    `n` copies. (The greedy `{k-1,}` makes each match a maximal run; the leftmost match starts at the run's start
    because any earlier character differs.) `isWord` is `\w`.
    (soynlp/hangle/_hangle.py:42 and soynlp/normalizer/_normalizer.py:11,35,44) -/
def repeatSub (isWord : Char → Bool) (k n : Nat) : Str → Str
  | [] => []
  | c :: cs => repeatSubGo isWord k n c 0 cs

/-- soynlp/hangle/_hangle.py:41-74. `remains` is the membership test of the caller's container; `isWord` is the
    regex class `\w` (soynlp/hangle/_hangle.py:42). The deprecation warning is not modelled. -/
def normalize (isWord : Char → Bool) (doc : Str) (english number punctuation : Bool) (removeRepeat : Nat)
    (remains : Char → Bool) : Str :=
  let doc := if removeRepeat > 0 then repeatSub isWord 4 removeRepeat doc else doc
  strip (collapse (doc.map (normalizeChar english number punctuation remains)))

end Hangle
