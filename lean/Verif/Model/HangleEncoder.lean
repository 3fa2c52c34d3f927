import Verif.Model.Hangle
/-!
Model of `ConvolutionHangleEncoder`, soynlp/hangle/_hangle.py:130-219.
-/
namespace Hangle
namespace Encoder
open Py

/-- soynlp/hangle/_hangle.py:135 -/
abbrev jungBegin : Nat := 19
/-- soynlp/hangle/_hangle.py:136 -/
abbrev jongBegin : Nat := 40
/-- soynlp/hangle/_hangle.py:137 -/
abbrev numberBegin : Nat := 68
/-- soynlp/hangle/_hangle.py:138 -/
abbrev space : Nat := 78
/-- soynlp/hangle/_hangle.py:139 -/
abbrev unk : Nat := 79
/-- soynlp/hangle/_hangle.py:140 -/
abbrev dim : Nat := 80

/-- soynlp/hangle/_hangle.py:141-145. Entries are strings (`'<unk>'` has five characters). -/
def idxToChar : List Str :=
  (chosungList ++ jungsungList ++ jongsungList ++ ['0', '1', '2', '3', '4', '5', '6', '7', '8', '9'] ++ [' ']).map
    (fun c => [c]) ++ [['<', 'u', 'n', 'k', '>']]

/-- soynlp/hangle/_hangle.py:146-154 -/
def jamoToIdx : List (Char × Nat) :=
  [('ㄱ', 0), ('ㄲ', 1), ('ㄴ', 2), ('ㄷ', 3), ('ㄸ', 4), ('ㄹ', 5), ('ㅁ', 6), ('ㅂ', 7),
   ('ㅃ', 8), ('ㅅ', 9), ('ㅆ', 10), ('ㅇ', 11), ('ㅈ', 12), ('ㅉ', 13), ('ㅊ', 14), ('ㅋ', 15),
   ('ㅌ', 16), ('ㅍ', 17), ('ㅎ', 18), ('ㅏ', 19), ('ㅐ', 20), ('ㅑ', 21), ('ㅒ', 22), ('ㅓ', 23),
   ('ㅔ', 24), ('ㅕ', 25), ('ㅖ', 26), ('ㅗ', 27), ('ㅘ', 28), ('ㅙ', 29), ('ㅚ', 30), ('ㅛ', 31),
   ('ㅜ', 32), ('ㅝ', 33), ('ㅞ', 34), ('ㅟ', 35), ('ㅠ', 36), ('ㅡ', 37), ('ㅢ', 38), ('ㅣ', 39),
   (' ', 40), ('ㄳ', 43), ('ㄵ', 45), ('ㄶ', 46), ('ㄺ', 49), ('ㄻ', 50), ('ㄼ', 51), ('ㄽ', 52),
   ('ㄾ', 53), ('ㄿ', 54), ('ㅀ', 55), ('ㅄ', 58)]

/-- soynlp/hangle/_hangle.py:203: the character class `[ㄱ-ㅎㅏ-ㅣ가-힣 0-9]` -/
def kept (c : Char) : Bool :=
  let i := c.toNat
  (0x3131 ≤ i && i ≤ 0x314E) || (0x314F ≤ i && i ≤ 0x3163) || (0xAC00 ≤ i && i ≤ 0xD7A3) || c == ' ' ||
  (0x30 ≤ i && i ≤ 0x39)

/-- soynlp/hangle/_hangle.py:201-206 -/
def normalize (sent : Str) : Str :=
  strip (collapse (sent.map (fun c => if kept c then c else ' ')))

/-- soynlp/hangle/_hangle.py:211-219. Index tuples are lists of length 1 or 3. -/
def decompose (c : Char) : List Nat :=
  let i := c.toNat
  if korBegin ≤ i && i ≤ korEnd then
    let i := i - korBegin
    let cho := i / chosungBase
    let jung := (i - cho * chosungBase) / jungsungBase
    let jong := i - cho * chosungBase - jung * jungsungBase
    [cho, jungBegin + jung, jongBegin + jong]
  else [(jamoToIdx.lookup c).getD unk]

/-- soynlp/hangle/_hangle.py:168-174, loop body -/
def charToOnehot (c : Char) : List Nat :=
  let idx := c.toNat
  if idx = 32 then [space]
  else if 48 ≤ idx && idx ≤ 57 then [idx - 48 + numberBegin]
  else decompose c

/-- soynlp/hangle/_hangle.py:164-175 -/
def sentToOnehot (sent : Str) : List (List Nat) := (normalize sent).map charToOnehot

/-- soynlp/hangle/_hangle.py:188-198, loop body with `check_cjj` (178-185) inlined. Indices are `Nat`
    (negative ones would be rejected by the same tests). -/
def onehotToChar (c : List Nat) : PyM Str :=
  match c with
  | [i] => if i < dim then getItem idxToChar i else .error .valueError
  | [cho, jung, jong] =>
    if ¬ cho < jungBegin then .error .valueError
    else if ¬ (jungBegin ≤ jung ∧ jung < jongBegin) then .error .valueError
    else if ¬ (jongBegin ≤ jong ∧ jong < numberBegin) then .error .valueError
    else do
      let x ← getItem idxToChar cho
      let y ← getItem idxToChar jung
      let z ← getItem idxToChar jong
      match x, y, z with
      | [x], [y], [z] => do let s ← compose x y z; .ok [s]
      | _, _, _ => .error .valueError
  | _ => getItem idxToChar (idxToChar.length - 1)

/-- soynlp/hangle/_hangle.py:177-199 -/
def onehotToSent : List (List Nat) → PyM Str
  | [] => .ok []
  | c :: cs => do
    let a ← onehotToChar c
    let rest ← onehotToSent cs
    .ok (a ++ rest)

/-- soynlp/hangle/_hangle.py:156-162: a row of zeros with ones at the given positions -/
def onehotRow (xi : List Nat) : List Nat :=
  xi.foldl (fun row j => row.set j 1) (List.replicate dim 0)

/-- soynlp/hangle/_hangle.py:156-162. A position ≥ 80 would raise `IndexError` in numpy (see the theorem: it
    never occurs). -/
def encode (sent : Str) : List (List Nat) := (sentToOnehot sent).map onehotRow

end Encoder
end Hangle
