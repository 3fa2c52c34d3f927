import Verif.Model.Hangle
import Verif.Py.Dict
/-!
Model of soynlp/lemmatizer/_conjugation.py and soynlp/lemmatizer/_lemmatizer.py.
Sets of surface forms and of candidates are lists of which only membership matters. Debug printing is not modelled.
-/
namespace Lemma
open Py Hangle

/-- the three letters of a character, soynlp/hangle/_hangle.py:91 -/
abbrev Jamo := Char × Char × Char

/-- what the rules of `conjugate` look at: the stem without and with its last character, the decomposed last character, the ending,
    its decomposed first character, and `r_first_` (soynlp/lemmatizer/_conjugation.py:50-53,76) -/
structure Ctx where
  stem : Str
  front : Str
  last : Char
  ll : Jamo
  ending : Str
  rf : Jamo
  rFirst : Char

/-- `ending[1:]`, soynlp/lemmatizer/_conjugation.py:61 -/
def tail1 (s : Str) : Str := s.drop 1

/-- soynlp/lemmatizer/_conjugation.py:84-86 -/
def ruleDa (x : Ctx) : PyM (List Str) := if x.ending.head? = some '다' then .ok [x.stem ++ x.ending] else .ok []

/-- soynlp/lemmatizer/_conjugation.py:91-95 -/
def ruleD (x : Ctx) : PyM (List Str) :=
  if x.ll.2.2 = 'ㄷ' ∧ x.rf.1 = 'ㅇ' then
    (compose x.ll.1 x.ll.2.1 'ㄹ').map (fun c => [x.front ++ c :: x.ending, x.stem ++ x.ending])
  else .ok []

/-- soynlp/lemmatizer/_conjugation.py:102-106: `stem[-2]` must be unpackable -/
def ruleReuBody (x : Ctx) (front2 : Str) (c : Char) : PyM (List Str) :=
  match decompose c with
  | .error e => .error e
  | .ok none => .error .typeError
  | .ok (some d) =>
    match compose d.1 d.2.1 'ㄹ' with
    | .error e => .error e
    | .ok l => (compose 'ㄹ' x.rf.2.1 x.rf.2.2).map (fun r => [front2 ++ l :: r :: tail1 x.ending])

/-- soynlp/lemmatizer/_conjugation.py:100-106 -/
def ruleReu (x : Ctx) : PyM (List Str) :=
  if x.last = '르' ∧ x.front.getLast? ≠ some '푸' ∧ (x.rFirst = '아' ∨ x.rFirst = '어') then
    match x.front.getLast? with
    | some c => ruleReuBody x x.front.dropLast c
    | none => .ok []
  else .ok []

/-- soynlp/lemmatizer/_conjugation.py:116-125 (lines 118-121 cannot apply: `r_first_` is 어 or 아) -/
def bVowel (x : Ctx) : Char :=
  if x.stem.length ≥ 2 ∧ (x.last = '답' ∨ x.last = '곱' ∨ x.last = '깝' ∨ x.last = '롭') then 'ㅝ'
  else if x.rf.2.1 = 'ㅗ' then 'ㅘ'
  else if x.rf.2.1 = 'ㅜ' then 'ㅝ'
  else if x.rFirst = '어' then 'ㅝ'
  else 'ㅘ'

/-- soynlp/lemmatizer/_conjugation.py:115-133, with `l` = front + open last syllable `lc` -/
def ruleBBody (x : Ctx) (lc : Char) : PyM (List Str) :=
  if x.rFirst = '어' ∨ x.rFirst = '아' then
    (compose 'ㅇ' (bVowel x) x.rf.2.2).map (fun r => [x.front ++ lc :: r :: tail1 x.ending])
  else if x.rf.1 = 'ㅇ' then .ok [x.front ++ lc :: x.ending]
  else .ok []

/-- soynlp/lemmatizer/_conjugation.py:113-135 -/
def ruleB (x : Ctx) : PyM (List Str) :=
  if x.ll.2.2 = 'ㅂ' then
    match compose x.ll.1 x.ll.2.1 ' ' with
    | .error e => .error e
    | .ok lc => ruleBBody x lc
  else .ok []

/-- soynlp/lemmatizer/_conjugation.py:139-145 (line 144 cannot apply) -/
def ruleJong (x : Ctx) : PyM (List Str) :=
  if x.rf.2.1 = ' ' ∧ (x.rf.1 = 'ㄴ' ∨ x.rf.1 = 'ㄹ' ∨ x.rf.1 = 'ㅁ' ∨ x.rf.1 = 'ㅂ' ∨ x.rf.1 = 'ㅆ') then
    (compose x.ll.1 x.ll.2.1 x.rf.1).map (fun c => [x.front ++ c :: tail1 x.ending])
  else .ok []

/-- soynlp/lemmatizer/_conjugation.py:151-157 -/
def ruleS (x : Ctx) : PyM (List Str) :=
  if x.ll.2.2 = 'ㅅ' ∧ x.rf.1 = 'ㅇ' then
    if x.last = '벗' then .ok [x.stem ++ x.ending]
    else (compose x.ll.1 x.ll.2.1 ' ').map (fun c => [x.front ++ c :: x.ending])
  else .ok []

/-- soynlp/lemmatizer/_conjugation.py:162-169 -/
def ruleU (x : Ctx) : PyM (List Str) :=
  if x.ll.2.1 = 'ㅜ' ∧ x.ll.2.2 = ' ' ∧ x.rf.1 = 'ㅇ' ∧ x.rf.2.1 = 'ㅓ' then
    if x.last = '푸' then .ok [x.front ++ '퍼' :: tail1 x.ending]
    else (compose x.ll.1 'ㅝ' x.rf.2.2).map (fun c => [x.front ++ c :: tail1 x.ending])
  else .ok []

/-- soynlp/lemmatizer/_conjugation.py:174-178 -/
def ruleO (x : Ctx) : PyM (List Str) :=
  if x.ll.2.1 = 'ㅗ' ∧ x.ll.2.2 = ' ' ∧ x.rf.1 = 'ㅇ' ∧ x.rf.2.1 = 'ㅏ' then
    (compose x.ll.1 'ㅘ' x.rf.2.2).map (fun c => [x.front ++ c :: tail1 x.ending])
  else .ok []

/-- soynlp/lemmatizer/_conjugation.py:183-191 -/
def ruleEu (x : Ctx) : PyM (List Str) :=
  if x.ll.2.1 = 'ㅡ' ∧ x.ll.2.2 = ' ' ∧ x.rf.1 = 'ㅇ' then
    if x.ll.1 = 'ㅇ' ∧ x.stem.length > 1 then .ok [x.front ++ x.ending]
    else if x.ll.1 ≠ 'ㄹ' then (compose x.ll.1 x.rf.2.1 x.rf.2.2).map (fun c => [x.front ++ c :: tail1 x.ending])
    else .ok []
  else .ok []

/-- soynlp/lemmatizer/_conjugation.py:197-218 -/
def ruleRa (x : Ctx) : PyM (List Str) :=
  if x.ending.take 2 = ['어', '라'] ∨ x.ending.take 2 = ['아', '라'] then
    if x.last = '오' then .ok [x.front ++ '와' :: tail1 x.ending]
    else if x.last = '우' then .ok [x.front ++ '워' :: tail1 x.ending]
    else if x.last = '가' then .ok [x.stem ++ tail1 x.ending]
    else if x.ll.2.1 ∈ ['ㅓ', 'ㅕ', 'ㅜ', 'ㅠ'] then .ok [x.stem ++ '어' :: tail1 x.ending]
    else .ok [x.stem ++ '아' :: tail1 x.ending]
  else .ok []

/-- soynlp/lemmatizer/_conjugation.py:223-227 -/
def ruleReo (x : Ctx) : PyM (List Str) :=
  if (x.last = '르' ∧ x.front.getLast? ≠ some '구') ∧ (x.rf.1 = 'ㅇ' ∧ x.rf.2.1 = 'ㅓ') then
    (compose 'ㄹ' x.rf.2.1 x.rf.2.2).map (fun r => [x.stem ++ r :: tail1 x.ending])
  else .ok []

/-- soynlp/lemmatizer/_conjugation.py:233-242 -/
def ruleHa (x : Ctx) : PyM (List Str) :=
  if x.last = '하' ∧ x.rf.1 = 'ㅇ' ∧ (x.rf.2.1 = 'ㅏ' ∨ x.rf.2.1 = 'ㅓ') then
    match compose x.rf.1 'ㅕ' x.rf.2.2 with
    | .error e => .error e
    | .ok r => (compose 'ㅎ' 'ㅐ' x.rf.2.2).map (fun c => [x.stem ++ r :: tail1 x.ending, x.front ++ c :: tail1 x.ending])
  else .ok []

/-- soynlp/lemmatizer/_conjugation.py:248-255 -/
def ruleHDrop (x : Ctx) : PyM (List Str) :=
  if x.ll.2.2 = 'ㅎ' ∧ x.rf.2.1 ≠ ' ' then
    if x.last = '좋' ∨ x.last = '놓' then .ok [x.stem ++ x.ending]
    else (compose x.ll.1 x.ll.2.1 ' ').map (fun c => [x.front ++ c :: x.ending])
  else .ok []

/-- soynlp/lemmatizer/_conjugation.py:261-266 (`and` binds tighter than `or` on line 262) -/
def ruleHMerge (x : Ctx) : PyM (List Str) :=
  if (x.ll.2.2 = 'ㅎ' ∧ x.last ≠ '좋') ∧ ((x.rf.1 = 'ㅇ' ∧ x.rf.2.1 = 'ㅏ') ∨ x.rf.2.1 = 'ㅓ') then
    (compose x.ll.1 (if x.rf.2.1 = 'ㅏ' then 'ㅐ' else 'ㅔ') x.rf.2.2).map (fun c => [x.front ++ c :: tail1 x.ending])
  else .ok []

/-- soynlp/lemmatizer/_conjugation.py:272-274 -/
def ruleHNe (x : Ctx) : PyM (List Str) :=
  if x.ll.2.2 = 'ㅎ' ∧ x.rf.1 = 'ㄴ' ∧ x.rf.2.1 ≠ ' ' then .ok [x.stem ++ x.ending] else .ok []

/-- soynlp/lemmatizer/_conjugation.py:279-283 -/
def ruleI (x : Ctx) : PyM (List Str) :=
  if x.rFirst = '어' ∧ x.ll.2.1 = 'ㅣ' ∧ x.ll.2.2 = ' ' then
    (compose x.ll.1 'ㅕ' x.rf.2.2).map (fun c => [x.front ++ c :: tail1 x.ending, x.stem ++ x.ending])
  else .ok []

/-- soynlp/lemmatizer/_conjugation.py:287-295 -/
def ruleDefault (x : Ctx) : PyM (List Str) :=
  if x.rf.2.1 ≠ ' ' then
    if x.ll.2.2 = ' ' ∧ x.rf.1 = 'ㅇ' ∧ x.rf.2.1 = x.ll.2.1 then
      (compose x.ll.1 x.ll.2.1 x.rf.2.2).map (fun c => [x.front ++ c :: tail1 x.ending])
    else .ok [x.stem ++ x.ending]
  else .ok []

/-- soynlp/lemmatizer/_conjugation.py:84-295, the rules in the order of the code -/
def rules : List (Ctx → PyM (List Str)) :=
  [ruleDa, ruleD, ruleReu, ruleB, ruleJong, ruleS, ruleU, ruleO, ruleEu, ruleRa, ruleReo, ruleHa, ruleHDrop, ruleHMerge, ruleHNe, ruleI]

/-- the rules one after the other: all their forms, or the first exception (soynlp/lemmatizer/_conjugation.py:84-299) -/
def runRules (x : Ctx) : List (Ctx → PyM (List Str)) → PyM (List Str)
  | [] => .ok []
  | r :: rs => match r x with
    | .error e => .error e
    | .ok a => match runRules x rs with
      | .error e => .error e
      | .ok b => .ok (a ++ b)

/-- soynlp/lemmatizer/_conjugation.py:84-299 -/
def conjugateCtx (x : Ctx) : PyM (List Str) :=
  match runRules x rules with
  | .error e => .error e
  | .ok [] => ruleDefault x
  | .ok (a :: as) => .ok (a :: as)

/-- soynlp/lemmatizer/_conjugation.py:5 -/
def positive : List Char := ['ㅏ', 'ㅑ', 'ㅗ', 'ㅛ']
/-- soynlp/lemmatizer/_conjugation.py:6 -/
def negative : List Char := ['ㅓ', 'ㅕ', 'ㅜ', 'ㅠ']
/-- soynlp/lemmatizer/_conjugation.py:7 -/
def neuter : List Char := ['ㅡ', 'ㅣ']

/-- soynlp/lemmatizer/_conjugation.py:14-19 -/
def negToPos (c : Char) : Char := if c = 'ㅓ' then 'ㅏ' else if c = 'ㅕ' then 'ㅑ' else if c = 'ㅜ' then 'ㅗ' else 'ㅛ'
/-- soynlp/lemmatizer/_conjugation.py:8-13 -/
def posToNeg (c : Char) : Char := if c = 'ㅏ' then 'ㅓ' else if c = 'ㅑ' then 'ㅕ' else if c = 'ㅗ' then 'ㅜ' else 'ㅠ'

/-- `r_first[1] = v; ending = compose(*r_first) + ending[1:]` (soynlp/lemmatizer/_conjugation.py:60-61) -/
def setVowel (rf : Jamo) (ending : Str) (v : Char) : PyM (Jamo × Str) :=
  (compose rf.1 v rf.2.2).map (fun c => ((rf.1, v, rf.2.2), c :: tail1 ending))

/-- soynlp/lemmatizer/_conjugation.py:58-61 -/
def harmony1 (ll : Jamo) (p : Jamo × Str) : PyM (Jamo × Str) :=
  if (ll.2.2 ≠ 'ㅂ' ∧ ll.2.1 ∈ positive) ∧ (p.1.1 = 'ㅇ' ∧ p.1.2.1 ∈ negative) then setVowel p.1 p.2 (negToPos p.1.2.1) else .ok p
/-- soynlp/lemmatizer/_conjugation.py:62-65 -/
def harmony2 (ll : Jamo) (p : Jamo × Str) : PyM (Jamo × Str) :=
  if (ll.2.2 ≠ 'ㅂ' ∧ ll.2.1 ∈ negative) ∧ (p.1.1 = 'ㅇ' ∧ p.1.2.1 ∈ positive) then setVowel p.1 p.2 (posToNeg p.1.2.1) else .ok p
/-- soynlp/lemmatizer/_conjugation.py:66-68 -/
def harmony3 (ll : Jamo) (p : Jamo × Str) : PyM (Jamo × Str) :=
  if ll.2.1 ∈ neuter ∧ p.1.2.1 ∈ positive then setVowel p.1 p.2 (posToNeg p.1.2.1) else .ok p

/-- soynlp/lemmatizer/_conjugation.py:57-68 -/
def harmony (enforce : Bool) (ll rf : Jamo) (ending : Str) : PyM (Jamo × Str) :=
  if enforce then
    match harmony1 ll (rf, ending) with
    | .error e => .error e
    | .ok p => match harmony2 ll p with
      | .error e => .error e
      | .ok p => harmony3 ll p
  else .ok (rf, ending)

/-- soynlp/lemmatizer/_conjugation.py:76 -/
def rFirstOf (rf : Jamo) (ending : Str) : PyM Char :=
  if rf.2.1 ≠ ' ' then compose rf.1 rf.2.1 ' '
  else match ending.head? with
    | some c => .ok c
    | none => .error .indexError

/-- soynlp/lemmatizer/_conjugation.py:57-76 -/
def conjugateParts (stem : Str) (last : Char) (ll rf : Jamo) (ending : Str) (enforce : Bool) : PyM (List Str) :=
  match harmony enforce ll rf ending with
  | .error e => .error e
  | .ok p => match rFirstOf p.1 p.2 with
    | .error e => .error e
    | .ok r => conjugateCtx ⟨stem, stem.dropLast, last, ll, p.2, p.1, r⟩

/-- `list(decompose(c))`: a TypeError for a character that is not Korean (soynlp/lemmatizer/_conjugation.py:51,53) -/
def decomposeList (c : Char) : PyM Jamo :=
  match decompose c with
  | .error e => .error e
  | .ok none => .error .typeError
  | .ok (some d) => .ok d

/-- soynlp/lemmatizer/_conjugation.py:46-299 -/
def conjugate (stem ending : Str) (enforce : Bool := false) : PyM (List Str) :=
  match ending with
  | [] => .error .assertion
  | e0 :: _ => match stem.getLast? with
    | none => .error .indexError
    | some last => match decomposeList last with
      | .error e => .error e
      | .ok ll => match decomposeList e0 with
        | .error e => .error e
        | .ok rf => conjugateParts stem last ll rf ending enforce

/-- soynlp/lemmatizer/_conjugation.py:34-40 -/
def chatJong (stem ending : Str) (ll rf : Jamo) : PyM (List Str) :=
  if rf.2.1 = ' ' ∧ rf.1 ≠ ' ' then (compose ll.1 ll.2.1 rf.1).map (fun c => [stem.dropLast ++ c :: tail1 ending]) else .ok []

/-- soynlp/lemmatizer/_conjugation.py:21-44 -/
def conjugateChat (stem ending : Str) (enforce : Bool := false) : PyM (List Str) :=
  match ending with
  | [] => .ok [stem]
  | e0 :: _ => match conjugate stem ending enforce with
    | .error e => .error e
    | .ok cands => match stem.getLast? with
      | none => .error .indexError
      | some last => match decomposeList last with
        | .error e => .error e
        | .ok ll => match decomposeList e0 with
          | .error e => .error e
          | .ok rf => match chatJong stem ending ll rf with
            | .error e => .error e
            | .ok more => .ok (cands ++ more)

/-! ### _lemmatizer.py -/

/-- what the rules of `lemma_candidate` look at. `rf`: the decomposed first character of `r`, `none` for the empty `r` (the code uses
    `('', '', '')`, equal to no jamo); `rFirst`: `r_first_`, a blank for the empty `r`
    (soynlp/lemmatizer/_lemmatizer.py:70-75) -/
structure LCtx where
  l : Str
  front : Str
  last : Char
  ll : Jamo
  lOpen : Char
  r : Str
  rf : Option Jamo
  rFirst : Char

/-- `r_first[0]`, soynlp/lemmatizer/_lemmatizer.py:73 (the blank stands for the empty string) -/
def rf0 (x : LCtx) : Option Char := x.rf.map (·.1)
/-- `r_first[1]`, soynlp/lemmatizer/_lemmatizer.py:73 -/
def rf1 (x : LCtx) : Option Char := x.rf.map (·.2.1)
/-- `r_first[2]`, soynlp/lemmatizer/_lemmatizer.py:73 -/
def rf2 (x : LCtx) : Option Char := x.rf.map (·.2.2)

/-- a candidate `(stem, ending)`, soynlp/lemmatizer/_lemmatizer.py:64-65 -/
abbrev Cand := List (Str × Str)

/-- soynlp/lemmatizer/_lemmatizer.py:78-80 -/
def lemD (x : LCtx) : PyM Cand :=
  if x.ll.2.2 = 'ㄹ' ∧ rf0 x = some 'ㅇ' then (compose x.ll.1 x.ll.2.1 'ㄷ').map (fun c => [(x.front ++ [c], x.r)]) else .ok []

/-- soynlp/lemmatizer/_lemmatizer.py:85-88 (`r` is not empty here) -/
def lemReu (x : LCtx) : PyM Cand :=
  if x.ll.2.2 = 'ㄹ' ∧ (x.rFirst = '러' ∨ x.rFirst = '라') then
    match x.rf with
    | none => .error .valueError
    | some rf => match compose x.ll.1 x.ll.2.1 ' ' with
      | .error e => .error e
      | .ok c => (compose 'ㅇ' rf.2.1 rf.2.2).map (fun r => [(x.front ++ [c, '르'], r :: tail1 x.r)])
  else .ok []

/-- soynlp/lemmatizer/_lemmatizer.py:95-100: `r_canon` (`r` is not empty in the first two cases) -/
def bCanon (x : LCtx) : PyM Str :=
  if x.rFirst = '워' ∨ x.rFirst = '와' then
    (compose 'ㅇ' (if x.rFirst = '와' then 'ㅏ' else 'ㅓ') ((rf2 x).getD ' ')).map (fun c => c :: tail1 x.r)
  else if (tail1 x.r).head? = some '려' then (compose 'ㅇ' 'ㅜ' ((rf2 x).getD ' ')).map (fun c => c :: tail1 x.r)
  else .ok x.r

/-- soynlp/lemmatizer/_lemmatizer.py:93-101 -/
def lemB (x : LCtx) : PyM Cand :=
  if x.ll.2.2 = ' ' then
    match compose x.ll.1 x.ll.2.1 'ㅂ' with
    | .error e => .error e
    | .ok c => (bCanon x).map (fun r => [(x.front ++ [c], r)])
  else .ok []

/-- soynlp/lemmatizer/_lemmatizer.py:108-113, one `jongsung` -/
def lemJongOne (x : LCtx) (j : Char) : PyM Cand :=
  if x.ll.2.2 = j then .ok [] else (compose x.ll.1 x.ll.2.1 j).map (fun c => [(x.front ++ [c], x.ll.2.2 :: x.r)])

/-- soynlp/lemmatizer/_lemmatizer.py:107-113 -/
def lemJong (j : Char) (x : LCtx) : PyM Cand :=
  if x.ll.2.2 = 'ㄴ' ∨ x.ll.2.2 = 'ㄹ' ∨ x.ll.2.2 = 'ㅁ' ∨ x.ll.2.2 = 'ㅂ' ∨ x.ll.2.2 = 'ㅆ' then lemJongOne x j else .ok []

/-- soynlp/lemmatizer/_lemmatizer.py:119-121 -/
def lemS (x : LCtx) : PyM Cand :=
  if (x.ll.2.2 = ' ' ∧ x.last ≠ '벗') ∧ rf0 x = some 'ㅇ' then (compose x.ll.1 x.ll.2.1 'ㅅ').map (fun c => [(x.front ++ [c], x.r)]) else .ok []

/-- soynlp/lemmatizer/_lemmatizer.py:126-129 -/
def lemPeo (x : LCtx) : PyM Cand :=
  if x.lOpen = '퍼' then (compose 'ㅇ' x.ll.2.1 x.ll.2.2).map (fun c => [(x.front ++ ['푸'], c :: x.r)]) else .ok []

/-- a stem `front + compose(l_last[0], v, ' ')` with ending `compose('ㅇ', w, l_last[2]) + r`
    (soynlp/lemmatizer/_lemmatizer.py:134-137) -/
def lemVowel (x : LCtx) (v w : Char) : PyM Cand :=
  match compose x.ll.1 v ' ' with
  | .error e => .error e
  | .ok c => (compose 'ㅇ' w x.ll.2.2).map (fun r => [(x.front ++ [c], r :: x.r)])

/-- soynlp/lemmatizer/_lemmatizer.py:134-137 -/
def lemU (x : LCtx) : PyM Cand := if x.ll.2.1 = 'ㅝ' then lemVowel x 'ㅜ' 'ㅓ' else .ok []
/-- soynlp/lemmatizer/_lemmatizer.py:142-145 -/
def lemO (x : LCtx) : PyM Cand := if x.ll.2.1 = 'ㅘ' then lemVowel x 'ㅗ' 'ㅏ' else .ok []
/-- soynlp/lemmatizer/_lemmatizer.py:150-153 -/
def lemEu (x : LCtx) : PyM Cand := if x.ll.2.1 = 'ㅓ' ∨ x.ll.2.1 = 'ㅏ' then lemVowel x 'ㅡ' x.ll.2.1 else .ok []

/-- soynlp/lemmatizer/_lemmatizer.py:158-161 -/
def lemEu2 (x : LCtx) : PyM Cand :=
  if x.ll.2.2 = ' ' ∧ rf0 x = some 'ㅇ' ∧ (rf1 x = some 'ㅏ' ∨ rf1 x = some 'ㅓ') then .ok [(x.l ++ ['으'], x.r)] else .ok []

/-- soynlp/lemmatizer/_lemmatizer.py:180-183 -/
def lemHa (x : LCtx) : PyM Cand :=
  if x.ll.1 = 'ㅎ' ∧ x.ll.2.1 = 'ㅐ' then (compose 'ㅇ' 'ㅏ' x.ll.2.2).map (fun c => [(x.front ++ ['하'], c :: x.r)]) else .ok []

/-- soynlp/lemmatizer/_lemmatizer.py:188 -/
def hJong (x : LCtx) : Prop := x.ll.2.2 = ' ' ∨ x.ll.2.2 = 'ㄴ' ∨ x.ll.2.2 = 'ㄹ' ∨ x.ll.2.2 = 'ㅂ' ∨ x.ll.2.2 = 'ㅆ'
instance (x : LCtx) : Decidable (hJong x) := by unfold hJong; infer_instance

/-- soynlp/lemmatizer/_lemmatizer.py:188-193 -/
def lemHDrop (x : LCtx) : PyM Cand :=
  if hJong x ∧ (x.ll.2.1 = 'ㅏ' ∨ x.ll.2.1 = 'ㅓ') then
    (compose x.ll.1 x.ll.2.1 'ㅎ').map (fun c => [(x.front ++ [c], if x.ll.2.2 = ' ' then x.r else x.ll.2.2 :: x.r)])
  else .ok []

/-- soynlp/lemmatizer/_lemmatizer.py:200-203: the stem (`l[-2] == '그'`) -/
def hMergeStem (x : LCtx) : PyM Str :=
  if x.front.getLast? = some '그' ∧ x.ll.1 = 'ㄹ' then .ok (x.front ++ ['렇'])
  else (compose x.ll.1 (if x.ll.2.1 = 'ㅔ' then 'ㅓ' else 'ㅏ') 'ㅎ').map (fun c => x.front ++ [c])

/-- soynlp/lemmatizer/_lemmatizer.py:198-205 -/
def lemHMerge (x : LCtx) : PyM Cand :=
  if hJong x ∧ (x.ll.2.1 = 'ㅐ' ∨ x.ll.2.1 = 'ㅔ') then
    match hMergeStem x with
    | .error e => .error e
    | .ok st => (compose 'ㅇ' (if x.ll.2.1 = 'ㅔ' then 'ㅓ' else 'ㅏ') x.ll.2.2).map (fun c => [(st, c :: x.r)])
  else .ok []

/-- soynlp/lemmatizer/_lemmatizer.py:213-220 (the inner condition always holds) -/
def lemI (x : LCtx) : PyM Cand :=
  if (x.ll.2.2 = 'ㅆ' ∨ x.ll.2.2 = 'ㅅ' ∨ x.ll.2.2 = ' ') ∧ x.ll.2.1 = 'ㅕ' then lemVowel x 'ㅣ' 'ㅓ' else .ok []

/-- soynlp/lemmatizer/_lemmatizer.py:77-220, the rules in the order of the code -/
def lemRules : List (LCtx → PyM Cand) :=
  [lemD, lemReu, lemB, lemJong ' ', lemJong 'ㄹ', lemJong 'ㅂ', lemJong 'ㅎ', lemS, lemPeo, lemU, lemO, lemEu, lemEu2, lemHa, lemHDrop, lemHMerge, lemI]

/-- soynlp/lemmatizer/_lemmatizer.py:77-220, the rules one after the other: all their candidates, or the first exception -/
def runLem (x : LCtx) : List (LCtx → PyM Cand) → PyM Cand
  | [] => .ok []
  | r :: rs => match r x with
    | .error e => .error e
    | .ok a => match runLem x rs with
      | .error e => .error e
      | .ok b => .ok (a ++ b)

/-- soynlp/lemmatizer/_lemmatizer.py:73-75; a first character of `r` that is not Korean gives `None`, which cannot be indexed -/
def lemCtx (l : Str) (last : Char) (ll : Jamo) (lOpen : Char) (r : Str) : PyM LCtx :=
  match r with
  | [] => .ok ⟨l, l.dropLast, last, ll, lOpen, [], none, ' '⟩
  | r0 :: _ => match decomposeList r0 with
    | .error e => .error e
    | .ok rf => match compose rf.1 rf.2.1 ' ' with
      | .error e => .error e
      | .ok c => .ok ⟨l, l.dropLast, last, ll, lOpen, r, some rf, c⟩

/-- user-defined lemmas by (l, r); the built-in table of the code has strings as keys, which no (l, r) equals
    (soynlp/lemmatizer/_lemmatizer.py:10-17,224-227) -/
abbrev Predefined := Dict (Str × Str) Cand

/-- soynlp/lemmatizer/_lemmatizer.py:67-227: the candidates before the conjugation test -/
def rawCandidates (l r : Str) (pre : Predefined) : PyM Cand :=
  match l.getLast? with
  | none => .error .indexError
  | some last => match decomposeList last with
    | .error e => .error e
    | .ok ll => match compose ll.1 ll.2.1 ' ' with
      | .error e => .error e
      | .ok lOpen => match lemCtx l last ll lOpen r with
        | .error e => .error e
        | .ok x => match runLem x lemRules with
          | .error e => .error e
          | .ok c => .ok ((l, r) :: c ++ Dict.getD pre (l, r) [])

/-- soynlp/lemmatizer/_lemmatizer.py:234-241, one candidate: is it kept? -/
def keepCandidate (word : Str) (c : Str × Str) : PyM Bool :=
  match c.2 with
  | [] => .ok false
  | e0 :: _ => match decomposeList e0 with
    | .error e => .error e
    | .ok d => if d.2.2 = 'ㅎ' then .ok false
      else match conjugate c.1 c.2 with
        | .error e => .error e
        | .ok surfaces => .ok (decide (word ∈ surfaces))

/-- soynlp/lemmatizer/_lemmatizer.py:232-242 -/
def filterCandidates (word : Str) : Cand → PyM Cand
  | [] => .ok []
  | c :: cs => match keepCandidate word c with
    | .error e => .error e
    | .ok b => match filterCandidates word cs with
      | .error e => .error e
      | .ok rest => .ok (if b then c :: rest else rest)

/-- soynlp/lemmatizer/_lemmatizer.py:63-242 -/
def lemmaCandidate (l r : Str) (pre : Predefined := []) : PyM Cand :=
  match rawCandidates l r pre with
  | .error e => .error e
  | .ok cs => filterCandidates (l ++ r) cs

/-- soynlp/lemmatizer/_lemmatizer.py:7-17: known stems and endings (membership tests of the caller's containers) -/
structure Lemmatizer where
  stems : Str → Bool
  endings : Str → Bool
  predefined : Predefined := []

/-- soynlp/lemmatizer/_lemmatizer.py:23-28 -/
def lemmatizeAt (z : Lemmatizer) (checkOnlyStem : Bool) (word : Str) (i : Nat) : PyM Cand :=
  (lemmaCandidate (word.take i) (word.drop i) z.predefined).map
    (fun cs => cs.filter (fun c => z.stems c.1 && (checkOnlyStem || z.endings c.2)))

/-- soynlp/lemmatizer/_lemmatizer.py:19-29 -/
def lemmatize (z : Lemmatizer) (word : Str) (checkOnlyStem : Bool := false) : PyM Cand :=
  ((List.range' 1 word.length).mapM (lemmatizeAt z checkOnlyStem word)).map List.flatten

/-- soynlp/lemmatizer/_lemmatizer.py:46-47 -/
def isEmoticonJamo (c : Char) : Bool := decide (c ∈ ['ㄷ', 'ㅂ', 'ㅅ', 'ㅇ', 'ㅋ', 'ㅎ'])

/-- soynlp/lemmatizer/_lemmatizer.py:55-59 -/
def chatExtra (l r : Str) (last : Jamo) (pre : Predefined) : PyM Cand :=
  if r = [] ∧ isEmoticonJamo last.2.2 = true then
    match compose last.1 last.2.1 ' ' with
    | .error e => .error e
    | .ok c => lemmaCandidate (l.dropLast ++ [c]) r pre
  else .ok []

/-- soynlp/lemmatizer/_lemmatizer.py:42-61 -/
def lemmaCandidateChat (l r : Str) (pre : Predefined := []) : PyM Cand :=
  match lemmaCandidate l r pre with
  | .error e => .error e
  | .ok cs => match l.getLast? with
    | none => .error .indexError
    | some last => match decomposeList last with
      | .error e => .error e
      | .ok d => match chatExtra l r d pre with
        | .error e => .error e
        | .ok more => .ok (cs ++ more)

end Lemma
