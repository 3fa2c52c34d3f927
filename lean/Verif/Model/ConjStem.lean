import Verif.Model.Conjugation
/-!
Model of `_conjugate_stem` in soynlp/lemmatizer/_conjugation.py. The set of surfaces is a list of which only membership matters. Debug
printing is not modelled.
-/
namespace Lemma
open Py Hangle

/-- what the rules look at: the stem without and with its last character, and its letters
    (soynlp/lemmatizer/_conjugation.py:303-305) -/
structure SCtx where
  stem : Str
  front : Str
  last : Char
  ll : Jamo

/-- `stem[:-1] + compose(l_last[0], vowel, final)` (soynlp/lemmatizer/_conjugation.py:337 and the like) -/
def surface (x : SCtx) (vowel final : Char) : PyM Str := (compose x.ll.1 vowel final).map (fun c => x.front ++ [c])

/-- several of them, the first exception stops (soynlp/lemmatizer/_conjugation.py:335-341) -/
def surfaces (x : SCtx) : List (Char × Char) → PyM (List Str)
  | [] => .ok []
  | vf :: rest => match surface x vf.1 vf.2 with
    | .error e => .error e
    | .ok s => (surfaces x rest).map (fun ss => s :: ss)

/-- soynlp/lemmatizer/_conjugation.py:310-314 -/
def stemD (x : SCtx) : PyM (List Str) := if x.ll.2.2 = 'ㄷ' then surfaces x [(x.ll.2.1, 'ㄹ')] else .ok []

/-- soynlp/lemmatizer/_conjugation.py:318-320: `stem[-2]` must be unpackable -/
def stemReuBody (front2 : Str) (c : Char) : PyM (List Str) :=
  match decomposeList c with
  | .error e => .error e
  | .ok d => (compose d.1 d.2.1 'ㄹ').map (fun l => [front2 ++ [l]])

/-- soynlp/lemmatizer/_conjugation.py:317-322 -/
def stemReu (x : SCtx) : PyM (List Str) :=
  if x.last = '르' then
    match x.front.getLast? with
    | some c => stemReuBody x.front.dropLast c
    | none => .ok []
  else .ok []

/-- soynlp/lemmatizer/_conjugation.py:327-331 -/
def stemB (x : SCtx) : PyM (List Str) := if x.ll.2.2 = 'ㅂ' then surfaces x [(x.ll.2.1, ' ')] else .ok []

/-- soynlp/lemmatizer/_conjugation.py:335-341 -/
def stemOpen (x : SCtx) : PyM (List Str) :=
  if x.ll.2.2 = ' ' then surfaces x [(x.ll.2.1, 'ㄴ'), (x.ll.2.1, 'ㄹ'), (x.ll.2.1, 'ㅂ'), (x.ll.2.1, 'ㅆ')] else .ok []

/-- soynlp/lemmatizer/_conjugation.py:345-348 -/
def stemS (x : SCtx) : PyM (List Str) := if x.ll.2.2 = 'ㅅ' ∧ x.last ≠ '벗' then surfaces x [(x.ll.2.1, ' ')] else .ok []

/-- soynlp/lemmatizer/_conjugation.py:351-358; for 푸 the variable `l` is set and never used -/
def stemU (x : SCtx) : PyM (List Str) :=
  if x.ll.2.1 = 'ㅜ' ∧ x.ll.2.2 = ' ' then
    if x.last = '푸' then .ok [] else surfaces x [('ㅝ', ' '), ('ㅝ', 'ㅆ')]
  else .ok []

/-- soynlp/lemmatizer/_conjugation.py:361-365 -/
def stemO (x : SCtx) : PyM (List Str) := if x.ll.2.1 = 'ㅗ' ∧ x.ll.2.2 = ' ' then surfaces x [('ㅘ', ' '), ('ㅘ', 'ㅆ')] else .ok []

/-- soynlp/lemmatizer/_conjugation.py:368-374 -/
def stemEu (x : SCtx) : PyM (List Str) :=
  if x.ll.2.1 = 'ㅡ' ∧ x.ll.2.2 = ' ' then
    (surfaces x [('ㅓ', ' '), ('ㅓ', 'ㅆ')]).map (fun ss => ss ++ (if x.ll.1 = 'ㅇ' ∧ x.stem.length > 1 then [x.front] else []))
  else .ok []

/-- soynlp/lemmatizer/_conjugation.py:384-388 -/
def stemHa (x : SCtx) : PyM (List Str) := if x.last = '하' then .ok [x.front ++ ['해'], x.front ++ ['했']] else .ok []

/-- soynlp/lemmatizer/_conjugation.py:392-399 -/
def stemHDrop (x : SCtx) : PyM (List Str) :=
  if x.ll.2.2 = 'ㅎ' ∧ x.last ≠ '좋' then surfaces x [(x.ll.2.1, ' '), (x.ll.2.1, 'ㄴ'), (x.ll.2.1, 'ㄹ'), (x.ll.2.1, 'ㅆ')] else .ok []

/-- soynlp/lemmatizer/_conjugation.py:403-407 -/
def stemHMerge (x : SCtx) : PyM (List Str) := if x.ll.2.2 = 'ㅎ' ∧ x.last ≠ '좋' then surfaces x [('ㅐ', 'ㅆ')] else .ok []

/-- soynlp/lemmatizer/_conjugation.py:413-416 -/
def stemI (x : SCtx) : PyM (List Str) := if x.ll.2.1 = 'ㅣ' ∧ x.ll.2.2 = ' ' then surfaces x [('ㅕ', 'ㅆ')] else .ok []

/-- soynlp/lemmatizer/_conjugation.py:306-418, the rules in the order of the code -/
def stemRules : List (SCtx → PyM (List Str)) :=
  [stemD, stemReu, stemB, stemOpen, stemS, stemU, stemO, stemEu, stemHa, stemHDrop, stemHMerge, stemI]

/-- the rules one after the other: all their surfaces, or the first exception (soynlp/lemmatizer/_conjugation.py:306-418) -/
def runStem (x : SCtx) : List (SCtx → PyM (List Str)) → PyM (List Str)
  | [] => .ok []
  | r :: rs => match r x with
    | .error e => .error e
    | .ok a => (runStem x rs).map (fun b => a ++ b)

/-- soynlp/lemmatizer/_conjugation.py:301-418. For a last character that is not Korean `decompose` gives `None`, and `l_last[2]` raises;
    `decomposeList` gives the same TypeError. -/
def conjugateStem (stem : Str) : PyM (List Str) :=
  match stem.getLast? with
  | none => .error .indexError
  | some last => match decomposeList last with
    | .error e => .error e
    | .ok ll => (runStem ⟨stem, stem.dropLast, last, ll⟩ stemRules).map (fun ss => stem :: ss)

end Lemma
