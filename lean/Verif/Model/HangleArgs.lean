import Verif.Model.Conjugation
/-!
The functions of soynlp/hangle/_hangle.py as called with an arbitrary Python object, and the two entry points of
the lemmatizer as called with any word (soynlp/lemmatizer/_lemmatizer.py:31-37).
-/
namespace Hangle
open Py

/-- (soynlp/hangle/_hangle.py:106-116) a Python object as far as `to_base` and `list.index` look at it: a `str`, an `int`, or anything else (including instances of
    subclasses, for which `type(c) == str` is false; objects that claim to be equal to a jamo are left out) -/
inductive Arg where
  | str (s : Str)
  | int (n : Int)
  | other
deriving DecidableEq, Repr

/-- `ord` on the two types that `to_base` lets through (soynlp/hangle/_hangle.py:114): `TypeError` unless a string of length 1.
    In particular `ord` of an `int` raises. -/
def ordArg : Arg → PyM Nat
  | .str [c] => .ok c.toNat
  | _ => .error .typeError

/-- soynlp/hangle/_hangle.py:106-116, the branch of Python 3 -/
def toBase (a : Arg) : PyM Nat :=
  match a with
  | .str _ => ordArg a
  | .int _ => ordArg a
  | .other => .error .typeError

/-- soynlp/hangle/_hangle.py:93-95 -/
def argIsKorean (a : Arg) : PyM Bool :=
  (toBase a).map (fun i => (korBegin ≤ i && i ≤ korEnd) || (jaumBegin ≤ i && i ≤ jaumEnd) || (moumBegin ≤ i && i ≤ moumEnd))

/-- soynlp/hangle/_hangle.py:97-98 -/
def argIsComplete (a : Arg) : PyM Bool := (toBase a).map (fun i => korBegin ≤ i && i ≤ korEnd)

/-- soynlp/hangle/_hangle.py:100-101 -/
def argIsJaum (a : Arg) : PyM Bool := (toBase a).map (fun i => jaumBegin ≤ i && i ≤ jaumEnd)

/-- soynlp/hangle/_hangle.py:103-104 -/
def argIsMoum (a : Arg) : PyM Bool := (toBase a).map (fun i => moumBegin ≤ i && i ≤ moumEnd)

/-- soynlp/hangle/_hangle.py:118-120 -/
def argIsNumber (a : Arg) : PyM Bool := (toBase a).map (fun i => i ≥ 48 && i ≤ 57)

/-- soynlp/hangle/_hangle.py:122-124 -/
def argIsEnglish (a : Arg) : PyM Bool := (toBase a).map (fun i => (i ≥ 97 && i ≤ 122) || (i ≥ 65 && i ≤ 90))

/-- soynlp/hangle/_hangle.py:126-128 -/
def argIsPunctuation (a : Arg) : PyM Bool :=
  (toBase a).map (fun i => i == 33 || i == 34 || i == 39 || i == 44 || i == 46 || i == 63 || i == 96)

/-- soynlp/hangle/_hangle.py:79-91. The jamo of the result are one-character strings, or the argument itself. -/
def argDecompose (a : Arg) : PyM (Option (Arg × Arg × Arg)) :=
  match argIsKorean a with
  | .error e => .error e
  | .ok false => .ok none
  | .ok true =>
    match toBase a with
    | .error e => .error e
    | .ok i =>
      if jaumBegin ≤ i && i ≤ jaumEnd then .ok (some (a, .str [' '], .str [' ']))
      else if moumBegin ≤ i && i ≤ moumEnd then .ok (some (.str [' '], a, .str [' ']))
      else
        let i := i - korBegin
        let cho := i / chosungBase
        let jung := (i - cho * chosungBase) / jungsungBase
        let jong := i - cho * chosungBase - jung * jungsungBase
        match getItem chosungList cho, getItem jungsungList jung, getItem jongsungList jong with
        | .ok x, .ok y, .ok z => .ok (some (.str [x], .str [y], .str [z]))
        | _, _, _ => .error .indexError

/-- `chosung_list.index(a)` and its like (soynlp/hangle/_hangle.py:77): the lists hold one-character strings -/
def argIndex (l : List Char) (a : Arg) : PyM Nat := index (l.map (fun c => Arg.str [c])) a

/-- soynlp/hangle/_hangle.py:76-77 -/
def argCompose (cho jung jong : Arg) : PyM Char :=
  match argIndex chosungList cho with
  | .error e => .error e
  | .ok a =>
    match argIndex jungsungList jung with
    | .error e => .error e
    | .ok b =>
      match argIndex jongsungList jong with
      | .error e => .error e
      | .ok c => chr (korBegin + chosungBase * a + jungsungBase * b + c)

end Hangle

namespace Lemma
open Py

/-- soynlp/lemmatizer/_lemmatizer.py:31-37: `self.lemma_candidate` is looked up at every split and does not exist -/
def candidatesOf (_z : Lemmatizer) (word : Str) : PyM Cand :=
  ((List.range' 1 word.length).mapM (fun _ => (.error .attributeError : PyM Cand))).map List.flatten

end Lemma
