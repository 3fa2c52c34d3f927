import Mathlib.Algebra.Order.Ring.Rat
import Mathlib.Data.Finset.Basic
import Mathlib.Data.Finset.Card
import Mathlib.Analysis.SpecialFunctions.Sqrt
import Verif.Py.Dict
import Verif.Model.Hangle
/-!
Model of soynlp/hangle/_distance.py. Numbers are exact rationals (reals for cosine).
-/
namespace Distance
open Py
variable {α : Type} [DecidableEq α]

/-- soynlp/hangle/_distance.py:21-25: the inner loop for one character `c1` of `s1`.
    `prev` is `previous_row[j:]`, `cur` is `current_row[j]`; the appended cells are returned. -/
def innerRow (cost : α → α → Rat) (c1 : α) : List Rat → Rat → List α → List Rat
  | p0 :: p1 :: ps, cur, c2 :: cs =>
    let v := min (min (p1 + 1) (cur + 1)) (p0 + cost c1 c2)
    v :: innerRow cost c1 (p1 :: ps) v cs
  | _, _, _ => []

/-- soynlp/hangle/_distance.py:19-26: the outer loop; `i` is the running index of `enumerate(s1)` -/
def outerRows (cost : α → α → Rat) (s2 : List α) : Nat → List Rat → List α → List Rat
  | _, prev, [] => prev
  | i, prev, c1 :: s1 =>
    let cur : Rat := (i : Rat) + 1
    outerRows cost s2 (i + 1) (cur :: innerRow cost c1 prev cur s2) s1

/-- soynlp/hangle/_distance.py:12-28 (and 34-56): the body after the swap. `previous_row[-1]` of the never
    empty row is its last element. -/
def tableDistance (cost : α → α → Rat) (s1 s2 : List α) : Rat :=
  if s2.length = 0 then (s1.length : Rat)
  else (outerRows cost s2 0 ((List.range (s2.length + 1)).map (fun n : Nat => (n : Rat))) s1).getLastD 0

/-- soynlp/hangle/_distance.py:15-16 -/
def getCost (cost : Dict (α × α) Rat) (c1 c2 : α) : Rat :=
  if c1 = c2 then 0 else Dict.getD cost (c1, c2) 1

/-- soynlp/hangle/_distance.py:7-28. The recursive call of line 10 passes no cost table, and its first argument
    is the longer one, so it does not recurse again. -/
def levenshtein (s1 s2 : List α) (cost : Dict (α × α) Rat) : Rat :=
  if s1.length < s2.length then tableDistance (getCost []) s2 s1
  else tableDistance (getCost cost) s1 s2

/-- a decomposition triple as a list, as `levenshtein` iterates it (soynlp/hangle/_distance.py:44) -/
def triple (t : Char × Char × Char) : List Char := [t.1, t.2.1, t.2.2]

/-- soynlp/hangle/_distance.py:37-44. `decompose` never raises (theorem C02), so its error branch is merged with
    `None`. -/
def getJamoCost (c1 c2 : Char) : Rat :=
  if c1 = c2 then 0
  else
    match Hangle.decompose c1, Hangle.decompose c2 with
    | .ok (some j1), .ok (some j2) => levenshtein (triple j1) (triple j2) [] / 3
    | _, _ => 1

/-- soynlp/hangle/_distance.py:30-56 -/
def jamoLevenshtein (s1 s2 : Str) : Rat :=
  if s1.length < s2.length then tableDistance getJamoCost s2 s1
  else tableDistance getJamoCost s1 s2

/-- soynlp/hangle/_distance.py:70-76 for an arbitrary `unitfy`; the division raises when both sets are empty. -/
def jaccardDistance {β : Type} [DecidableEq β] (unitfy : List α → Finset β) (s1 s2 : List α) : PyM Rat :=
  if s1 = [] ∨ s2 = [] then .ok 1
  else
    let a := unitfy s1
    let b := unitfy s2
    if (a ∪ b).card = 0 then .error .zeroDivision
    else .ok (1 - ((a ∩ b).card : Rat) / ((a ∪ b).card : Rat))

/-- soynlp/hangle/_distance.py:65-67: the running product sum over `d1.items()` -/
def dotProduct (d1 d2 : Dict α Nat) : Nat :=
  d1.foldl (fun prod e => prod + e.2 * Dict.getD d2 e.1 0) 0

/-- soynlp/hangle/_distance.py:68: `sum([f**2 for f in d.values()])` -/
def squareSum (d : Dict α Nat) : Nat := (d.map (fun e => e.2 ^ 2)).sum

/-- soynlp/hangle/_distance.py:58-68 with the default `unitfy`; floats as reals. A division 0/0 (which numpy
    answers with nan) cannot occur for non-empty strings. -/
noncomputable def cosineDistance (s1 s2 : List α) : ℝ :=
  if s1 = [] ∨ s2 = [] then 2
  else
    let d1 := Dict.counter s1
    let d2 := Dict.counter s2
    1 - (dotProduct d1 d2 : ℝ) / Real.sqrt ((squareSum d1 * squareSum d2 : Nat) : ℝ)

end Distance
