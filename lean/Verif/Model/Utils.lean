import Verif.Py.Dict
import Verif.Py.File
/-!
Model of the small helpers of soynlp/utils: `check_dirs`, `sort_by_alphabet`, `most_similar` (soynlp/utils/utils.py:25-79). Cosine distances are a parameter; so is the order `argsort` chooses among equal distances.
-/
namespace Utils
open Py

/-- `os.path.dirname` on POSIX: up to the last slash, without its trailing slashes unless there is nothing else
    (soynlp/utils/utils.py:26) -/
def dirname (path : Str) : Str :=
  let head := (path.reverse.dropWhile (· ≠ '/')).reverse
  if head.all (· = '/') then head else (head.reverse.dropWhile (· = '/')).reverse

/-- soynlp/utils/utils.py:25-29: the directory that is created, if any -/
def checkDirs (there : Str → Bool) (path : Str) : Option Str :=
  let d := dirname path
  if !d.isEmpty && d == ['.'] && !there d then some d else none

/-- soynlp/utils/utils.py:31-47: the content of the file before and after -/
def sortByAlphabet (text : Str) : Str :=
  let docs := ((fileLines text).map strip).filter (fun d => !d.isEmpty)
  (sorted strLe docs).flatMap (fun d => d ++ ['\n'])

/-- `l[i]` with Python's negative indices (soynlp/utils/utils.py:72,78) -/
def pyIndex {α : Type} (l : List α) (i : Int) : PyM α :=
  let j := if i < 0 then i + l.length else i
  if j < 0 then .error .indexError else getItem l j.toNat

/-- soynlp/utils/utils.py:49-79. `vectors` are the rows, `dist q v` the cosine distance of two of them, `argsort` an order of the indices of the distances. -/
def mostSimilar {V : Type} (dist : V → V → Rat) (argsort : List Rat → List Nat) (query : Str) (vectors : List V) (itemToIdx : Dict Str Int)
    (idxToItem : List Str) (topk : Int := 10) : PyM (List (Str × Rat)) :=
  let q := Dict.getD itemToIdx query (-1)
  if q = -1 then .ok []
  else match pyIndex vectors q with
    | .error e => .error e
    | .ok v =>
      let d := vectors.map (dist v)
      let idxs := if topk > 0 then (argsort d).take (topk + 1).toNat else argsort d
      (idxs.filter (fun i : Nat => decide ((i : Int) ≠ q))).mapM (fun i => match getItem idxToItem i with
        | .error e => .error e
        | .ok w => .ok (w, 1 - d.getD i 0))

end Utils
