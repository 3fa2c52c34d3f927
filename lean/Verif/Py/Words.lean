import Verif.Py.Str
/-! Notation for long lists of words: `words! "가 나다"` is `[['가'], ['나', '다']]`, `rows! "가 3 나다 1"` is `[(['가'], 3), (['나', '다'], 1)]`. Both are
expanded while parsing, so that nothing has to be decoded by the kernel. -/
namespace Py
open Lean

/-- the word as a list of character literals -/
def charsSyntax (w : String) : MacroM (TSyntax `term) := do
  let cs : Array (TSyntax `term) := w.toList.toArray.map (fun c => Syntax.mkCharLit c)
  `(([$cs,*] : List Char))

macro "words! " s:str : term => do
  let ts ← (s.getString.splitOn " ").toArray.mapM charsSyntax
  `([$ts,*])

/-- pairs of a word and a number -/
def rowsSyntax : List String → MacroM (List (TSyntax `term))
  | w :: n :: r => do
    let t ← charsSyntax w
    let k : TSyntax `term := Syntax.mkNumLit n
    let p ← `(($t, $k))
    return p :: (← rowsSyntax r)
  | _ => return []

macro "rows! " s:str : term => do
  let ts := (← rowsSyntax (s.getString.splitOn " ")).toArray
  `([$ts,*])

example : words! "가 나다" = [['가'], ['나', '다']] := rfl
example : rows! "가 3 나다 1" = [(['가'], 3), (['나', '다'], 1)] := rfl
end Py
