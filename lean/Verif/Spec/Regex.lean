import Verif.Py.Basic
/-!
Regular expressions as Python's `re` reads them: a parser for the part of the pattern syntax that occurs in soynlp, and the backtracking
semantics (all ways to match at a position, in the order in which the engine tries them; the first one is the match). Nothing here refers
to the model of the program.
-/
namespace Regex
open Py

/-- an item of a character class -/
inductive Item where
  | range (lo hi : Char)
  | word
  | digit
  | space
  deriving DecidableEq

/-- a pattern: `set` is a character class (`neg` for `[^…]`), `group` the capturing group, `ref` the back reference `\1` -/
inductive Re where
  | eps
  | set (neg : Bool) (items : List Item)
  | seq (a b : Re)
  | alt (a b : Re)
  | star (a : Re)
  | group (a : Re)
  | ref
  deriving DecidableEq

/-! ### reading a pattern -/

/-- a single character as an item -/
abbrev Item.lit (c : Char) : Item := .range c c

/-- what `\c` stands for; an escaped punctuation character is itself -/
def escape (c : Char) : Item := if c = 'w' then .word else if c = 'd' then .digit else if c = 's' then .space else .lit c

/-- the items of a class up to the closing bracket, with what follows it. A hyphen between two characters makes a range; `[` has no
    meaning inside a class. -/
def parseItems : Nat → List Char → Option (List Item × List Char)
  | 0, _ => none
  | _, [] => none
  | fuel + 1, c :: cs =>
    if c = ']' then some ([], cs)
    else if c = '\\' then
      match cs with
      | [] => none
      | e :: cs => (parseItems fuel cs).map (fun r => (escape e :: r.1, r.2))
    else match cs with
      | '-' :: d :: cs' =>
        if d = ']' ∨ d = '\\' then (parseItems fuel cs).map (fun r => (.lit c :: r.1, r.2))
        else (parseItems fuel cs').map (fun r => (.range c d :: r.1, r.2))
      | _ => (parseItems fuel cs).map (fun r => (.lit c :: r.1, r.2))

/-- a class after its opening bracket; a `]` in first place would be literal, which does not occur -/
def parseClass (fuel : Nat) : List Char → Option (Re × List Char)
  | '^' :: cs => (parseItems fuel cs).map (fun r => (.set true r.1, r.2))
  | cs => (parseItems fuel cs).map (fun r => (.set false r.1, r.2))

/-- `n` copies of `a` and then `b` -/
def copies : Nat → Re → Re → Re
  | 0, _, b => b
  | n + 1, a, b => .seq a (copies n a b)

/-- a quantifier behind the atom `a`: `?`, `*`, `+` and `{n,}` with a one-digit `n`, all greedy -/
def parseQuant (a : Re) : List Char → Re × List Char
  | '?' :: cs => (.alt a .eps, cs)
  | '*' :: cs => (.star a, cs)
  | '+' :: cs => (.seq a (.star a), cs)
  | '{' :: d :: ',' :: '}' :: cs => (copies (d.toNat - '0'.toNat) a (.star a), cs)
  | cs => (a, cs)

mutual
/-- alternatives, up to the end or a closing parenthesis -/
def parseAlt : Nat → List Char → Option (Re × List Char)
  | 0, _ => none
  | fuel + 1, cs =>
    match parseSeq fuel cs with
    | none => none
    | some (a, '|' :: cs) => (parseAlt fuel cs).map (fun r => (.alt a r.1, r.2))
    | some (a, cs) => some (a, cs)
/-- a sequence of atoms with their quantifiers -/
def parseSeq : Nat → List Char → Option (Re × List Char)
  | 0, _ => none
  | _ + 1, [] => some (.eps, [])
  | fuel + 1, c :: cs =>
    if c = '|' ∨ c = ')' then some (.eps, c :: cs)
    else
      let atom : Option (Re × List Char) :=
        if c = '(' then
          match parseAlt fuel cs with
          | some (a, ')' :: cs) => some (.group a, cs)
          | _ => none
        else if c = '[' then parseClass fuel cs
        else if c = '\\' then
          match cs with
          | '1' :: cs => some (.ref, cs)
          | e :: cs => some (.set false [escape e], cs)
          | [] => none
        else some (.set false [.lit c], cs)
      match atom with
      | none => none
      | some (a, cs) =>
        let q := parseQuant a cs
        (parseSeq fuel q.2).map (fun r => (if r.1 = .eps then q.1 else .seq q.1 r.1, r.2))
end

/-- the pattern a string denotes; the whole string must be read -/
def parse (p : String) : Option Re :=
  match parseAlt (3 * p.toList.length + 3) p.toList with
  | some (r, []) => some r
  | _ => none

/-! ### matching -/

section
-- the engine's `\w` and `\d`
variable (isWord isDigit : Char → Bool)

def Item.has (c : Char) : Item → Bool
  | .range lo hi => decide (lo.toNat ≤ c.toNat) && decide (c.toNat ≤ hi.toNat)
  | .word => isWord c
  | .digit => isDigit c
  | .space => isSpace c

/-- what the group has captured, and what is left of the text -/
abbrev Pos := Option Str × Str

/-- `a*`, greedy: another `a` that consumes something, before stopping here -/
def starM (m : Pos → List Pos) : Nat → Pos → List Pos
  | 0, x => [x]
  | n + 1, x => ((m x).filter (fun y => decide (y.2.length < x.2.length))).flatMap (starM m n) ++ [x]

/-- every way to match at a position, in the order of the engine -/
def run : Re → Pos → List Pos
  | .eps, x => [x]
  | .set neg items, x =>
    match x.2 with
    | [] => []
    | c :: cs => if (items.any (Item.has isWord isDigit c)) != neg then [(x.1, cs)] else []
  | .seq a b, x => (run a x).flatMap (run b)
  | .alt a b, x => run a x ++ run b x
  | .star a, x => starM (run a) x.2.length x
  | .group a, x => (run a x).map (fun y => (some (x.2.take (x.2.length - y.2.length)), y.2))
  | .ref, x =>
    match x.1 with
    | none => []
    | some u => if u.isPrefixOf x.2 then [(x.1, x.2.drop u.length)] else []

/-- the match at the start of `s`, if there is one -/
def first (r : Re) (s : Str) : Option Pos := (run isWord isDigit r (none, s)).head?

/-- reading a text from the left: a character at which there is no match, or a match -/
inductive Piece where
  | char (c : Char)
  | hit (captured : Option Str) (text : Str)
  deriving DecidableEq

/-- the matches found from left to right without overlap, and the characters between them. (No pattern of soynlp matches the empty
    string; such a match would be skipped here.) -/
def pieces (r : Re) : Nat → Str → List Piece
  | 0, _ => []
  | _, [] => []
  | n + 1, c :: cs =>
    match first isWord isDigit r (c :: cs) with
    | some y => if y.2.length ≤ cs.length then .hit y.1 ((c :: cs).take (cs.length + 1 - y.2.length)) :: pieces r n y.2 else .char c :: pieces r n cs
    | none => .char c :: pieces r n cs

/-- `re.findall`, for a pattern without groups -/
def findall (r : Re) (s : Str) : List Str :=
  (pieces isWord isDigit r s.length s).filterMap (fun p => match p with | .hit _ t => some t | .char _ => none)

/-- `re.sub` with a constant replacement `t` -/
def subConst (r : Re) (t : Str) (s : Str) : Str :=
  (pieces isWord isDigit r s.length s).flatMap (fun p => match p with | .hit _ _ => t | .char c => [c])

/-- `re.sub` with the replacement `'\\1' * n` -/
def subGroup (r : Re) (n : Nat) (s : Str) : Str :=
  (pieces isWord isDigit r s.length s).flatMap (fun p => match p with | .hit u _ => (List.replicate n (u.getD [])).flatten | .char c => [c])

/-- `[m.span()[1] for m in re.finditer(…)]`: where the matches end -/
def ends (r : Re) (s : Str) : List Nat :=
  ((pieces isWord isDigit r s.length s).foldl (fun a p => match p with
    | .hit _ t => (a.1 + t.length, a.2 ++ [a.1 + t.length])
    | .char _ => (a.1 + 1, a.2)) (0, [])).2

/-- a text read piece by piece, `cur` being the stretch of unmatched characters under way: every match is a part, and so is every
    stretch of characters between two matches -/
def glue (cur : Str) : List Piece → List Str
  | [] => if cur = [] then [] else [cur]
  | .char c :: ps => glue (cur ++ [c]) ps
  | .hit _ t :: ps => (if cur = [] then [] else [cur]) ++ t :: glue [] ps

/-- the text cut at its matches -/
def cutAt (r : Re) (s : Str) : List Str := glue [] (pieces isWord isDigit r s.length s)

/-! the operations on a pattern given as a string; `none` if the string is not in the syntax above -/

/-- `re.compile(p).findall(s)` -/
def reFindall (p : String) (s : Str) : Option (List Str) := (parse p).map (fun r => findall isWord isDigit r s)

/-- the text cut at the matches of `p` (`none` if `p` cannot be read) -/
def reCut (p : String) (s : Str) : Option (List Str) := (parse p).map (fun r => cutAt isWord isDigit r s)

/-- `re.compile(p).sub(t, s)` -/
def reSub (p : String) (t : String) (s : Str) : Option Str := (parse p).map (fun r => subConst isWord isDigit r t.toList s)

/-- `re.compile(p).sub('\\1' * n, s)` -/
def reSubGroup (p : String) (n : Nat) (s : Str) : Option Str := (parse p).map (fun r => subGroup isWord isDigit r n s)

/-- `[m.span()[1] for m in re.compile(p).finditer(s)]` -/
def reEnds (p : String) (s : Str) : Option (List Nat) := (parse p).map (fun r => ends isWord isDigit r s)
end

end Regex
