import Verif.Py.Dict
import Verif.Py.Nested
import Verif.Py.File
/-!
Model of `EojeolPatternTrainer` (soynlp/tokenizer/_tokenizer_builder.py): training, saving and loading. Sets are lists of
which only membership counts. The text of progress messages is not modelled, but the arithmetic in them is, since it raises. `train_hits`
(soynlp/tokenizer/_tokenizer_builder.py:161-205) is modelled in `Hits`.
-/
namespace EP
open Py Nested

/-- soynlp/tokenizer/_tokenizer_builder.py:10-18 -/
structure State where
  maxLeft : Int := 10
  maxRight : Int := 6
  minFrequency : Int := 10
  verbose : Bool := true
  lrgraph : Option (Nested Str) := none
  rlgraph : Option (Nested Str) := none
  wordsetL : Option (List Str) := none
  wordsetR : Option (List Str) := none

/-- `range(1, n)` (soynlp/tokenizer/_tokenizer_builder.py:46,48,76) -/
def fromOne (n : Int) : List Nat := (List.range (n - 1).toNat).map (· + 1)

/-- the loop variable after `for i in range(1, n)`: the last value, or what it was (soynlp/tokenizer/_tokenizer_builder.py:46,48,76,
    where the inner loops reuse the `i` of the outer one) -/
def indexAfter (n : Int) (i : Int) : Int := ((fromOne n).getLast?.map (fun k : Nat => (k : Int))).getD i

/-- the number of beginnings of a token that are looked at, soynlp/tokenizer/_tokenizer_builder.py:46,76 -/
def leftEnd (s : State) (t : Str) : Int := min s.maxLeft t.length + 1

/-- the same for ends, soynlp/tokenizer/_tokenizer_builder.py:48 -/
def rightEnd (s : State) (t : Str) : Int := min s.maxRight t.length

/-- soynlp/tokenizer/_tokenizer_builder.py:42-44: blanks only, not other whitespace -/
def scanTokens (sent : Str) : List Str := (splitOn ' ' sent).filter (fun t => !t.isEmpty)

/-- soynlp/tokenizer/_tokenizer_builder.py:46-47 -/
def countLefts (s : State) (d : Dict Str Nat) (t : Str) : Dict Str Nat := (fromOne (leftEnd s t)).foldl (fun d i => Dict.add d (t.take i) 1) d

/-- soynlp/tokenizer/_tokenizer_builder.py:48-49 -/
def countRights (s : State) (d : Dict Str Nat) (t : Str) : Dict Str Nat :=
  (fromOne (rightEnd s t)).foldl (fun d i => Dict.add d (t.drop (t.length - i)) 1) d

/-- soynlp/tokenizer/_tokenizer_builder.py:50-52,85-87: `i % _ckpt`, then a division by `n`; formatting raises nothing -/
def progress (s : State) (ckpt : Nat) (i : Int) (n : Nat) : PyM Unit :=
  if s.verbose = false then .ok ()
  else if ckpt = 0 then .error .zeroDivision
  else if i % ckpt = 0 ∧ n = 0 then .error .zeroDivision
  else .ok ()

/-- soynlp/tokenizer/_tokenizer_builder.py:41-52, with `i` the index of the next sentence; `len(sent)` in the message is a slip
    for `len(sents)` -/
def scanGo (s : State) (ckpt : Nat) (i : Nat) (l r : Dict Str Nat) : List Str → PyM (Dict Str Nat × Dict Str Nat)
  | [] => .ok (l, r)
  | sent :: sents =>
    let ts := scanTokens sent
    let last := ts.foldl (fun j t => indexAfter (rightEnd s t) (indexAfter (leftEnd s t) j)) (i : Int)
    match progress s ckpt last sent.length with
    | .error e => .error e
    | .ok _ => scanGo s ckpt (i + 1) (ts.foldl (countLefts s) l) (ts.foldl (countRights s) r) sents

/-- soynlp/tokenizer/_tokenizer_builder.py:54-55 -/
def frequent (s : State) (d : Dict Str Nat) : List Str := (d.filter (fun e => decide (s.minFrequency ≤ (e.2 : Int)))).map (·.1)

/-- soynlp/tokenizer/_tokenizer_builder.py:26-60 -/
def scanVocabulary (s : State) (sents : List Str) : PyM (List Str × List Str) :=
  match scanGo s (sents.length / 40) 0 [] [] sents with
  | .error e => .error e
  | .ok (l, r) => .ok (frequent s l, frequent s r)

/-- soynlp/tokenizer/_tokenizer_builder.py:76-82 for one token -/
def addToken (s : State) (wl wr : List Str) (g : Nested Str × Nested Str) (t : Str) : Nested Str × Nested Str :=
  (fromOne (leftEnd s t)).foldl (fun g i =>
    if t.take i ∉ wl ∨ t.drop i ∉ wr then g else (nadd g.1 (t.take i) (t.drop i) 1, nadd g.2 (t.drop i) (t.take i) 1)) g

/-- soynlp/tokenizer/_tokenizer_builder.py:70-87: here any whitespace separates; `total` is `len(sents)` -/
def buildGo (s : State) (wl wr : List Str) (total : Nat) (i : Nat) (g : Nested Str × Nested Str) : List Str → PyM (Nested Str × Nested Str)
  | [] => .ok g
  | sent :: sents =>
    let ts := splitWs sent
    let last := ts.foldl (fun j t => indexAfter (leftEnd s t) j) (i : Int)
    match progress s (total / 40) last total with
    | .error e => .error e
    | .ok _ => buildGo s wl wr total (i + 1) (ts.foldl (addToken s wl wr) g) sents

/-- soynlp/tokenizer/_tokenizer_builder.py:20-23,62-66,88-91: missing or empty word sets are computed, both of them; `''` is added to the right one,
    which is the caller's own set when it was given (what is added to it is `wordsetR`) -/
def train (s : State) (sents : List Str) (wl wr : List Str := []) : State × PyM Unit :=
  match (if wl = [] ∨ wr = [] then scanVocabulary s sents else .ok (wl, wr)) with
  | .error e => (s, .error e)
  | .ok (wl, wr) =>
    let s := { s with wordsetL := some wl, wordsetR := some (wr ++ [[]]) }
    match buildGo s wl (wr ++ [[]]) sents.length 0 ([], []) sents with
    | .error e => (s, .error e)
    | .ok g => ({ s with lrgraph := some g.1, rlgraph := some g.2 }, .ok ())

/-- soynlp/tokenizer/_tokenizer_builder.py:99,104: `'  - %s: %d\n'` -/
def itemRow (e : Str × Int) : Str := "  - ".toList ++ e.1 ++ ": ".toList ++ intStr e.2

/-- soynlp/tokenizer/_tokenizer_builder.py:97,102: `'> %s (%d)\n'` -/
def headRow (e : Str × Dict Str Int) : Str := "> ".toList ++ e.1 ++ " (".toList ++ intStr (Dict.sumI e.2) ++ ")".toList

/-- soynlp/tokenizer/_tokenizer_builder.py:96-99,101-104 -/
def graphRows (g : Nested Str) : List Str :=
  g.flatMap (fun e => headRow e :: (sorted (fun x y : Str × Int => decide (y.2 ≤ x.2)) e.2).map itemRow)

/-- soynlp/tokenizer/_tokenizer_builder.py:95 -/
def paramRow (s : State) : Str :=
  intStr s.maxLeft ++ ' ' :: intStr s.maxRight ++ ' ' :: intStr s.minFrequency ++ ' ' :: (if s.verbose then ['1'] else ['0'])

/-- the rows as written, soynlp/tokenizer/_tokenizer_builder.py:94-104 -/
def written (rows : List Str) : Str := rows.flatMap (fun r => r ++ ['\n'])

/-- soynlp/tokenizer/_tokenizer_builder.py:93-105: the content of the file, and whether the call raises (a graph that is `None` has no `items`) -/
def save (s : State) : Str × PyM Unit :=
  match s.lrgraph with
  | none => (written [paramRow s, "# lrgraph".toList], .error .attributeError)
  | some lr => match s.rlgraph with
    | none => (written ([paramRow s, "# lrgraph".toList] ++ graphRows lr ++ [[], "# rlgraph".toList]), .error .attributeError)
    | some rl => (written ([paramRow s, "# lrgraph".toList] ++ graphRows lr ++ [[], "# rlgraph".toList] ++ graphRows rl), .ok ())

/-- worker of `splitColon`: the pieces of `s`, the first one beginning with `cur` (soynlp/tokenizer/_tokenizer_builder.py:134,146) -/
def splitColonGo (cur : Str) : Str → List Str
  | a :: b :: s => if a = ':' ∧ b = ' ' then cur :: splitColonGo [] s else splitColonGo (cur ++ [a]) (b :: s)
  | s => [cur ++ s]

/-- `row.split(': ')` (soynlp/tokenizer/_tokenizer_builder.py:134,146) -/
def splitColon (s : Str) : List Str := splitColonGo [] s

/-- `row[2:row.rindex('(')].strip()` (soynlp/tokenizer/_tokenizer_builder.py:131,143), for a row that begins with `> ` -/
def headKey (row : Str) : PyM Str :=
  if '(' ∈ row then .ok (strip (((row.reverse.dropWhile (· ≠ '(')).drop 1).reverse.drop 2)) else .error .valueError

/-- soynlp/tokenizer/_tokenizer_builder.py:130-136,142-148: one row, without its newline, that is neither empty nor the separator. A row of
    an item before any head would be filed under the key `None`; the model files it under `''` (no file written by `save` has one) -/
def loadRow (g : Nested Str) (key : Str) (line : Str) : PyM (Nested Str × Str) :=
  if line.take 2 = "> ".toList then (headKey line).map (fun k => (g, k))
  else if line.take 4 = "  - ".toList then
    match splitColon (line.drop 4) with
    | [k, n] => (parseInt n).map (fun n => (Dict.set g key (Dict.set (row g key) k n), key))
    | _ => .error .valueError
  else .ok (g, key)

/-- soynlp/tokenizer/_tokenizer_builder.py:125-136: until the separator; what is left of the file is returned too -/
def loadLeft (g : Nested Str) (key : Str) : List Str → PyM (Nested Str × Str × List Str)
  | [] => .ok (g, key, [])
  | line :: lines =>
    let row := line.dropLast
    if row = [] then loadLeft g key lines
    else if row = "# rlgraph".toList then .ok (g, key, lines)
    else match loadRow g key row with
      | .error e => .error e
      | .ok (g, key) => loadLeft g key lines

/-- soynlp/tokenizer/_tokenizer_builder.py:139-148 -/
def loadRight (g : Nested Str) (key : Str) : List Str → PyM (Nested Str)
  | [] => .ok g
  | line :: lines =>
    let row := line.dropLast
    if row = [] then loadRight g key lines
    else match loadRow g key row with
      | .error e => .error e
      | .ok (g, key) => loadRight g key lines

/-- soynlp/tokenizer/_tokenizer_builder.py:107-159. Line 118 compares `verbose` instead of setting it. Whatever goes wrong with the first row is reported
    as `ValueError`; a missing row is a `StopIteration` of `next`. -/
def load (s : State) (text : Str) : State × PyM Unit :=
  match fileLines text with
  | [] => (s, .error .stopIteration)
  | first :: lines => match (splitWs (strip first)).mapM parseInt with
    | .ok [a, b, c, _] =>
      let s := { s with maxLeft := a, maxRight := b, minFrequency := c }
      match lines with
      | [] => (s, .error .stopIteration)
      | second :: lines =>
        if strip second ≠ "# lrgraph".toList then (s, .error .valueError)
        else match loadLeft [] [] lines with
          | .error e => (s, .error e)
          | .ok (lr, key, lines) =>
            let s := { s with wordsetL := some (Dict.keys lr) }
            match loadRight [] key lines with
            | .error e => (s, .error e)
            | .ok rl => ({ s with wordsetR := some (Dict.keys rl), lrgraph := some lr, rlgraph := some rl }, .ok ())
    | _ => (s, .error .valueError)

end EP
