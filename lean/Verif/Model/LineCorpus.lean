import Verif.Py.File
/-!
Model of `DoublespaceLineCorpus` in soynlp/utils/utils.py. The file is its decoded text (`Py.fileLines`); a missing file is the
subject of the last section (`constructAt`, `itemsAt`, `lenAt`); other I/O errors are not modelled.
-/
namespace Corpus
open Py

/-- worker of `splitDbl` (soynlp/utils/utils.py:137,175) -/
def splitDblGo (cur : Str) : Str → List Str
  | [] => [cur]
  | ' ' :: ' ' :: s => cur :: splitDblGo [] s
  | c :: s => splitDblGo (cur ++ [c]) s

/-- `doc.split('  ')` (soynlp/utils/utils.py:137,175) -/
def splitDbl (s : Str) : List Str := splitDblGo [] s

/-- the object: constructor arguments kept, and the fields `num_doc`, `num_sent` (soynlp/utils/utils.py:101-110) -/
structure Obj where
  text : Str
  iterSent : Bool
  skipHeader : Nat
  numDoc : Nat
  numSent : Nat
  deriving DecidableEq

/-- the lines left after the header, soynlp/utils/utils.py:125-128, 154-157 (`none`: `next(f)` ran out of lines) -/
def afterHeader (text : Str) (skip : Nat) : Option (List Str) :=
  if (fileLines text).length < skip then none else some ((fileLines text).drop skip)

/-- soynlp/utils/utils.py:134-143, the loop; `i` is `doc_idx`, `n` is `num_sent_`. -/
def checkGo (numDoc numSent : Int) : Nat → Nat → List Str → Nat × Nat
  | i, n, [] => (i, n)
  | i, n, doc :: docs =>
    if numDoc > 0 ∧ (i : Int) ≥ numDoc then (i, n)
    else
      let sents := (splitDbl doc).filter (fun sent => strip sent ≠ [])
      let n := n + sents.length
      if numSent > 0 ∧ (n : Int) > numSent then (i + 1, min numSent.toNat n)
      else checkGo numDoc numSent (i + 1) n docs

/-- soynlp/utils/utils.py:112-143; after an empty loop `doc_idx` is unbound (line 143) -/
def checkLength (text : Str) (skip : Nat) (numDoc numSent : Int) : PyM (Nat × Nat) :=
  match afterHeader text skip with
  | none => .ok (0, 0)
  | some [] => .error .unboundLocal
  | some docs => .ok (checkGo numDoc numSent 0 0 docs)

/-- soynlp/utils/utils.py:101-110 -/
def construct (text : Str) (numDoc numSent : Int) (iterSent : Bool) (skip : Nat) : PyM Obj :=
  if numDoc > 0 ∨ numSent > 0 then
    match checkLength text skip numDoc numSent with
    | .ok (d, s) => .ok ⟨text, iterSent, skip, d, s⟩
    | .error e => .error e
  else .ok ⟨text, iterSent, skip, 0, 0⟩

/-- soynlp/utils/utils.py:163-172, document mode -/
def iterDocs (numDoc : Nat) : Nat → List Str → List Str
  | _, [] => []
  | i, doc :: docs => strip doc :: (if numDoc > 0 ∧ i + 1 ≥ numDoc then [] else iterDocs numDoc (i + 1) docs)

/-- soynlp/utils/utils.py:175-182, the sentences of one document: what is yielded, the new `num_sent`, and `stop` -/
def iterPieces (lim : Nat) : Nat → List Str → List Str × Nat × Bool
  | n, [] => ([], n, false)
  | n, p :: ps =>
    if lim > 0 ∧ n ≥ lim then ([], n, true)
    else if strip p ≠ [] then
      let r := iterPieces lim (n + 1) ps
      (strip p :: r.1, r.2)
    else iterPieces lim n ps

/-- soynlp/utils/utils.py:163-182, sentence mode -/
def iterSents (lim : Nat) : Nat → List Str → List Str
  | _, [] => []
  | n, doc :: docs =>
    let r := iterPieces lim n (splitDbl doc)
    r.1 ++ (if r.2.2 then [] else iterSents lim r.2.1 docs)

/-- everything `__iter__` yields, soynlp/utils/utils.py:145-182. When the header is longer than the file the exception
    is swallowed and nothing is left to iterate. -/
def items (c : Obj) : List Str :=
  let docs := (afterHeader c.text c.skipHeader).getD []
  if c.iterSent then iterSents c.numSent 0 docs else iterDocs c.numDoc 0 docs

/-- soynlp/utils/utils.py:184-190: the length reported and the object afterwards -/
def len (c : Obj) : Int × Obj :=
  if c.numDoc = 0 then
    match checkLength c.text c.skipHeader (-1) (-1) with
    | .ok (d, s) => ((if c.iterSent then (s : Int) else (d : Int)), { c with numDoc := d, numSent := s })
    | .error _ => (-1, c)
  else ((if c.iterSent then (c.numSent : Int) else (c.numDoc : Int)), c)

/-- the constructor when the path holds `file` (`none`: nothing there), soynlp/utils/utils.py:101-110 -/
def constructAt (file : Option Str) (numDoc numSent : Int) (iterSent : Bool) (skip : Nat) : PyM Obj :=
  match file with
  | none => .error .valueError
  | some text => construct text numDoc numSent iterSent skip

/-- `__iter__` when the path now holds `file`, soynlp/utils/utils.py:145-182. A failing `open` is printed and swallowed (lines 151-152), as
    is the failure to skip the header (lines 158-159); `enumerate(f)` on line 163 then finds `f` unbound. -/
def itemsAt (file : Option Str) (c : Obj) : PyM (List Str) :=
  match file with
  | none => .error .unboundLocal
  | some text => .ok (items { c with text := text })

/-- `__len__` when the path now holds `file`, soynlp/utils/utils.py:112-143, 184-190. A failing `open` counts as 0 documents and 0
    sentences (lines 121-123). -/
def lenAt (file : Option Str) (c : Obj) : Int × Obj :=
  match file with
  | none => if c.numDoc = 0 then (0, { c with numDoc := 0, numSent := 0 })
    else ((if c.iterSent then (c.numSent : Int) else (c.numDoc : Int)), c)
  | some text => len { c with text := text }

end Corpus
