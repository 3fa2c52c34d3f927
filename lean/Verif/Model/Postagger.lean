import Verif.Py.Dict
import Verif.Py.Sort
import Mathlib.Algebra.Order.Field.Rat
/-!
Model of soynlp/postagger: `_dictionary.py`, `_template.py`, `_evaluator.py`, `_tagger.py`.

Objects handed to `Dictionary` are modelled with a heap of references, because the code keeps references to the caller's sets.
A set is represented by a list of which only membership matters (`Obj.set`); iterating a set of tags goes through a parameter `ord`.
Scores are exact rationals (the code uses floats).
-/
namespace PT
open Py

/-! ### _dictionary.py -/

/-- a container of words living on the heap (soynlp/postagger/_dictionary.py:16-18,39-55) -/
inductive Obj where
  | set (l : List Str)
  | list (l : List Str)
deriving DecidableEq, Repr

/-- the words of a container, soynlp/postagger/_dictionary.py:39-55 -/
def Obj.words : Obj → List Str
  | .set l => l
  | .list l => l

/-- `Dictionary` object together with the heap it shares with its caller (soynlp/postagger/_dictionary.py:11-19) -/
structure State where
  pos : Dict Str Nat
  heap : List Obj
  maxLength : Nat

/-- an argument `words`: a string, or a reference to a container (soynlp/postagger/_dictionary.py:69-72) -/
inductive Arg where
  | str (s : Str)
  | ref (r : Nat)

/-- the words of tag `t` (empty when the tag is unknown) (soynlp/postagger/_dictionary.py:36-37) -/
def State.wordsOf (s : State) (t : Str) : List Str :=
  match Dict.get? s.pos t with
  | some r => match s.heap[r]? with
    | some o => o.words
    | none => []
  | none => []

/-- soynlp/postagger/_dictionary.py:26-27, `max` of the lengths; `none` on an empty iterable (ValueError) -/
def maxLen : List Str → Option Nat
  | [] => none
  | w :: ws => some (ws.foldl (fun m x => max m x.length) w.length)

/-- soynlp/postagger/_dictionary.py:11-19,26-27 for a dict argument (Python 3): every value becomes a fresh set -/
def create (posDict : Dict Str (List Str)) : PyM State :=
  match maxLen (posDict.flatMap (·.2)) with
  | none => .error .valueError
  | some m => .ok ⟨posDict.zipIdx.map (fun e => (e.1.1, e.2)), posDict.map (fun e => Obj.set e.2), m⟩

/-- soynlp/postagger/_dictionary.py:29-34 -/
def State.getPos (s : State) (word : Str) : List Str :=
  (s.pos.filter (fun e => decide (word ∈ s.wordsOf e.1))).map (·.1)

/-- soynlp/postagger/_dictionary.py:36-37 -/
def State.wordIsTag (s : State) (word tag : Str) : Bool := decide (word ∈ s.wordsOf tag)

/-- soynlp/postagger/_dictionary.py:69-72: a string becomes a fresh set of its words -/
def typeCheck (s : State) : Arg → State × Nat
  | .str t => (⟨s.pos, s.heap ++ [Obj.set (splitWs t)], s.maxLength⟩, s.heap.length)
  | .ref r => (s, r)

/-- soynlp/postagger/_dictionary.py:50-55, the last step of `add_words`: `words` is the object `r` -/
def addStore (s : State) (tag : Str) (r : Nat) (ws : List Str) : State × PyM Unit :=
  match Dict.get? s.pos tag with
  | none => (⟨Dict.set s.pos tag r, s.heap, s.maxLength⟩, .ok ())
  | some d => match s.heap[d]? with
    | some (.set l) => (⟨Dict.set s.pos tag d, s.heap.set d (.set (l ++ ws)), s.maxLength⟩, .ok ())
    | _ => (s, .error .attributeError)

/-- soynlp/postagger/_dictionary.py:39-55 -/
def addWords (s : State) (tag : Str) (words : Arg) (force : Bool) : State × PyM Unit :=
  let (s, r) := typeCheck s words
  if force = false ∧ Dict.has s.pos tag = false then (s, .error .valueError)
  else
    match s.heap[r]? with
    | none => (s, .error .nameError)
    | some o =>
      match maxLen o.words with
      | none => (s, .error .valueError)
      | some m => addStore ⟨s.pos, s.heap, if s.maxLength < m then m else s.maxLength⟩ tag r o.words

/-- soynlp/postagger/_dictionary.py:65-67 -/
def removeStore (s : State) (tag : Str) (r : Nat) : State × PyM Unit :=
  match Dict.get? s.pos tag with
  | none => (s, .error .keyError)
  | some d => match s.heap[d]?, s.heap[r]? with
    | some (.set l), some (.set ws) => (⟨s.pos, s.heap.set d (.set (l.filter (fun w => decide (w ∉ ws)))), s.maxLength⟩, .ok ())
    | _, _ => (s, .error .typeError)

/-- soynlp/postagger/_dictionary.py:57-67 -/
def removeWords (s : State) (tag : Str) (words : Option Arg) : State × PyM Unit :=
  if Dict.has s.pos tag = false then (s, .error .valueError)
  else
    match words with
    | none => (⟨Dict.erase s.pos tag, s.heap, s.maxLength⟩, .ok ())
    | some a => removeStore (typeCheck s a).1 tag (typeCheck s a).2

/-- what the JSON file of soynlp/postagger/_dictionary.py:88-104 contains: `max_length` and the words of every tag. The JSON text
    itself is not modelled: a file is identified with the value it encodes. -/
structure File where
  maxLength : Nat
  posDict : Dict Str (List Str)

/-- soynlp/postagger/_dictionary.py:88-104 -/
def save (s : State) : File := ⟨s.maxLength, s.pos.map (fun e => (e.1, s.wordsOf e.1))⟩

/-- soynlp/postagger/_dictionary.py:74-86 -/
def load (f : File) : State :=
  ⟨f.posDict.zipIdx.map (fun e => (e.1.1, e.2)), f.posDict.map (fun e => Obj.set e.2), f.maxLength⟩

/-- a step of a history: the caller creates a container, or calls a mutator (whose exception the caller may catch)
    (soynlp/postagger/_dictionary.py:39-67) -/
inductive Op where
  | alloc (o : Obj)
  | add (tag : Str) (words : Arg) (force : Bool)
  | remove (tag : Str) (words : Option Arg)

/-- a history of calls, soynlp/postagger/_dictionary.py:39-67 -/
def run (s : State) : Op → State
  | .alloc o => ⟨s.pos, s.heap ++ [o], s.maxLength⟩
  | .add t w f => (addWords s t w f).1
  | .remove t w => (removeWords s t w).1

/-! ### _template.py -/

/-- soynlp/postagger/_template.py:6 -/
structure LR where
  l : Str
  lTag : Option Str
  r : Str
  rTag : Option Str
  b : Nat
  m : Nat
  e : Nat
deriving DecidableEq, Repr

/-- soynlp/postagger/_template.py:13-20 -/
structure EojeolMatcher where
  dictionary : State
  singleTags : List Str := ["Noun".toList, "Verb".toList, "Adjective".toList, "Adverb".toList, "Exclamation".toList]
  lrTemplates : List (Str × Str) := [("Noun".toList, "Verb".toList), ("Noun".toList, "Adjective".toList), ("Noun".toList, "Josa".toList)]

/-- soynlp/postagger/_template.py:51-61, the `for` loop for one `b`: the first end `i ≥ i₀` accepted; `fuel` counts the remaining `i` -/
def findWord (d : State) (tag : Str) (eojeol : Str) (b : Nat) : Nat → Nat → Option Nat
  | _, 0 => none
  | i, fuel + 1 =>
    if b = 0 ∧ i = eojeol.length then none
    else if d.wordIsTag (slice eojeol b i) tag then some i
    else findWord d tag eojeol b (i + 1) fuel

/-- soynlp/postagger/_template.py:47-64; `fuel` bounds the `while` loop (each round increases `b`) -/
def decomposeGo (d : State) (tag : Str) (eojeol : Str) : Nat → Nat → List LR → List LR
  | 0, _, _ => []
  | fuel + 1, b, words =>
    if b < eojeol.length then
      match findWord d tag eojeol b (b + 1) (eojeol.length - b) with
      | none => []
      | some i => decomposeGo d tag eojeol fuel i (words ++ [⟨slice eojeol b i, some tag, [], none, b, i, i⟩])
    else words

/-- soynlp/postagger/_template.py:47-64 -/
def decomposeCompound (d : State) (eojeol tag : Str) : List LR := decomposeGo d tag eojeol (eojeol.length + 1) 0 []

/-- soynlp/postagger/_template.py:24-29 -/
def singles (g : EojeolMatcher) (eojeol : Str) : List (List LR) :=
  let n := eojeol.length
  let c := ((g.dictionary.getPos eojeol).filter (fun t => decide (t ∈ g.singleTags))).map (fun t => [⟨eojeol, some t, [], none, 0, n, n⟩])
  if c = [] then [[⟨eojeol, none, [], none, 0, n, n⟩]] else c

/-- soynlp/postagger/_template.py:31-35 -/
def pairs (g : EojeolMatcher) (eojeol : Str) : List (List LR) :=
  (List.range (eojeol.length - 1)).flatMap (fun b0 =>
    (g.lrTemplates.filter (fun t => g.dictionary.wordIsTag (eojeol.take (b0 + 1)) t.1 && g.dictionary.wordIsTag (eojeol.drop (b0 + 1)) t.2)).map
      (fun t => [⟨eojeol.take (b0 + 1), some t.1, eojeol.drop (b0 + 1), some t.2, 0, b0 + 1, eojeol.length⟩]))

/-- soynlp/postagger/_template.py:22-45 -/
def EojeolMatcher.generate (g : EojeolMatcher) (eojeol : Str) : List (List LR) :=
  let noun := decomposeCompound g.dictionary eojeol "Noun".toList
  let adverb := decomposeCompound g.dictionary eojeol "Adverb".toList
  singles g eojeol ++ pairs g eojeol ++ (if noun = [] then [] else [noun]) ++ (if adverb = [] then [] else [adverb])

/-- soynlp/postagger/_template.py:67-76; `ord` is the order in which Python enumerates a set of tags -/
structure LRMatcher where
  dictionary : State
  ltags : List Str := ["Noun".toList, "Adjective".toList, "Verb".toList, "Adverb".toList, "Exclamation".toList]
  templates : Dict Str (List Str) := [("Noun".toList, ["Josa".toList, "Verb".toList, "Adjective".toList])]
  ord : List Str → List Str := id

/-- soynlp/postagger/_template.py:85-88 -/
def posL (g : LRMatcher) (word : Str) : List Str := g.ord ((g.dictionary.getPos word).filter (fun t => decide (t ∈ g.ltags)))

/-- soynlp/postagger/_template.py:90-106: items (l, l_tag, b, e) -/
def initializeL (g : LRMatcher) (t : Str) : List (Str × Str × Nat × Nat) :=
  sorted (fun x y => decide (x.2.2.1 ≤ y.2.2.1))
    ((List.range t.length).flatMap (fun b =>
      (List.range' (b + 2) (min t.length (b + g.dictionary.maxLength) + 1 - (b + 2))).flatMap (fun e =>
        (posL g (slice t b e)).map (fun tag => (slice t b e, tag, b, e)))))

/-- soynlp/postagger/_template.py:134-146, one candidate -/
def expandOne (g : LRMatcher) (t : Str) (c : Str × Str × Nat × Nat) : List LR :=
  (List.range' c.2.2.2 (min (g.dictionary.maxLength + c.2.2.2) t.length + 1 - c.2.2.2)).flatMap (fun e2 =>
    if slice t c.2.2.2 e2 = [] then [⟨c.1, some c.2.1, [], none, c.2.2.1, c.2.2.2, e2⟩]
    else ((Dict.getD g.templates c.2.1 []).filter (fun rt => g.dictionary.wordIsTag (slice t c.2.2.2 e2) rt)).map
      (fun rt => ⟨c.1, some c.2.1, slice t c.2.2.2 e2, some rt, c.2.2.1, c.2.2.2, e2⟩))

/-- soynlp/postagger/_template.py:130-149 and 78-83 -/
def LRMatcher.generate (g : LRMatcher) (t : Str) : List LR :=
  sorted (fun x y => decide (x.b ≤ y.b)) ((initializeL g t).flatMap (expandOne g t))

/-! ### _evaluator.py -/

/-- soynlp/postagger/_evaluator.py:7-12: candidates by decreasing score, the first one; `none` is Python's `None` -/
def selectBest {α : Type} (evaluate : α → Rat) (candidates : List α) : Option α :=
  ((sorted (fun x y : α × Rat => decide (-x.2 ≤ -y.2)) (candidates.map (fun c => (c, evaluate c)))).head?).map (·.1)

/-- soynlp/postagger/_evaluator.py:15-27 -/
structure EWeights where
  numNouns : Rat := -1/10
  numWords : Rat := -15/100
  hasNoun : Rat := 2/10
  hasUnknown : Rat := -3/10
  isAdverbRepeat : Rat := 1/10
  isCompoundNoun : Rat := -5/100
  isNounJosa : Rat := 1/10
  isANoun : Rat := 2/10

/-- Python's bool as a number (soynlp/postagger/_evaluator.py:29-51) -/
def b2r (b : Bool) : Rat := if b then 1 else 0

/-- soynlp/postagger/_evaluator.py:29-51 -/
def countTag (c : List LR) (t : Option Str) : Nat := c.countP (fun w => decide (w.lTag = t))

/-- soynlp/postagger/_evaluator.py:29-51 (the weights in their documented order) -/
def evaluateEojeol (w : EWeights) (c : List LR) : Rat :=
  let numNouns := countTag c (some "Noun".toList)
  let numWords := c.length
  let isNounJosa := match c with
    | [x] => decide (x.lTag = some "Noun".toList ∧ x.rTag = some "Josa".toList)
    | _ => false
  let isANoun := match c with
    | [x] => decide (x.lTag = some "Noun".toList ∧ x.r = [])
    | _ => false
  (numNouns : Rat) * w.numNouns + (numWords : Rat) * w.numWords + b2r (decide (numNouns > 0)) * w.hasNoun + (countTag c none : Rat) * w.hasUnknown +
    b2r (decide (numWords > 1 ∧ numWords = countTag c (some "Adverb".toList))) * w.isAdverbRepeat +
    b2r (decide (numWords > 1 ∧ numWords = numNouns)) * w.isCompoundNoun + b2r isNounJosa * w.isNounJosa + b2r isANoun * w.isANoun

/-- soynlp/postagger/_evaluator.py:54-74 -/
structure LWeights where
  isNounPhrase : Rat := 3/10
  lrAreKnown : Rat := 15/100
  isVerb : Rat := 2/10
  isAdjective : Rat := 1/10
  lLen : Rat := 1/10
  rLen : Rat := 1/10
  lIsASyllable : Rat := -2/10
  preference : Dict Str (Dict Str Rat) := []

/-- soynlp/postagger/_evaluator.py:94-95, `preference.get(tag, {}).get(word, 0)` -/
def prefer (p : Dict Str (Dict Str Rat)) (tag : Option Str) (word : Str) : Rat :=
  match tag with
  | some t => Dict.getD (Dict.getD p t []) word 0
  | none => 0

/-- soynlp/postagger/_evaluator.py:81-107 (`is_verb` really tests the tag `Adverb`, line 85) -/
def evaluateLR (w : LWeights) (c : LR) : Rat :=
  b2r (decide (c.lTag = some "Noun".toList)) * w.isNounPhrase + b2r (decide (c.lTag ≠ none ∧ c.rTag ≠ none)) * w.lrAreKnown +
    b2r (decide (c.lTag = some "Adverb".toList)) * w.isVerb + b2r (decide (c.lTag = some "Adjective".toList)) * w.isAdjective +
    ((c.m : Rat) - c.b) * w.lLen + ((c.e : Rat) - c.m) * w.rLen + b2r (decide ((c.m : Int) - c.b = 1)) * w.lIsASyllable +
    (prefer w.preference c.lTag c.l + prefer w.preference c.rTag c.r)

/-- soynlp/postagger/_evaluator.py:118: `b < c.e and e > c.b` -/
def overlaps (x c : LR) : Bool := decide (x.b < c.e) && decide (x.e > c.b)

/-- soynlp/postagger/_evaluator.py:113-121; `fuel` bounds the `while` loop (each round pops an element) -/
def removeGo : Nat → List (LR × Rat) → List LR → List LR
  | _, [], best => best
  | 0, _ :: _, best => best
  | fuel + 1, x :: rest, best => removeGo fuel (rest.filter (fun c => !overlaps x.1 c.1)) (best ++ [x.1])

/-- comparison of Python strings (soynlp/postagger/_evaluator.py:123) -/
def strLe : Str → Str → Bool
  | [], _ => true
  | _ :: _, [] => false
  | a :: as, b :: bs => if a.toNat < b.toNat then true else if b.toNat < a.toNat then false else strLe as bs

/-- soynlp/postagger/_evaluator.py:109-123: field 2 of the namedtuple, the sort key, is the string `r` -/
def removeOverlapped (scored : List (LR × Rat)) : List LR :=
  sorted (fun x y => strLe x.r y.r) (removeGo scored.length (sorted (fun x y => decide (-x.2 ≤ -y.2)) scored) [])

/-- soynlp/postagger/_evaluator.py:76-79 -/
def selectBestLR (evaluate : LR → Rat) (candidates : List LR) : List LR :=
  sorted (fun x y => strLe x.r y.r) (removeOverlapped (candidates.map (fun c => (c, evaluate c))))

/-! ### _tagger.py -/

/-- soynlp/postagger/_tagger.py:70-73,75-78: an unknown word -/
def unknown (token : Str) (b e : Nat) : LR := ⟨slice token b e, none, [], none, b, e, e⟩

/-- soynlp/postagger/_tagger.py:80-89 -/
def interSubwords (token : Str) : List LR → List LR
  | x :: y :: rest => (if x.e = y.b then [] else [unknown token x.e y.b]) ++ interSubwords token (y :: rest)
  | _ => []

/-- soynlp/postagger/_tagger.py:62-63 -/
def firstSub (token : Str) (words : List LR) : List LR :=
  match words.head? with
  | some w => if w.b > 0 then [unknown token 0 w.b] else []
  | none => []

/-- soynlp/postagger/_tagger.py:64-65 -/
def lastSub (token : Str) (words : List LR) : List LR :=
  match words.getLast? with
  | some w => if w.e < token.length then [unknown token w.e token.length] else []
  | none => []

/-- soynlp/postagger/_tagger.py:59-68 -/
def postprocess (token : Str) (words : List LR) : List LR :=
  sorted (fun x y => decide (x.b ≤ y.b)) (words ++ (firstSub token words ++ lastSub token words ++ interSubwords token words))

/-- soynlp/postagger/_tagger.py:31-36 -/
def flattenWords (words : List LR) : List (Str × Option Str) :=
  words.flatMap (fun w => (if w.l = [] then [] else [(w.l, w.lTag)]) ++ (if w.r = [] then [] else [(w.r, w.rTag)]))

/-- soynlp/postagger/_tagger.py:25-28; `post` is the optional postprocessor -/
def applyPost (post : Option (Str → List LR → List LR)) (eojeol : Str) (words : List LR) : List LR :=
  match post with
  | some f => f eojeol words
  | none => words

/-- soynlp/postagger/_tagger.py:22-38, one eojeol. The generator and evaluator are given as the function `best`; a `None` from the
    evaluator is not iterable (TypeError). -/
def tagEojeol (best : Str → Option (List LR)) (post : Option (Str → List LR → List LR)) (eojeol : Str) : PyM (List (Str × Option Str)) :=
  match best eojeol with
  | none => .error .typeError
  | some b => .ok (flattenWords (applyPost post eojeol b))

/-- soynlp/postagger/_tagger.py:16-52 with `debug = False`: the list of tagged words per eojeol -/
def tagSentence (best : Str → Option (List LR)) (post : Option (Str → List LR → List LR)) (sentence : Str) : PyM (List (List (Str × Option Str))) :=
  (splitWs sentence).mapM (tagEojeol best post)

/-- soynlp/postagger/_tagger.py:45-46 -/
def tagFlat (best : Str → Option (List LR)) (post : Option (Str → List LR → List LR)) (sentence : Str) : PyM (List (Str × Option Str)) :=
  match tagSentence best post sentence with
  | .error x => .error x
  | .ok l => .ok l.flatten

end PT
