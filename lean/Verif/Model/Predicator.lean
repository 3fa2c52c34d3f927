import Verif.Model.Conjugation
import Verif.Model.LRGraph
import Verif.Model.Normalizer
import Mathlib.Data.List.Dedup
/-!
Model of soynlp/predicator/_predicator.py `PredicatorExtractor` (without the extraction of new stems and endings:
`extract_eomi=False`, `extract_stem=False`) and of soynlp/predicator/_adjective_vs_verb.py. Python sets are duplicate-free lists; where
the order in which a set is enumerated could matter it is given by the parameter `enum`. Printing is not modelled, except
for the division in a message, which can raise; `_stem_surfaces`, which nothing else reads, is not modelled. When a call
raises, the state it leaves is not modelled.
-/
namespace Pred
open Py Nested

/-- `Predicator(frequency, lemma)`, soynlp/predicator/_predicator.py:34 -/
abbrev Entry := Int × List (Str × Str)

/-- the object's fields (soynlp/predicator/_predicator.py:51-67,224-229) -/
structure State where
  nouns : List Str
  josas : List Str
  adjectives : List Str
  verbs : List Str
  stems : List Str
  eomis : List Str
  verbose : Bool := true
  ensureNormalized : Bool := false
  counter : Option EC.State := none
  numOfEojeols : Nat := 0
  countOfEojeols : Int := 0
  numCovered : Nat := 0
  countCovered : Int := 0

/-- soynlp/predicator/_predicator.py:103-108 -/
def parseNoun (nouns : List Str) (stem : Str) : Option Str :=
  if nouns.contains (stem.take (stem.length - 1)) then some (stem.take (stem.length - 1))
  else if nouns.contains (stem.take (stem.length - 2)) then some (stem.take (stem.length - 2))
  else none

/-- soynlp/predicator/_predicator.py:102-112 -/
def removeStemPrefix (stems nouns : List Str) : List Str :=
  let removals := stems.filterMap (parseNoun nouns)
  nouns.filter (fun n => !removals.contains n)

/-- soynlp/predicator/_predicator.py:38-67; the default dictionaries are parameters. `None` and (for josas) empty arguments
    mean the default; if one of `adjectives`, `verbs` is `None` both defaults are used. -/
def construct (defaultJosas defaultAdjectives defaultVerbs defaultEomis : List Str) (nouns : List Str) (josas adjectives verbs eomis : Option (List Str))
    (verbose ensureNormalized : Bool) : State :=
  let josas := match josas with
    | some (j :: js) => j :: js
    | _ => defaultJosas
  let av := match adjectives, verbs with
    | some a, some v => (a, v)
    | _, _ => (defaultAdjectives, defaultVerbs)
  let stems := (av.1 ++ av.2).dedup
  { nouns := removeStemPrefix stems nouns.dedup, josas := josas, adjectives := av.1, verbs := av.2, stems := stems
    eomis := eomis.getD defaultEomis, verbose := verbose, ensureNormalized := ensureNormalized }

/-! ### training -/

/-- soynlp/predicator/_predicator.py:218-229: the extractor, and the caller's counter, which is changed -/
def trainWithEojeolCounter (s : State) (c : EC.State) (minFrequency : Int := 2) : State × EC.State :=
  let d := c.counter.filter (fun kv => decide (kv.2 ≥ minFrequency))
  let c := { c with counter := d, countSum := Dict.sumI d }
  ({ s with counter := some c, numOfEojeols := d.length, numCovered := 0, countOfEojeols := Dict.sumI d, countCovered := 0 }, c)

/-- soynlp/predicator/_predicator.py:164-166 -/
def trainWithLrgraph (s : State) (g : LR.State) (minFrequency : Int := 2) : PyM State :=
  (LR.toEojeolCounter g).map (fun c => (trainWithEojeolCounter s c minFrequency).1)

/-- the arguments of the counter, soynlp/predicator/_predicator.py:203-214 (`max_length` stays 15) -/
def counterParams (s : State) (minFrequency : Int) : EC.Params :=
  { minCount := minFrequency, preprocess := if s.ensureNormalized then id else Normalizer.normalizeSentForLrgraph }

/-- soynlp/predicator/_predicator.py:194-216: the second filter uses its default, 2 -/
def trainWithSentences (s : State) (sents : List Str) (minFrequency : Int := 2) : PyM State :=
  (EC.construct (counterParams s minFrequency) (some sents)).map (fun c => (trainWithEojeolCounter s c).1)

/-! ### lemmas -/

/-- soynlp/predicator/_predicator.py:348-353 -/
def isNounJosa (nouns josas : List Str) (eojeol : Str) : Bool :=
  (List.range' 1 (eojeol.length - 1)).any (fun i => nouns.contains (eojeol.take i) && josas.contains (eojeol.drop i))

/-- soynlp/predicator/_predicator.py:372-376, one split -/
def lemmasAt (stems eomis : List Str) (eojeol : Str) (i : Nat) : PyM (List (Str × Str)) :=
  (Lemma.lemmaCandidate (eojeol.take i) (eojeol.drop i)).map (fun cs => cs.filter (fun c => stems.contains c.1 && eomis.contains c.2))

/-- soynlp/predicator/_predicator.py:378-381, one candidate -/
def conjugates (eojeol : Str) (c : Str × Str) : PyM Bool := (Lemma.conjugate c.1 c.2).map (fun forms => decide (eojeol ∈ forms))

/-- soynlp/predicator/_predicator.py:378-381 -/
def keepConjugating (eojeol : Str) : List (Str × Str) → PyM (List (Str × Str))
  | [] => .ok []
  | c :: cs => match conjugates eojeol c with
    | .error e => .error e
    | .ok b => (keepConjugating eojeol cs).map (fun rest => if b then c :: rest else rest)

/-- soynlp/predicator/_predicator.py:369-381: the set `lemma_candidates_`, as enumerated -/
def lemmasOf (enum : List (Str × Str) → List (Str × Str)) (stems eomis : List Str) (eojeol : Str) : PyM (List (Str × Str)) :=
  match (List.range' 1 eojeol.length).mapM (lemmasAt stems eomis eojeol) with
  | .error e => .error e
  | .ok css => (keepConjugating eojeol css.flatten.dedup).map enum

/-- the variables of the loop, soynlp/predicator/_predicator.py:355-359 -/
structure Acc where
  lemmas : Dict Str Entry := []
  words : Dict Str (List (Str × Int)) := []
  num : Nat := 0
  count : Int := 0

/-- `eomi_to_word_count[eomi].append((eojeol, count))`, soynlp/predicator/_predicator.py:386 -/
def addWord (eojeol : Str) (count : Int) (d : Dict Str (List (Str × Int))) (l : Str × Str) : Dict Str (List (Str × Int)) :=
  Dict.set d l.2 (Dict.getD d l.2 [] ++ [(eojeol, count)])

/-- soynlp/predicator/_predicator.py:383-388 -/
def addEojeol (a : Acc) (eojeol : Str) (count : Int) (ls : List (Str × Str)) : Acc :=
  if ls = [] then a
  else { lemmas := Dict.set a.lemmas eojeol (count, ls), words := ls.foldl (addWord eojeol count) a.words, num := a.num + 1, count := a.count + count }

/-- soynlp/predicator/_predicator.py:362-388 -/
def lemmaLoop (enum : List (Str × Str) → List (Str × Str)) (s : State) : Acc → List (Str × Int) → PyM Acc
  | a, [] => .ok a
  | a, (eojeol, count) :: rest =>
    if isNounJosa s.nouns s.josas eojeol then lemmaLoop enum s a rest
    else match lemmasOf enum s.stems s.eomis eojeol with
      | .error e => .error e
      | .ok ls => lemmaLoop enum s (addEojeol a eojeol count ls) rest

/-! ### endings that are part of nouns -/

/-- soynlp/predicator/_predicator.py:399-406: `prop` -/
def nounShare (nouns : List Str) (wc : List (Str × Int)) : Rat :=
  let sum := (wc.filter (fun w => decide (w.1.length = 2))).length
  let prop := (wc.filter (fun w => nouns.contains w.1 && decide (w.1.length = 2))).length
  if sum > 0 then (prop : Rat) / (sum : Rat) else (prop : Rat)

/-- soynlp/predicator/_predicator.py:402-405: `prop_len2` -/
def shortShare (wc : List (Str × Int)) : Rat :=
  let sum := (wc.filter (fun w => decide (w.1.length = 2))).length
  if sum > 0 then (sum : Rat) / (wc.length : Rat) else 0

/-- soynlp/predicator/_predicator.py:418-423: is the ending suspicious? -/
def suspicious (nouns : List Str) (ew : Str × List (Str × Int)) : Bool :=
  decide (ew.1.length < 3) && !decide (nounShare nouns ew.2 < 1/2)

/-- soynlp/predicator/_predicator.py:425-434: the words an ending is taken from -/
def removeWords (nouns : List Str) (ew : Str × List (Str × Int)) : List Str :=
  if shortShare ew.2 = 1 then (ew.2.filter (fun w => decide (w.1.length = 2))).map (·.1)
  else (ew.2.filter (fun w => (decide (w.1.length = 2) && nouns.contains w.1) || (decide (w.1.length = 3) && decide (ew.1.length = 2)))).map (·.1)

/-- soynlp/predicator/_predicator.py:425-426: the endings dropped altogether -/
def removeEomis (nouns : List Str) (words : Dict Str (List (Str × Int))) : List Str :=
  ((words.filter (suspicious nouns)).filter (fun ew => decide (shortShare ew.2 = 1))).map (·.1)

/-- soynlp/predicator/_predicator.py:452-460, one word -/
def removeFrom (eomi : Str) (d : Dict Str Entry) (word : Str) : Dict Str Entry :=
  match Dict.get? d word with
  | none => d
  | some p => if p.2.length = 1 then Dict.erase d word else Dict.set d word (p.1, p.2.filter (fun l => decide (l.2 ≠ eomi)))

/-- soynlp/predicator/_predicator.py:450-460 -/
def removeMorphs (nouns : List Str) (words : Dict Str (List (Str × Int))) (d : Dict Str Entry) : Dict Str Entry :=
  (words.filter (suspicious nouns)).foldl (fun d ew => (removeWords nouns ew).foldl (removeFrom ew.1) d) d

/-- soynlp/predicator/_predicator.py:346-396; with `verbose` the share of covered eojeols is computed for a message -/
def asLemmaCandidates (enum : List (Str × Str) → List (Str × Str)) (s : State) (eojeols : List (Str × Int)) : PyM (State × Dict Str Entry) :=
  match lemmaLoop enum s {} eojeols with
  | .error e => .error e
  | .ok a =>
    let removed := removeEomis s.nouns a.words
    if s.verbose = true ∧ s.countOfEojeols = 0 then .error .zeroDivision
    else .ok ({ s with numCovered := a.num, countCovered := a.count, eomis := s.eomis.filter (fun e => !removed.contains e) },
      removeMorphs s.nouns a.words a.lemmas)

/-- soynlp/predicator/_predicator.py:321-344; an absent or empty argument means the trained counter -/
def extractPredicator (enum : List (Str × Str) → List (Str × Str)) (s : State) (eojeols : List (Str × Int)) (minFrequency : Int) :
    PyM (State × Dict Str Entry) :=
  if eojeols ≠ [] then asLemmaCandidates enum s eojeols
  else match s.counter with
    | none => .error .attributeError
    | some c => asLemmaCandidates enum s (c.counter.filter (fun kv => decide (kv.2 > minFrequency) && kv.1.all Hangle.isComplete))

/-! ### adjectives and verbs -/

/-- soynlp/predicator/_adjective_vs_verb.py:44-46 -/
def conjugateAll (stem : Str) (eomis : List Str) : PyM (List Str) := (eomis.mapM (fun e => Lemma.conjugate stem e)).map List.flatten

/-- `decompose(stem[-1])`, unpacked, soynlp/predicator/_adjective_vs_verb.py:14, 29 -/
def lastJamo (stem : Str) : PyM Lemma.Jamo :=
  match stem.getLast? with
  | none => .error .indexError
  | some c => match Hangle.decompose c with
    | .error e => .error e
    | .ok none => .error .typeError
    | .ok (some d) => .ok d

/-- soynlp/predicator/_adjective_vs_verb.py:4-18 -/
def asPresent (stem : Str) : PyM (List Str) :=
  match lastJamo stem with
  | .error e => .error e
  | .ok d =>
    if d.2.2 = ' ' then conjugateAll stem ["ㄴ다".toList, "ㄴ다고".toList, "고있는".toList]
    else conjugateAll stem ["는다".toList, "는다고".toList, "고있는".toList]

/-- soynlp/predicator/_adjective_vs_verb.py:20-33 -/
def asImperative (stem : Str) : PyM (List Str) :=
  match lastJamo stem with
  | .error e => .error e
  | .ok d => if d.2.1 = 'ㅓ' ∨ d.2.1 = 'ㅕ' then conjugateAll stem ["어라".toList] else conjugateAll stem ["아라".toList]

/-- soynlp/predicator/_adjective_vs_verb.py:35-42 -/
def asPleasure (stem : Str) : PyM (List Str) :=
  conjugateAll stem ["자".toList, "ㄹ까".toList, "ㄹ까봐".toList, "까".toList, "까봐".toList, "을까".toList, "을까봐".toList]

/-- the answers of `rule_classify` (soynlp/predicator/_adjective_vs_verb.py:48-59) -/
inductive Answer | adjective | verb | unknown
  deriving DecidableEq

/-- soynlp/predicator/_adjective_vs_verb.py:50 -/
def adjSuffixes : List Str := ["같".toList, "답".toList, "롭".toList, "만하".toList, "스럽".toList, "시럽".toList, "이".toList, "아니".toList]
/-- soynlp/predicator/_adjective_vs_verb.py:51 -/
def verbSuffixes : List Str := ["거리".toList, "당하".toList, "당허".toList, "시키".toList]

/-- `stem[-n:]` (soynlp/predicator/_adjective_vs_verb.py:52-58) -/
def lastChars (n : Nat) (stem : Str) : Str := stem.drop (stem.length - n)

/-- soynlp/predicator/_adjective_vs_verb.py:48-59; `stem[-1]` raises on the empty stem -/
def ruleClassify (stem : Str) : PyM Answer :=
  if stem = [] then .error .indexError
  else if adjSuffixes.contains (lastChars 1 stem) || adjSuffixes.contains (lastChars 2 stem) then .ok .adjective
  else if verbSuffixes.contains (lastChars 1 stem) || verbSuffixes.contains (lastChars 2 stem) then .ok .verb
  else .ok .unknown

/-- soynlp/predicator/_predicator.py:493-503: is the stem conjugated as a verb? `known` are the extracted words -/
def surfaceTest (known : Str → Bool) (stem : Str) : PyM Bool :=
  match asPresent stem with
  | .error e => .error e
  | .ok a => match asImperative stem with
    | .error e => .error e
    | .ok b => (asPleasure stem).map (fun c => !decide (((a ++ b ++ c).dedup.filter known).length ≤ 1))

/-- soynlp/predicator/_predicator.py:474-503, one lemma: does it go to the verbs? (`answer is 'Verb'` compares interned
    strings and is taken as equality) -/
def isVerb (s : State) (known : Str → Bool) (lm : Str × Str) : PyM Bool :=
  if s.verbs.contains lm.1 then .ok true
  else if s.adjectives.contains lm.1 then .ok false
  else match ruleClassify lm.1 with
    | .error e => .error e
    | .ok .verb => .ok true
    | .ok .adjective => .ok false
    | .ok .unknown => surfaceTest known lm.1

/-- soynlp/predicator/_predicator.py:474-503: (adjective lemmas, verb lemmas) -/
def splitLemmas (s : State) (known : Str → Bool) : List (Str × Str) → PyM (List (Str × Str) × List (Str × Str))
  | [] => .ok ([], [])
  | l :: ls => match isVerb s known l with
    | .error e => .error e
    | .ok b => (splitLemmas s known ls).map (fun av => if b then (av.1, l :: av.2) else (l :: av.1, av.2))

/-- `if adj: adjectives[word] = …`, soynlp/predicator/_predicator.py:505-508 -/
def addEntry (d : Dict Str Entry) (word : Str) (frequency : Int) (ls : List (Str × Str)) : Dict Str Entry :=
  if ls = [] then d else Dict.set d word (frequency, ls)

/-- soynlp/predicator/_predicator.py:469-508 -/
def separateLoop (s : State) (known : Str → Bool) : Dict Str Entry → Dict Str Entry → List (Str × Entry) → PyM (Dict Str Entry × Dict Str Entry)
  | adj, v, [] => .ok (adj, v)
  | adj, v, (word, p) :: rest => match splitLemmas s known p.2 with
    | .error e => .error e
    | .ok av => separateLoop s known (addEntry adj word p.1 av.1) (addEntry v word p.1 av.2) rest

/-- soynlp/predicator/_predicator.py:464-510 -/
def separate (s : State) (predicators : Dict Str Entry) : PyM (Dict Str Entry × Dict Str Entry) :=
  separateLoop s (Dict.has predicators) [] [] predicators

/-- soynlp/predicator/_predicator.py:236-247 -/
def extract (enum : List (Str × Str) → List (Str × Str)) (s : State) (eojeols : List (Str × Int) := []) (minFrequency : Int := 1) :
    PyM (State × Dict Str Entry × Dict Str Entry) :=
  match extractPredicator enum s eojeols minFrequency with
  | .error e => .error e
  | .ok (s, predicators) => (separate s predicators).map (fun av => (s, av))

end Pred
