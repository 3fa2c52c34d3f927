import Verif.Model.NewsPos
import Verif.Py.Nested
/-!
Model of `ChatPOSExtractor` (soynlp/pos/_chat_pos.py): what it changes in `NewsPOSExtractor`. The ratio of line 152 is an exact rational
here (floating point in the code).
-/
namespace NewsPos
open Py

/-- soynlp/pos/_chat_pos.py:102-113 -/
def chatCheck (stem eomi : Str) : PyM Bool :=
  if stem.getLast? = some '업' ∨ stem.getLast? = some '닿' ∨ stem.getLast? = some '땋' then .ok false else checkSuffixPrefix stem eomi

/-- soynlp/pos/_chat_pos.py:127-130: for a word that is in `base` only the lemmas with a longer stem are kept (`max` of nothing is a
    `ValueError`) -/
def keepLonger (base : Dict Str Entry) (word : Str) (lemmas : List (Str × Str)) : PyM (List (Str × Str)) :=
  match Dict.get? base word with
  | none => .ok lemmas
  | some p =>
    match (p.2.map (fun l => l.1.length)).max? with
    | none => .error .valueError
    | some n => .ok (lemmas.filter (fun l => decide (l.1.length > n)))

/-- soynlp/pos/_chat_pos.py:119-134, one eojeol -/
def chatCompoundOf (stems predicators : Str → Bool) (base : Dict Str Entry) (word : Str) : PyM (Option (List (Str × Str))) :=
  match separateLR word predicators (fun r => Dict.has base r) with
  | none => .ok none
  | some lr =>
    let lemmas := (Dict.getD base lr.2 (0, [])).2.map (fun l => (lr.1 ++ l.1, l.2))
    match filterM (fun l => chatCheck l.1 l.2) lemmas with
    | .error e => .error e
    | .ok lemmas =>
      match keepLonger base word (lemmas.filter (fun l => !stems l.1)) with
      | .error e => .error e
      | .ok lemmas => .ok (if lemmas = [] then none else some lemmas)

/-- soynlp/pos/_chat_pos.py:115-135, the loop -/
def chatCompounds (stems predicators : Str → Bool) (base : Dict Str Entry) : Dict Str Nat → PyM (Dict Str Entry)
  | [] => .ok []
  | (word, count) :: rest =>
    match chatCompoundOf stems predicators base word with
    | .error e => .error e
    | .ok none => chatCompounds stems predicators base rest
    | .ok (some lemmas) =>
      match chatCompounds stems predicators base rest with
      | .error e => .error e
      | .ok more => .ok ((word, (count, lemmas)) :: more)

/-- soynlp/pos/_chat_pos.py:154-158 -/
def stemGraph (compounds : Dict Str Entry) : Nested Str :=
  compounds.foldl (fun g e => e.2.2.foldl (fun g l => Nested.nadd g l.1 l.2 e.2.1) g) []

/-- soynlp/pos/_chat_pos.py:145-152: the share of the endings of a stem that begin with a consonant letter -/
def jaumBeginProp (g : Nested Str) (stem : Str) : Rat :=
  let row := Nested.row g stem
  let counter := row.foldl (fun (d : Dict Char Int) e =>
    match e.1.head? with
    | none => d
    | some c => if Hangle.isJaum c then Dict.addI d c e.2 else d) []
  if Dict.sumI row = 0 then 0 else (Dict.sumI counter : Rat) / (Dict.sumI row : Rat)

/-- soynlp/pos/_chat_pos.py:144-159 -/
def findWrongStem (compounds : Dict Str Entry) : List Str :=
  (Dict.keys (stemGraph compounds)).filter (fun s => decide (jaumBeginProp (stemGraph compounds) s ≥ 9 / 10))

/-- soynlp/pos/_chat_pos.py:176-185 -/
def deleteWrong (predicators : Dict Str Entry) (wrong : List Str) : Dict Str Entry :=
  predicators.filterMap (fun e =>
    let lemmas := e.2.2.filter (fun l => !wrong.contains l.1)
    if lemmas = [] then none else some (e.1, (e.2.1, lemmas)))

/-- soynlp/pos/_chat_pos.py:101-142: the compounds, the stems (line 140) and the counter. The counter holds the frequency of each compound. -/
def chatParse (stems predicators : Str → Bool) (base : Dict Str Entry) (eojeols : Dict Str Nat) : PyM (Dict Str Entry × List Str × Dict Str Nat) :=
  match chatCompounds stems predicators base eojeols with
  | .error e => .error e
  | .ok cs =>
    let wrong := findWrongStem cs
    let kept := deleteWrong cs wrong
    .ok (kept, wrong.filter (fun s => !wrong.contains s), (countsOf cs).filter (fun e => Dict.has kept e.1))

/-- soynlp/pos/_chat_pos.py:161-174: the order of a set of lemmas does not matter for the counts -/
def findWrongEomi (predicators compounds : Dict Str Entry) : List Str :=
  let count (p : Str × Entry → Bool) (n : Int) (d : Dict Str Int) :=
    predicators.foldl (fun d e => if p e then e.2.2.foldl (fun d l => Dict.addI d l.2 n) d else d) d
  ((count (fun e => !Dict.has compounds e.1) (-1) (count (fun e => Dict.has compounds e.1) 1 [])).filter (fun e => decide (e.2 > 0))).map (·.1)

/-- soynlp/pos/_chat_pos.py:63-99 -/
def chatMatchPredicatorCompounds (s : State) (f : Found) : PyM (State × Found) :=
  let predicators := fun w => Dict.has s.adjectives w || Dict.has s.verbs w
  match chatParse (fun w => s.verbStems.contains w || s.adjectiveStems.contains w) predicators s.adjectives f.eojeols with
  | .error e => .error e
  | .ok (adj, stemsA, counterA) =>
    let s := { s with adjectives := update s.adjectives adj, adjectiveStems := s.adjectiveStems ++ stemsA }
    let wrongA := findWrongEomi s.adjectives adj
    let adjectives := cumulate f.adjectives counterA
    match chatParse (fun w => s.verbStems.contains w || s.adjectiveStems.contains w) predicators s.verbs f.eojeols with
    | .error e => .error e
    | .ok (verb, stemsV, counterV) =>
      let s := { s with verbs := update s.verbs verb, verbStems := s.verbStems ++ stemsV }
      let wrong := wrongA ++ findWrongEomi s.verbs verb
      let verbs := cumulate f.verbs counterV
      .ok ({ s with eomis := s.eomis.filter (fun e => !wrong.contains e) },
        { f with eojeols := removeRecognized f.eojeols (fun w => Dict.has adjectives w || Dict.has verbs w), adjectives := adjectives, verbs := verbs })

/-- soynlp/pos/_chat_pos.py:187-196 -/
def findNounPhrase (nouns : Dict Str Nat) (r : Str → Bool) : Dict Str Nat :=
  nouns.filter (fun e => decide (2 < e.1.length) && (List.range' 1 (e.1.length - 1)).any (fun i => r (e.1.drop i)))

/-- soynlp/pos/_chat_pos.py:23-61; `josas` is the content of josa_chat.txt, read at every call -/
def chatCountMatchedPatterns (josas : List Str) (s : State) : PyM (State × Found × Dict Str Nat) :=
  let s := { s with josas := josas }
  match chatMatchPredicatorCompounds s (matchNounAndWord s (matchWord s)) with
  | .error e => .error e
  | .ok (s, f) =>
    let sf := lemmatizingPredicators s f
    let s := sf.1
    let f := matchSyllableNounAndR sf.2
    let f := { f with eojeols := removeIrregularWords s f.eojeols }
    let confused := f.nouns.filter (fun e => Dict.has f.adjectives e.1 || Dict.has f.verbs e.1 || Dict.has f.adverbs e.1)
    let phrases := findNounPhrase f.nouns (fun r => Dict.has f.josas r || Dict.has f.adjectives r || Dict.has f.verbs r)
    let confused := phrases.foldl (fun d e => Dict.set d e.1 e.2) confused
    .ok (s, { f with nouns := f.nouns.filter (fun e => !Dict.has confused e.1) }, confused)

/-- `ChatPOSExtractor.extract`, soynlp/pos/_news_pos.py:71-93 with the overridden method -/
def chatExtract (josas : List Str) (s : State) : PyM (State × WordTags) :=
  match chatCountMatchedPatterns josas s with
  | .error e => .error e
  | .ok (s, f, confused) =>
    .ok (s, {
      noun := f.nouns
      eomi := s.eomis
      adjective := asPredicator f.adjectives s.adjectives s.adjectiveStems s.eomis
      adjectiveStem := s.adjectiveStems
      verb := asPredicator f.verbs s.verbs s.verbStems s.eomis
      verbStem := s.verbStems
      adverb := f.adverbs
      josa := s.josas
      irrecognizable := f.eojeols
      confusedNouns := confused })

end NewsPos
