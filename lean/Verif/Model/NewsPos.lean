import Verif.Model.Conjugation
import Verif.Model.MaxScore
/-!
Model of `NewsPOSExtractor.extract` (soynlp/pos/_news_pos.py) and of what `ChatPOSExtractor` (soynlp/pos/_chat_pos.py) changes,
and of soynlp/pos/_adverb.py. The state is what `train` leaves in the object: the extracted nouns, the predicators with their lemmas, the
stem, ending, particle and adverb sets, and the eojeol counter. Sets that are only tested for membership are lists; a set of lemmas is the
list of its members in some order. What is printed is not modelled, except
that printing the statistics may raise (`printing`). The extractors that `train` runs are modelled in `NounV2`, `Predicator`.
-/
namespace NewsPos
open Py

/-- `Predicator(frequency, lemma)`, soynlp/predicator/_predicator.py:34 -/
abbrev Entry := Nat × List (Str × Str)

/-- the attributes that `extract` reads and updates, soynlp/pos/_news_pos.py:52-69 -/
structure State where
  nouns : List Str
  adjectives : Dict Str Entry
  verbs : Dict Str Entry
  adjectiveStems : List Str
  verbStems : List Str
  eomis : List Str
  josas : List Str
  adverbs : List Str
  eojeols : Dict Str Nat
  deriving DecidableEq

/-- soynlp/pos/_news_pos.py:190-195 (`begin` = 2) -/
def separateLR (word : Str) (lset rset : Str → Bool) : Option (Str × Str) :=
  (List.range' 2 (word.length - 2)).findSome? (fun i => if lset (word.take i) && rset (word.drop i) then some (word.take i, word.drop i) else none)

/-- soynlp/pos/_news_pos.py:197-200 -/
def cumulate (counter : Dict Str Nat) (wc : List (Str × Nat)) : Dict Str Nat :=
  wc.foldl (fun d e => Dict.add d e.1 e.2) counter

/-- soynlp/pos/_news_pos.py:202-203 -/
def removeRecognized (eojeols : Dict Str Nat) (removals : Str → Bool) : Dict Str Nat := eojeols.filter (fun e => !removals e.1)

/-- soynlp/pos/_news_pos.py:205-218: the first split, from the longest left part, with a known lemma. `word[:len(word)+1]` is `word`, so
    the first two rounds are the same; any exception of `lemma_candidate` moves on to the next split. -/
def lemmatize (stems eomis : List Str) (word : Str) : Option (List (Str × Str)) :=
  ((List.range' 1 (word.length + 1)).reverse).findSome? (fun i =>
    match Lemma.lemmaCandidate (word.take i) (word.drop i) with
    | .error _ => none
    | .ok lemmas =>
      let lemmas := lemmas.filter (fun l => stems.contains l.1 && eomis.contains l.2)
      if lemmas = [] then none else some lemmas)

/-- soynlp/pos/_news_pos.py:221-230: `l[2]` of a character that does not decompose is a `TypeError`; `r[0]` is read only for a stem that ends
    in ㄹ or ㅂ, or in ㅡ without a final -/
def checkSuffixPrefix (stem eomi : Str) : PyM Bool :=
  match stem.getLast?, eomi.head? with
  | none, _ => .error .indexError
  | some _, none => .error .indexError
  | some s, some e =>
    match Hangle.decompose s, Hangle.decompose e with
    | .error x, _ => .error x
    | .ok _, .error x => .error x
    | .ok none, .ok _ => .error .typeError
    | .ok (some l), .ok none => if l.2.2 ∈ ['ㄹ', 'ㅂ'] ∨ l.2.1 = 'ㅡ' ∧ l.2.2 = ' ' then .error .typeError else .ok true
    | .ok (some l), .ok (some r) =>
      if l.2.2 ∈ ['ㄹ', 'ㅂ'] ∧ r.1 ∈ ['ㄴ', 'ㄹ', 'ㅁ', 'ㅂ'] then .ok false
      else if l.2.1 = 'ㅡ' ∧ l.2.2 = ' ' ∧ r.1 = 'ㅇ' ∧ (r.2.1 = 'ㅓ' ∨ r.2.1 = 'ㅏ') then .ok false
      else .ok true

/-- the set comprehension with a test that may raise (soynlp/pos/_news_pos.py:240-243) -/
def filterM (p : Str × Str → PyM Bool) : List (Str × Str) → PyM (List (Str × Str))
  | [] => .ok []
  | x :: xs =>
    match p x with
    | .error e => .error e
    | .ok b =>
      match filterM p xs with
      | .error e => .error e
      | .ok ys => .ok (if b then x :: ys else ys)

/-- soynlp/pos/_news_pos.py:236-245: the lemmas of one eojeol read as known predicator + known predicator; `none` when there is no such
    reading or no lemma is left -/
def compoundOf (check : Str → Str → PyM Bool) (stems : Str → Bool) (predicators : Str → Bool) (base : Dict Str Entry) (word : Str) :
    PyM (Option (List (Str × Str))) :=
  match separateLR word predicators (fun r => Dict.has base r) with
  | none => .ok none
  | some lr =>
    let lemmas := (Dict.getD base lr.2 (0, [])).2.map (fun l => (lr.1 ++ l.1, l.2))
    match filterM (fun l => check l.1 l.2) lemmas with
    | .error e => .error e
    | .ok lemmas =>
      let lemmas := lemmas.filter (fun l => !stems l.1)
      .ok (if lemmas = [] then none else some lemmas)

/-- soynlp/pos/_news_pos.py:232-249: the compounds with their lemmas, in the order of the eojeols (the stems are those of the lemmas, the
    counter is the frequencies) -/
def parseCompounds (check : Str → Str → PyM Bool) (stems predicators : Str → Bool) (base : Dict Str Entry) : Dict Str Nat → PyM (Dict Str Entry)
  | [] => .ok []
  | (word, count) :: rest =>
    match compoundOf check stems predicators base word with
    | .error e => .error e
    | .ok none => parseCompounds check stems predicators base rest
    | .ok (some lemmas) =>
      match parseCompounds check stems predicators base rest with
      | .error e => .error e
      | .ok more => .ok ((word, (count, lemmas)) :: more)

/-- the stems of the compounds, soynlp/pos/_news_pos.py:247 -/
def stemsOf (compounds : Dict Str Entry) : List Str := compounds.flatMap (fun e => e.2.2.map (·.1))

/-- the counter of the compounds, soynlp/pos/_news_pos.py:248 -/
def countsOf (compounds : Dict Str Entry) : List (Str × Nat) := compounds.map (fun e => (e.1, e.2.1))

/-- `d.update(e)` (soynlp/pos/_news_pos.py:290-310) -/
def update (d e : Dict Str Entry) : Dict Str Entry := e.foldl (fun d kv => Dict.set d kv.1 kv.2) d

/-- the counters carried through `_count_matched_patterns` (soynlp/pos/_news_pos.py:142-175) -/
structure Found where
  eojeols : Dict Str Nat
  nouns : Dict Str Nat
  adjectives : Dict Str Nat
  verbs : Dict Str Nat
  adverbs : Dict Str Nat
  josas : Dict Str Nat
  deriving DecidableEq

/-- soynlp/pos/_news_pos.py:251-263 -/
def matchWord (s : State) : Found :=
  let pick (p : Str → Bool) := s.eojeols.filter (fun e => p e.1)
  let nouns := pick (fun w => s.nouns.contains w)
  let adjectives := pick (fun w => Dict.has s.adjectives w)
  let verbs := pick (fun w => Dict.has s.verbs w)
  let adverbs := pick (fun w => s.adverbs.contains w)
  let eojeols := removeRecognized (removeRecognized (removeRecognized (removeRecognized s.eojeols (Dict.has nouns)) (Dict.has adjectives))
    (Dict.has verbs)) (Dict.has adverbs)
  ⟨eojeols, nouns, adjectives, verbs, adverbs, []⟩

/-- soynlp/pos/_news_pos.py:269-275 -/
def matchProcess (eojeols nouns : Dict Str Nat) (rset : Str → Bool) (rcounter : Dict Str Nat) (removals : List Str) :
    Dict Str Nat × Dict Str Nat × List Str :=
  let nounR := eojeols.filterMap (fun e => (separateLR e.1 (Dict.has nouns) rset).map (fun lr => (lr, e.2)))
  (cumulate nouns (nounR.map (fun x => (x.1.1, x.2))), cumulate rcounter (nounR.map (fun x => (x.1.2, x.2))),
    removals ++ nounR.map (fun x => x.1.1 ++ x.1.2))

/-- soynlp/pos/_news_pos.py:265-282 -/
def matchNounAndWord (s : State) (f : Found) : Found :=
  let a := matchProcess f.eojeols f.nouns (fun r => s.josas.contains r) [] []
  let b := matchProcess f.eojeols a.1 (Dict.has f.adjectives) f.adjectives a.2.2
  let c := matchProcess f.eojeols b.1 (Dict.has f.verbs) f.verbs b.2.2
  { f with eojeols := removeRecognized f.eojeols (fun w => c.2.2.contains w), nouns := c.1, adjectives := b.2.1, verbs := c.2.1, josas := a.2.1 }

/-- soynlp/pos/_news_pos.py:284-315 -/
def matchPredicatorCompounds (s : State) (f : Found) : PyM (State × Found) :=
  let predicators := fun w => Dict.has s.adjectives w || Dict.has s.verbs w
  match parseCompounds checkSuffixPrefix (fun w => s.verbStems.contains w || s.adjectiveStems.contains w) predicators s.adjectives f.eojeols with
  | .error e => .error e
  | .ok adj =>
    let s := { s with adjectives := update s.adjectives adj, adjectiveStems := s.adjectiveStems ++ stemsOf adj }
    let adjectives := cumulate f.adjectives (countsOf adj)
    match parseCompounds checkSuffixPrefix (fun w => s.verbStems.contains w || s.adjectiveStems.contains w) predicators s.verbs f.eojeols with
    | .error e => .error e
    | .ok verb =>
      let s := { s with verbs := update s.verbs verb, verbStems := s.verbStems ++ stemsOf verb }
      let verbs := cumulate f.verbs (countsOf verb)
      .ok (s, { f with eojeols := removeRecognized f.eojeols (fun w => Dict.has adjectives w || Dict.has verbs w), adjectives := adjectives, verbs := verbs })

/-- soynlp/pos/_news_pos.py:318-328 -/
def lemmatizeAll (stems eomis : List Str) (eojeols : Dict Str Nat) : Dict Str Entry :=
  eojeols.filterMap (fun e => (lemmatize stems eomis e.1).map (fun ls => (e.1, (e.2, ls))))

/-- soynlp/pos/_news_pos.py:317-346 -/
def lemmatizingPredicators (s : State) (f : Found) : State × Found :=
  let newA := lemmatizeAll s.adjectiveStems s.eomis f.eojeols
  let counterA := f.eojeols.filter (fun e => Dict.has newA e.1)
  let newV := lemmatizeAll s.verbStems s.eomis f.eojeols
  let counterV := f.eojeols.filter (fun e => Dict.has newV e.1)
  ({ s with adjectives := update s.adjectives newA, verbs := update s.verbs newV },
   { f with adjectives := cumulate f.adjectives counterA, verbs := cumulate f.verbs counterV,
            eojeols := removeRecognized (removeRecognized f.eojeols (Dict.has counterA)) (Dict.has counterV) })

/-- soynlp/pos/_news_pos.py:349-356, the loop: (nouns, rcounter, removals). `rset` is not used by the code. -/
def syllableNounAndR (eojeols : Dict Str Nat) (acc : Dict Str Nat × Dict Str Nat × List Str) : Dict Str Nat × Dict Str Nat × List Str :=
  eojeols.foldl (fun a e =>
    let l := e.1.take 1
    let r := e.1.drop 1
    if Dict.has a.2.1 r then (Dict.add a.1 l e.2, Dict.add a.2.1 r e.2, a.2.2 ++ [e.1]) else a) acc

/-- soynlp/pos/_news_pos.py:348-367 -/
def matchSyllableNounAndR (f : Found) : Found :=
  let a := syllableNounAndR f.eojeols (f.nouns, f.adjectives, [])
  let b := syllableNounAndR f.eojeols (a.1, f.verbs, a.2.2)
  let c := syllableNounAndR f.eojeols (b.1, f.josas, b.2.2)
  { f with eojeols := removeRecognized f.eojeols (fun w => c.2.2.contains w), nouns := c.1, adjectives := a.2.1, verbs := b.2.1, josas := c.2.1 }

/-- soynlp/pos/_news_pos.py:369-372 -/
def removeIrregularWords (s : State) (eojeols : Dict Str Nat) : Dict Str Nat :=
  eojeols.filter (fun e => !(s.josas.contains e.1 || s.eomis.contains e.1 || decide (e.1.length = 1)))

/-- soynlp/pos/_news_pos.py:408-419; `tokens[-1]` of an empty list is an `IndexError` -/
def parseCompound (suffix : Str → Bool) (tokens : List MaxScore.Tok) : PyM (Option Str) :=
  if tokens.dropLast.any (fun t => decide (t.score ≤ 0)) then .ok none
  else match tokens.getLast? with
    | none => .error .indexError
    | some last =>
      if tokens.length ≥ 3 ∧ suffix last.word = true then .ok (some (tokens.dropLast.flatMap (·.word)))
      else if last.score > 0 then .ok (some (tokens.flatMap (·.word)))
      else .ok none

/-- soynlp/pos/_news_pos.py:421-426: `tokenizer.tokenize(word, flatten=False)[0]` with the tokenizer's defaults `max_length=10`,
    `default_score=0.0` -/
def compoundTokens (nouns : Dict Str Nat) (word : Str) : PyM (List MaxScore.Tok) :=
  match MaxScore.tokenizeSpans ((nouns.filter (fun e => decide (e.1.length > 1))).map (fun e => (e.1, 1))) 10 0 word with
  | .error e => .error e
  | .ok [] => .error .indexError
  | .ok (t :: _) => .ok t

/-- soynlp/pos/_news_pos.py:423-430, the loop: the eojeols that are compounds, each with its count and the noun -/
def compoundNouns (nouns : Dict Str Nat) (suffix : Str → Bool) : Dict Str Nat → PyM (List (Str × Nat × Str))
  | [] => .ok []
  | (word, count) :: rest =>
    match compoundTokens nouns word with
    | .error e => .error e
    | .ok tokens =>
      match parseCompound suffix tokens with
      | .error e => .error e
      | .ok noun =>
        match compoundNouns nouns suffix rest with
        | .error e => .error e
        | .ok more => .ok (match noun with
          | none => more
          | some n => (word, count, n) :: more)

/-- soynlp/pos/_news_pos.py:374-387, 407-432 -/
def matchCompoundNouns (f : Found) : PyM Found :=
  let suffix := fun w => Dict.has f.nouns w || Dict.has f.adjectives w || Dict.has f.verbs w || Dict.has f.josas w
  match compoundNouns f.nouns suffix f.eojeols with
  | .error e => .error e
  | .ok cs =>
    let compounds := cumulate [] (cs.map (fun c => (c.2.2, c.2.1)))
    .ok { f with nouns := cumulate f.nouns compounds, eojeols := removeRecognized f.eojeols (fun w => (cs.map (·.1)).contains w) }

/-- the dictionary that `extract` returns, soynlp/pos/_news_pos.py:80-91 -/
structure WordTags where
  noun : Dict Str Nat
  eomi : List Str
  adjective : Dict Str (Nat × Option (List (Str × Str)))
  adjectiveStem : List Str
  verb : Dict Str (Nat × Option (List (Str × Str)))
  verbStem : List Str
  adverb : Dict Str Nat
  josa : List Str
  irrecognizable : Dict Str Nat
  confusedNouns : Dict Str Nat

/-- soynlp/pos/_news_pos.py:177-185 -/
def asPredicator (counter : Dict Str Nat) (lemmaDict : Dict Str Entry) (stems eomis : List Str) : Dict Str (Nat × Option (List (Str × Str))) :=
  counter.foldl (fun d e => Dict.set d e.1 (e.2, match Dict.get? lemmaDict e.1 with
    | some x => some x.2
    | none => lemmatize stems eomis e.1)) []

/-- soynlp/pos/_news_pos.py:142-175: the final state, the counters and the confused nouns -/
def countMatchedPatterns (s : State) : PyM (State × Found × Dict Str Nat) :=
  match matchPredicatorCompounds s (matchNounAndWord s (matchWord s)) with
  | .error e => .error e
  | .ok (s, f) =>
    let sf := lemmatizingPredicators s f
    let s := sf.1
    let f := matchSyllableNounAndR sf.2
    let f := { f with eojeols := removeIrregularWords s f.eojeols }
    match matchCompoundNouns f with
    | .error e => .error e
    | .ok f =>
      let confused := f.nouns.filter (fun e => Dict.has f.adjectives e.1 || Dict.has f.verbs e.1 || Dict.has f.adverbs e.1)
      .ok (s, { f with nouns := f.nouns.filter (fun e => !Dict.has confused e.1) }, confused)

/-- soynlp/pos/_news_pos.py:71-93 -/
def extract (s : State) : PyM (State × WordTags) :=
  match countMatchedPatterns s with
  | .error e => .error e
  | .ok (s, f, confused) =>
    .ok (s, {
      noun := f.nouns
      eomi := s.eomis
      adjective := asPredicator f.adjectives s.adjectives s.adjectiveStems s.eomis
      adjectiveStem := s.adjectiveStems
      verb := asPredicator f.verbs s.verbs s.verbStems s.eomis
      verbStem := s.verbStems
      adverb := f.adverbs
      josa := s.josas
      irrecognizable := f.eojeols
      confusedNouns := confused })

/-- `extract` with the statistics printed when `verbose` is set, which is the default: soynlp/pos/_news_pos.py:170-172, 389-405 and
    soynlp/pos/_chat_pos.py:57-59. The percentages divide by the total frequency of the eojeols before the extraction. -/
def printing (verbose : Bool) (extract : State → PyM (State × WordTags)) (s : State) : PyM (State × WordTags) :=
  match extract s with
  | .error e => .error e
  | .ok r => if verbose = true ∧ (Dict.values s.eojeols).sum = 0 then .error .zeroDivision else .ok r

/-- soynlp/pos/_adverb.py:10-15 with the default suffix: `stem[-1]` of an empty stem is an `IndexError`. The set is a list here. -/
def stemToAdverb (stems : List Str) (suffixs : List Str := [['히']]) : PyM (List Str) :=
  if suffixs = [] then .ok []
  else if stems.any (fun s => s = []) then .error .indexError
  else .ok (stems.flatMap (fun s => if s.getLast? = some '하' then suffixs.map (fun x => s.dropLast ++ x) else []))

end NewsPos
