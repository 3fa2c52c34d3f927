import Verif.Py.Nested
/-!
Model of soynlp/noun/_noun_postprocessing.py and of the loop of `LRNounExtractor_v2._post_processing`
(soynlp/noun/_noun_ver2.py:552-595). Log files are in Model/NounLog.lean; progress messages are not modelled. A noun table maps a word to a pair;
sets are lists used through membership only.
-/
namespace NounPost
open Py Nested

/-- soynlp/noun/frequent_enrolled_josa.txt:1-99, read by soynlp/noun/_noun_postprocessing.py:8-9 -/
def josaset : List Str := [
  "가".toList, "같이".toList, "거나".toList, "고".toList, "과".toList, "그려".toList, "까지".toList, "깨나".toList,
  "께".toList, "께서".toList, "나".toList, "나마".toList, "는".toList, "는커녕".toList, "니".toList, "다".toList,
  "다가".toList, "대로".toList, "대루".toList, "더러".toList, "도".toList, "두".toList, "든".toList, "든가".toList,
  "든지".toList, "따라".toList, "라고".toList, "라도".toList, "라든가".toList, "라든지".toList, "란".toList, "랑".toList,
  "로".toList, "로부터".toList, "로서".toList, "로써".toList, "루".toList, "를".toList, "마냥".toList, "마는".toList,
  "마다".toList, "마따나".toList, "마저".toList, "만".toList, "만큼".toList, "밖에".toList, "보고".toList, "보다".toList,
  "부터".toList, "뿐".toList, "서".toList, "서부터".toList, "아".toList, "야".toList, "야말로".toList, "에".toList,
  "에게".toList, "에게서".toList, "에다".toList, "에다가".toList, "에서".toList, "에서부터".toList, "여".toList, "와".toList,
  "요".toList, "으로".toList, "으로부터".toList, "으로서".toList, "으로써".toList, "으루".toList, "은".toList, "은커녕".toList,
  "을".toList, "의".toList, "이".toList, "이고".toList, "이나".toList, "이나마".toList, "이니".toList, "이라고".toList,
  "이라도".toList, "이라든가".toList, "이라든지".toList, "이란".toList, "이랑".toList, "이루".toList, "이며".toList,
  "이서".toList, "이야".toList, "이야말로".toList, "이여".toList, "이요".toList, "조차".toList, "처럼".toList, "치고".toList,
  "하고".toList, "하구".toList, "한테".toList, "한테서".toList]

/-- soynlp/noun/frequent_noun_suffix.txt:1-4, read by soynlp/noun/_noun_postprocessing.py:11-12 -/
def suffixset : List Str := ["맨".toList, "장".toList, "서".toList, "이".toList]

/-- soynlp/noun/_noun_postprocessing.py:21-23 -/
def selectTrueNouns {V : Type} (nouns : Dict Str V) (removals : List Str) : Dict Str V :=
  nouns.filter (fun e => !(removals.contains e.1))

/-- the cut positions `range(2, len(word))`, soynlp/noun/_noun_postprocessing.py:37, 84 -/
def cutPositions (word : Str) : List Nat := (List.range (word.length - 2)).map (· + 2)

/-- soynlp/noun/_noun_postprocessing.py:34-47: does the loop over the cuts reach line 46? -/
def detachHit {V : Type} (nouns : Dict Str V) (features : List Str) (word : Str) : Bool :=
  if word.length ≤ 2 then false
  else (cutPositions word).any (fun e =>
    if (word.drop e).length ≤ 1 then false
    else Dict.has nouns (word.take e) && features.contains (word.drop e))

/-- soynlp/noun/_noun_postprocessing.py:25-53 -/
def detachingFeatures {V : Type} (nouns : Dict Str V) (features : List Str) : Dict Str V × List Str :=
  let removals := (Dict.keys nouns).filter (detachHit nouns features)
  (selectTrueNouns nouns removals, removals)

/-- soynlp/noun/_noun_postprocessing.py:55-70 -/
def ignoreFeatures {V : Type} (nouns : Dict Str V) (features : List Str) : Dict Str V × List Str :=
  let removals := (Dict.keys nouns).filter (fun w => features.contains w)
  (selectTrueNouns nouns removals, removals)

/-- soynlp/noun/_noun_postprocessing.py:87-91: is the cut at `i` not skipped? The first components are compared. -/
def njCandidate (nouns : Dict Str (Rat × Rat)) (word : Str) (score : Rat × Rat) (i : Nat) : Bool :=
  josaset.contains (word.drop i) && !(suffixset.contains (word.drop i)) &&
    (match Dict.get? nouns (word.take i) with
     | none => false
     | some s => !(decide (score.1 ≥ s.1)))

/-- soynlp/noun/_noun_postprocessing.py:93-97: the number of josa in the original row of `l` -/
def josaCount (origin : Nested Str) (l : Str) : Nat := ((Dict.keys (row origin l)).filter (fun r => josaset.contains r)).length

/-- soynlp/noun/_noun_postprocessing.py:84-97 for one cut; a frozen graph has `_lr_origin = None` (`None.get` raises) -/
def njCut (nouns : Dict Str (Rat × Rat)) (origin : Option (Nested Str)) (minJosa : Int) (word : Str) (score : Rat × Rat)
    (i : Nat) : PyM Bool :=
  if njCandidate nouns word score i then
    match origin with
    | none => .error .attributeError
    | some g => .ok (decide ((josaCount g (word.take i) : Int) ≥ minJosa))
  else .ok false

/-- soynlp/noun/_noun_postprocessing.py:84-97, the loop over the cuts: was the word added to `removals`? (no `break`) -/
def njCuts (nouns : Dict Str (Rat × Rat)) (origin : Option (Nested Str)) (minJosa : Int) (word : Str) (score : Rat × Rat) :
    List Nat → PyM Bool
  | [] => .ok false
  | i :: is => do
    let a ← njCut nouns origin minJosa word score i
    let b ← njCuts nouns origin minJosa word score is
    pure (a || b)

/-- soynlp/noun/_noun_postprocessing.py:78-97 -/
def njRemovals (nouns : Dict Str (Rat × Rat)) (origin : Option (Nested Str)) (minJosa : Int) :
    List (Str × (Rat × Rat)) → PyM (List Str)
  | [] => .ok []
  | e :: es => do
    let b ← (if e.1.length ≤ 2 then .ok false else njCuts nouns origin minJosa e.1 e.2 (cutPositions e.1))
    let rest ← njRemovals nouns origin minJosa es
    pure (if b then e.1 :: rest else rest)

/-- soynlp/noun/_noun_postprocessing.py:72-103 -/
def checkNIsNJ (nouns : Dict Str (Rat × Rat)) (origin : Option (Nested Str)) (minJosa : Int := 5) :
    PyM (Dict Str (Rat × Rat) × List Str) := do
  let removals ← njRemovals nouns origin minJosa nouns
  pure (selectTrueNouns nouns removals, removals)

/-- one post-processing method, soynlp/noun/_noun_ver2.py:569-593; unknown names are skipped -/
def postMethod (pos common : List Str) (origin : Option (Nested Str)) (nouns : Dict Str (Rat × Rat)) (method : Str) :
    PyM (Dict Str (Rat × Rat)) :=
  if method = "detaching_features".toList then .ok (detachingFeatures nouns pos).1
  else if method = "ignore_features".toList then .ok (ignoreFeatures nouns (pos ++ common)).1
  else if method = "ignore_NJ".toList then (checkNIsNJ nouns origin).map (·.1)
  else .ok nouns

/-- soynlp/noun/_noun_ver2.py:552-595 -/
def postProcessing (pos common : List Str) (origin : Option (Nested Str)) (methods : List Str)
    (nouns : Dict Str (Rat × Rat)) : PyM (Dict Str (Rat × Rat)) :=
  methods.foldlM (postMethod pos common origin) nouns

/-- soynlp/noun/_noun_ver2.py:42-51: the constructor's treatment of `postprocessing`. `isinstance` with one argument
    raises TypeError, so only a falsy argument gets through. -/
def initPostprocessing (postprocessing : Option (List Str)) : PyM (List Str) :=
  match postprocessing with
  | none => .ok ["detaching_features".toList, "ignore_features".toList, "ignore_NJ".toList]
  | some [] => .ok ["detaching_features".toList, "ignore_features".toList, "ignore_NJ".toList]
  | some (_ :: _) => .error .typeError

end NounPost
