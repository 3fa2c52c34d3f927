import Verif.Model.NounPost
import Verif.Model.NounV2
import Verif.Model.Eomi
import Verif.Py.File
/-!
The log files of `LRNounExtractor_v2` (soynlp/noun/_noun_ver2.py:260-265, 560-565 and soynlp/noun/_noun_postprocessing.py:14-19)
and of `EomiExtractor` (soynlp/predicator/_eomi.py:63-68).
A file is its decoded text. `check_dirs` and OS errors are not modelled: `logpath` names files in a directory that exists
and is writable.
-/
namespace NounPost
open Py Nested

/-- `'{}\n'.format(word)` for each word, soynlp/noun/_noun_postprocessing.py:18-19 -/
def wordLines (words : List Str) : Str := words.flatMap (fun w => w ++ ['\n'])

/-- soynlp/noun/_noun_postprocessing.py:14-19: the file is opened for appending -/
def writeLog (content header : Str) (words : List Str) : Str :=
  content ++ ('\n' :: header ++ ['\n']) ++ wordLines (sorted strLe words)

/-- soynlp/noun/_noun_ver2.py:569-593 with a log file: the file after one method, and the method's result. A method that
    raises has not written yet; an unknown name writes nothing. The first header ends with its own newline
    (soynlp/noun/_noun_ver2.py:571), the others are the defaults of soynlp/noun/_noun_postprocessing.py:57-58, 74-75. -/
def postMethodLogged (pos common : List Str) (origin : Option (Nested Str)) (content : Str) (nouns : Dict Str (Rat × Rat)) (method : Str) :
    Str × PyM (Dict Str (Rat × Rat)) :=
  if method = "detaching_features".toList then
    (writeLog content "## Ignore noun candidates from detaching pos features\n".toList (detachingFeatures nouns pos).2, .ok (detachingFeatures nouns pos).1)
  else if method = "ignore_features".toList then
    (writeLog content "## Ignored noun candidates these are same with features".toList (ignoreFeatures nouns (pos ++ common)).2,
      .ok (ignoreFeatures nouns (pos ++ common)).1)
  else if method = "ignore_NJ".toList then
    match checkNIsNJ nouns origin with
    | .error e => (content, .error e)
    | .ok r => (writeLog content "## Ignored true N+J".toList r.2, .ok r.1)
  else (content, .ok nouns)

/-- soynlp/noun/_noun_ver2.py:567-593, the loop -/
def postLoopLogged (pos common : List Str) (origin : Option (Nested Str)) : Str → Dict Str (Rat × Rat) → List Str → Str × PyM (Dict Str (Rat × Rat))
  | content, nouns, [] => (content, .ok nouns)
  | content, nouns, m :: ms => match postMethodLogged pos common origin content nouns m with
    | (content, .error e) => (content, .error e)
    | (content, .ok nouns) => postLoopLogged pos common origin content nouns ms

/-- soynlp/noun/_noun_ver2.py:552-595 with a log file: the file is first emptied (line 563-565), whatever it held -/
def postProcessingLogged (pos common : List Str) (origin : Option (Nested Str)) (methods : List Str) (_old : Str) (nouns : Dict Str (Rat × Rat)) :
    Str × PyM (Dict Str (Rat × Rat)) := postLoopLogged pos common origin [] nouns methods

end NounPost

namespace V2
open Py Nested

/-- `sorted(…, key=lambda x:-x[1][1])`, soynlp/noun/_noun_ver2.py:264, soynlp/predicator/_eomi.py:67 -/
def scoreDownLe (x y : Str × (Rat × Rat)) : Bool := decide (y.2.2 ≤ x.2.2)

/-- soynlp/noun/_noun_ver2.py:261-265, soynlp/predicator/_eomi.py:64-68: a header line, then the table in order of
    decreasing score. `num` stands for the way Python prints a number. -/
def scoreLog (num : Rat → Str) (header : Str) (table : Dict Str (Rat × Rat)) : Str :=
  (header ++ ['\n']) ++ (sorted scoreDownLe table).flatMap (fun e => e.1 ++ [' '] ++ num e.2.1 ++ [' '] ++ num e.2.2 ++ ['\n'])

/-- the two log files (soynlp/noun/_noun_ver2.py:261, 560); `none` while a file does not exist -/
structure Logs where
  prediction : Option Str
  post : Option Str

/-- soynlp/noun/_noun_ver2.py:243-304 with `logpath` set: the log files afterwards, and what `extract` gives -/
def extractLogged (num : Rat → Str) (old : Logs) (p : Params) (entLt : List Int → Rat → Bool) (enum : Nat → List Str → List Str) (s : State)
    (minNounScore : Rat := 3/10) (minNounFrequency : Rat := 1) (resetLrgraph : Bool := true) : Logs × PyM (State × Dict Str (Rat × Rat)) :=
  match s.lrgraph with
  | none => (old, .error .attributeError)
  | some g => match extractBase p entLt enum s.feats g with
    | .error e => (old, .error e)
    | .ok (F, g, cands) =>
      let b := batchPredicting p F g cands minNounScore
      let logs : Logs := ⟨some (scoreLog num "noun score frequency".toList b.2), old.post⟩
      match extractCompoundsIf p F s b.1 b.2 minNounScore with
      | .error e => (logs, .error e)
      | .ok (s, g, compounds) =>
        let nouns := combine b.2 compounds minNounScore minNounFrequency
        let post := NounPost.postProcessingLogged F.pos F.common g.origin p.postprocessing (old.post.getD []) nouns
        let logs : Logs := ⟨logs.prediction, some post.1⟩
        match post.2 with
        | .error e => (logs, .error e)
        | .ok nouns => match checkCovered p (enum 1) F g nouns 0 s.numEojeols with
          | .error e => (logs, .error e)
          | .ok r =>
            let s' : State := { s with feats := F, lrgraph := some (if resetLrgraph then (LR.reset r.1).1 else r.1), numCovered := r.2, nouns := nouns }
            (logs, .ok (s', nouns))

end V2

namespace Eomi
open Py

/-- `sorted(…, key=lambda x:-x[1][1])`, soynlp/predicator/_eomi.py:67 -/
def scoreDownLe (x y : Str × (Int × Rat)) : Bool := decide (y.2.2 ≤ x.2.2)

/-- soynlp/predicator/_eomi.py:64-68; `num` stands for the way Python prints a score -/
def scoreLog (num : Rat → Str) (table : Dict Str (Int × Rat)) : Str :=
  ("eomi frequency score".toList ++ ['\n']) ++
    (sorted scoreDownLe table).flatMap (fun e => e.1 ++ [' '] ++ intStr e.2.1 ++ [' '] ++ num e.2.2 ++ ['\n'])

/-- soynlp/predicator/_eomi.py:35-85 with `logpath` set: the log file afterwards (`none`: there is none), and what `extract`
    gives. The scores written are those of the batch prediction, not of the lemmatized endings. -/
def extractLogged (num : Rat → Str) (old : Option Str) (enumS : List Str → List Str) (enumL : List (Str × Str) → List (Str × Str)) (s : State)
    (condition : Str := []) (minScore : Rat := 3/10) (minFrequency : Int := 1) (_resetLrgraph : Bool := true) :
    Option Str × PyM (State × Dict Str (Int × Rat)) :=
  match stemSurfaces s.stems with
  | .error e => (old, .error e)
  | .ok S =>
    let b := batchPrediction S s.nouns s.minNumOfFeatures minScore s.lrgraph (Dict.keys (candidates s.lrgraph (enumS S.dedup) condition))
    let g := (LR.reset b.1).1
    let out := frequent minFrequency minScore (lemmatize enumL s.stems g (accepted minScore b.2))
    (some (scoreLog num b.2), .ok ({ s with lrgraph := g, eomis := some out }, out))

end Eomi
