import Verif.Model.NounV2
/-!
What a call of `LRNounExtractor_v2.extract` (soynlp/noun/_noun_ver2.py:243-304) leaves in the extractor, also when it
raises: the same steps as `V2.extract`, with every assignment to an attribute made where the code makes it.
-/
namespace V2
open Py Nested

/-- soynlp/noun/_noun_ver2.py:483-513, with what has been done when a word raises (the eojeols removed from the graph are
    the only effect outside local variables) -/
def compoundGoLeft (pos : List Str) (scores : Dict Str Rat) (predictionScores : Dict Str (Rat × Rat)) : Acc → List (Str × Int) → Acc × PyM Unit
  | a, [] => (a, .ok ())
  | a, (word, count) :: rest => match compoundParts pos scores word with
    | .error e => (a, .error e)
    | .ok none => compoundGoLeft pos scores predictionScores a rest
    | .ok (some []) => compoundGoLeft pos scores predictionScores a rest
    | .ok (some (q :: qs)) => compoundGoLeft pos scores predictionScores (addCompound predictionScores a word count (q :: qs)) rest

/-- soynlp/noun/_noun_ver2.py:468-524: the decomposer is assigned first (line 473), then `_lr_origin` is looked at (line
    475, `None` on a frozen graph); the components are assigned at the end (line 522) -/
def extractCompoundsLeft (s : State) (g : LR.State) (predictionScores : Dict Str (Rat × Rat)) (minNounScore : Rat) :
    State × PyM (Dict Str (Rat × Rat)) :=
  let scores := nounScores predictionScores minNounScore
  let s := { s with lrgraph := some g, decomposer := some scores }
  match g.origin with
  | none => (s, .error .attributeError)
  | some origin =>
    let candidates := compoundCandidates origin scores
    match compoundGoLeft s.feats.pos scores predictionScores { candidates := candidates, graph := g } (sorted longerPairLe candidates) with
    | (a, .error e) => ({ s with lrgraph := some a.graph }, .error e)
    | (a, .ok ()) => ({ s with lrgraph := some a.graph, components := a.components },
        .ok (a.scores.map (fun e => (e.1, (e.2, ((Dict.getD a.counts e.1 0 : Int) : Rat))))))

/-- soynlp/noun/_noun_ver2.py:249-255 and, for the features, 204-241: the batch reduces the graph in place and
    `reset_lrgraph` restores it before the features are looked for -/
def extractBaseLeft (p : Params) (entLt : List Int → Rat → Bool) (enum : Nat → List Str → List Str) (s : State) (g : LR.State) :
    State × PyM (LR.State × List Str) :=
  let cands := Dict.keys (nounCandidates g (enum 0 s.feats.pos))
  if p.extractPosFeature then
    let jp : Josa.Params := {}
    let cands' := if cands = [] then Dict.keys (nounCandidates g (enum 0 s.feats.pos)) else cands
    let b := batchPredicting p s.feats g cands' jp.minNounScore
    let g := (LR.reset b.1).1
    let s := { s with lrgraph := some g }
    match Josa.extractDomainPosFeatures jp entLt (enum 2) b.2 g s.feats.pos [] with
    | .error e => (s, .error e)
    | .ok found => match appendFeatures s.feats "pos".toList (Dict.keys found) with
      | .error e => (s, .error e)
      | .ok F => ({ s with feats := F }, .ok (g, cands))
  else (s, .ok (g, cands))

/-- soynlp/noun/_noun_ver2.py:597-634: the graph is reset and reduced, the covered eojeols are counted in the attribute,
    then the division of the last message raises when no eojeol was counted; only afterwards (line 296) are the nouns stored -/
def finishLeft (p : Params) (enum : Nat → List Str → List Str) (s : State) (g : LR.State) (nouns : Dict Str (Rat × Rat)) (resetLrgraph : Bool) :
    State × PyM (Dict Str (Rat × Rat)) :=
  match NounPost.postProcessing s.feats.pos s.feats.common g.origin p.postprocessing nouns with
  | .error e => (s, .error e)
  | .ok nouns =>
    let g := (LR.reset g).1
    let r := coverGo s.feats nouns (g, s.numCovered) (sorted longerLe (Dict.keys (nounCandidates g (enum 1 s.feats.pos))))
    let s := { s with lrgraph := some r.1, numCovered := r.2 }
    if p.verbose = true ∧ s.numEojeols = 0 then (s, .error .zeroDivision)
    else ({ s with nouns := nouns, lrgraph := some (if resetLrgraph then (LR.reset r.1).1 else r.1) }, .ok nouns)

/-- soynlp/noun/_noun_ver2.py:243-304; the counter of covered eojeols is set to 0 before anything else -/
def extractLeft (p : Params) (entLt : List Int → Rat → Bool) (enum : Nat → List Str → List Str) (s : State) (minNounScore : Rat := 3/10)
    (minNounFrequency : Rat := 1) (resetLrgraph : Bool := true) : State × PyM (Dict Str (Rat × Rat)) :=
  let s := { s with numCovered := 0 }
  match s.lrgraph with
  | none => (s, .error .attributeError)
  | some g => match extractBaseLeft p entLt enum s g with
    | (s, .error e) => (s, .error e)
    | (s, .ok (g, cands)) =>
      let b := batchPredicting p s.feats g cands minNounScore
      let s := { s with lrgraph := some b.1 }
      if p.extractCompound then
        match extractCompoundsLeft s b.1 b.2 minNounScore with
        | (s, .error e) => (s, .error e)
        | (s, .ok compounds) => finishLeft p enum s (s.lrgraph.getD b.1) (combine b.2 compounds minNounScore minNounFrequency) resetLrgraph
      else finishLeft p enum s b.1 (combine b.2 [] minNounScore minNounFrequency) resetLrgraph

end V2
