import Verif.Model.MaxScore
/-!
Model of `MaxLRScoreTokenizer` in soynlp/tokenizer/_tokenizer.py (lines 227-456) with `debug=False`. Scores and
thresholds are rationals.
-/
namespace MaxLR
open Py

/-- the constructor's attributes (soynlp/tokenizer/_tokenizer.py:228-275) -/
structure Config where
  Dl : Dict Str Rat
  Dr : Dict Str Rat
  Pl : Dict Str Rat
  Pr : Dict Str Rat
  maxLDiff : Rat
  maxLRatio : Rat
  ensL : Rat
  ensLRDiff : Rat

/-- soynlp/tokenizer/_tokenizer.py:261-266: preference words are added with score 1 unless known -/
def addPreferred (d : Dict Str Rat) (p : Dict Str Rat) : Dict Str Rat :=
  (Dict.keys p).foldl (fun d w => if Dict.has d w then d else Dict.set d w 1) d

/-- soynlp/tokenizer/_tokenizer.py:248-275: what is left to do once the two dictionaries are there -/
def make (Dl Dr Pl Pr : Dict Str Rat) (maxLDiff maxLRatio ensL ensLRDiff : Rat) : Config :=
  ⟨addPreferred Dl Pl, addPreferred Dr Pr, Pl, Pr, maxLDiff, maxLRatio, ensL, ensLRDiff⟩

/-- how a caller may give a word collection (soynlp/tokenizer/_tokenizer.py:250-258): a dict with scores, or any other iterable of words -/
inductive Words where
  | dict (d : Dict Str Rat)
  | words (ws : List Str)

/-- soynlp/tokenizer/_tokenizer.py:250-258: `None` and empty ones become `{}`, words without scores get 1 -/
def Words.scores : Option Words → Dict Str Rat
  | none => []
  | some (.dict d) => d
  | some (.words ws) => ws.foldl (fun d w => Dict.set d w 1) []

/-- soynlp/tokenizer/_tokenizer.py:236-239: dividing by the sum of a row raises when the row is not empty and sums to 0 -/
def normRow (rdict : Dict Str Rat) : PyM (Dict Str Rat) :=
  if (Dict.values rdict).sum = 0 ∧ rdict ≠ [] then .error .zeroDivision
  else .ok (rdict.map (fun e => (e.1, e.2 / (Dict.values rdict).sum)))

/-- soynlp/tokenizer/_tokenizer.py:241 -/
def normGraph (graph : Dict Str (Dict Str Rat)) : PyM (Dict Str (Dict Str Rat)) :=
  graph.mapM (fun e => (normRow e.2).map (fun r => (e.1, r)))

/-- `d.update(e)` (soynlp/tokenizer/_tokenizer.py:255, 258) -/
def update (d e : Dict Str Rat) : Dict Str Rat := e.foldl (fun d kv => Dict.set d kv.1 kv.2) d

/-- soynlp/tokenizer/_tokenizer.py:245 -/
def runBuilder (builder : Option (Dict Str (Dict Str Rat) → PyM (Dict Str Rat × Dict Str Rat))) (lrgraph : Dict Str (Dict Str Rat)) :
    PyM (Dict Str Rat × Dict Str Rat) :=
  match builder with
  | none => .ok ([], [])
  | some b => b lrgraph

/-- soynlp/tokenizer/_tokenizer.py:228-275; `builder` is the caller's `tokenizer_builder`, which may raise. Also returned: the normalised graph. -/
def construct (builder : Option (Dict Str (Dict Str Rat) → PyM (Dict Str Rat × Dict Str Rat))) (lrgraph : Option (Dict Str (Dict Str Rat)))
    (Dl Dr : Option Words) (Pl Pr : Option (Dict Str Rat)) (maxLDiff : Rat := 3/10) (maxLRatio : Rat := 1/2) (ensL : Rat := 1/2) (ensLRDiff : Rat := 3/10) :
    PyM (Config × Dict Str (Dict Str Rat)) :=
  match normGraph (lrgraph.getD []) with
  | .error e => .error e
  | .ok norm => (runBuilder builder (lrgraph.getD [])).map (fun d =>
    (make (update d.1 (Words.scores Dl)) (update d.2 (Words.scores Dr)) (Pl.getD []) (Pr.getD []) maxLDiff maxLRatio ensL ensLRDiff, norm))

/-- soynlp/tokenizer/_tokenizer.py:268-269 -/
def maxLen (d : Dict Str Rat) : Nat := (Dict.keys d).foldl (fun m w => max m w.length) 0

/-- the candidate list `[l, r, p0, p1, p2, len_l, len_r, len_lr, score_l, score_r, total]`
    (soynlp/tokenizer/_tokenizer.py:327-340,379) -/
structure Cand where
  l : Str
  r : Str
  p0 : Nat
  p1 : Nat
  p2 : Nat
  lenL : Nat
  lenR : Nat
  lenLR : Nat
  sl : Rat
  sr : Rat
  total : Rat
  deriving DecidableEq, Repr

/-- soynlp/tokenizer/_tokenizer.py:307-320 -/
def initL (g : Config) (t : Str) : List (Str × Nat × Nat × Nat) :=
  (List.range t.length).flatMap fun b =>
    (List.range' (b + 1) (min t.length (b + maxLen g.Dl) - b)).filterMap fun e =>
      let l := slice t b e
      if Dict.has g.Dl l then some (l, b, e, e - b) else none

/-- soynlp/tokenizer/_tokenizer.py:325-340; the two scores of lines 344-346 are filled in here -/
def initLR (g : Config) (t : Str) : List Cand :=
  (initL g t).flatMap fun (l, b, e, lenL) =>
    (List.range (min (maxLen g.Dr) (t.length - e) + 1)).filterMap fun lenR =>
      if lenL = 1 ∧ lenR = 0 then none
      else
        let r := slice t e (e + lenR)
        if r ≠ [] ∧ Dict.has g.Dr r = false then none
        else some ⟨l, r, b, e, e + lenR, lenL, lenR, lenL + lenR, Dict.getD g.Dl l 0, Dict.getD g.Dr r 0, 0⟩

/-- soynlp/tokenizer/_tokenizer.py:302-305 -/
def initCands (g : Config) (t : Str) : List Cand := sorted (fun a b => decide (a.p2 ≤ b.p2)) (initLR g t)

/-- soynlp/tokenizer/_tokenizer.py:354-362: is there a longer word around `best` with a score not much lower?
    Division by zero raises. -/
def existLonger (g : Config) (best : Cand) : List Cand → PyM Bool
  | [] => .ok false
  | c :: cs =>
    if c.p0 > best.p0 ∨ c.p1 < best.p1 ∨ ¬ (c.p0 < best.p0 ∨ c.p1 > best.p1) then existLonger g best cs
    else if best.sl - c.sl < g.maxLDiff then .ok true
    else if g.ensL * (1/2) < best.sl then
      if c.sl + 1/100000 = 0 then .error .zeroDivision
      else if (best.sl + 1/100000) / (c.sl + 1/100000) < g.maxLRatio then .ok true
      else existLonger g best cs
    else existLonger g best cs

/-- soynlp/tokenizer/_tokenizer.py:349-367 -/
def removeSubsetGo (g : Config) : List Cand → PyM (List Cand)
  | [] => .ok []
  | best :: cs => do
    let ex ← existLonger g best cs
    let rest ← removeSubsetGo g cs
    .ok (if ex then rest else best :: rest)

/-- soynlp/tokenizer/_tokenizer.py:343-367 -/
def removeSubset (g : Config) (cs : List Cand) : PyM (List Cand) :=
  removeSubsetGo g (sorted (fun a b => decide (b.sl ≤ a.sl)) cs)

/-- the order of the key `(-x[-2], -x[-1], x[2], -x[5])`, soynlp/tokenizer/_tokenizer.py:379 -/
def scoreLe (a b : Cand) : Bool :=
  decide (b.sl < a.sl ∨ (b.sl = a.sl ∧ (b.sr < a.sr ∨ (b.sr = a.sr ∧ (a.p0 < b.p0 ∨ (a.p0 = b.p0 ∧ b.lenL ≤ a.lenL))))))

/-- same candidate object (soynlp/tokenizer/_tokenizer.py:385-396) -/
def sameCand (a b : Cand) : Bool := a.p0 = b.p0 && a.p1 = b.p1 && a.p2 = b.p2

/-- `word[-2]` at line 391: the left score, or the right score once a total has been appended to the same list object
    (soynlp/tokenizer/_tokenizer.py:391) -/
def secondLast (scored : List Cand) (w : Cand) : Rat := if scored.any (sameCand w) then w.sr else w.sl

/-- soynlp/tokenizer/_tokenizer.py:385-396: does R overlap an ensured next L? -/
def overlapped (g : Config) (all scored : List Cand) (c : Cand) : Bool :=
  (List.range' c.p1 (c.p2 - c.p1)).any fun b =>
    (all.filter (fun w => w.p0 = b)).any fun w =>
      decide (g.ensL ≤ secondLast scored w) ||
        decide (secondLast scored w + Dict.getD g.Pl w.l 0 - c.sr > g.ensLRDiff)

/-- soynlp/tokenizer/_tokenizer.py:380-400; `all` is the content of `begin_to_words` -/
def scoreGo (g : Config) (all : List Cand) : List Cand → List Cand → List Cand
  | scored, [] => scored
  | scored, c :: cs =>
    if c.lenR ≠ 0 ∧ overlapped g all scored c = true then scoreGo g all scored cs
    else
      let total := (if c.r = [] then c.sl * 2 else c.sl + c.sr) + Dict.getD g.Pl c.l 0 + Dict.getD g.Pr c.r 0
      scoreGo g all (scored ++ [{ c with total := total }]) cs

/-- soynlp/tokenizer/_tokenizer.py:369-401 -/
def score (g : Config) (cs : List Cand) : List Cand := scoreGo g cs [] (sorted scoreLe cs)

/-- soynlp/tokenizer/_tokenizer.py:406-411 -/
def findGo : Nat → List Cand → List Cand
  | 0, _ => []
  | _, [] => []
  | fuel + 1, c :: cs => c :: findGo fuel (cs.filter (fun d => !(decide (c.p0 < d.p2) && decide (c.p2 > d.p0))))

/-- soynlp/tokenizer/_tokenizer.py:403-412 -/
def findBest (cs : List Cand) : List Cand :=
  sorted (fun a b => decide (a.p0 ≤ b.p0)) (findGo cs.length (sorted (fun a b => decide (b.total ≤ a.total)) cs))

/-- soynlp/tokenizer/_tokenizer.py:446-456. `b_` stays 0. A piece that is in the R dictionary raises AttributeError:
    `MaxScoreTokenizer` has no attribute `scores` (it is `_scores`). -/
def baseSub (g : Config) (t : Str) (b : Nat) : PyM (List Cand) := do
  let words ← MaxScore.tokenize g.Dr 10 0 t
  words.mapM fun w =>
    if Dict.has g.Dr w then .error .attributeError
    else .ok ⟨w, [], b, b + w.length, b + w.length, w.length, 0, w.length, 0, 0, 0⟩

/-- soynlp/tokenizer/_tokenizer.py:417-418, 441-444 -/
def firstSub (g : Config) (t : Str) (words : List Cand) : PyM (List Cand) :=
  match words.head? with
  | some w => if w.p0 > 0 then baseSub g (slice t 0 w.p0) 0 else .ok []
  | none => .ok []

/-- soynlp/tokenizer/_tokenizer.py:419-420, 436-439: starts from the end of the last *L* -/
def lastSub (g : Config) (t : Str) (words : List Cand) : PyM (List Cand) :=
  match words.getLast? with
  | some w => if w.p1 < t.length then baseSub g (t.drop w.p1) w.p1 else .ok []
  | none => .ok []

/-- soynlp/tokenizer/_tokenizer.py:425-434 -/
def interSubs (g : Config) (t : Str) (words : List Cand) : PyM (List (List Cand)) :=
  (words.zip words.tail).mapM fun p =>
    if p.1.p2 = p.2.p0 then .ok [] else baseSub g (slice t p.1.p2 p.2.p0) p.1.p2

/-- soynlp/tokenizer/_tokenizer.py:414-423 -/
def postprocess (g : Config) (t : Str) (words : List Cand) : PyM (List Cand) := do
  let first ← firstSub g t words
  let last ← lastSub g t words
  let inter ← interSubs g t words
  .ok (sorted (fun a b => decide (a.p0 ≤ b.p0)) (words ++ ((first ++ last) ++ inter.flatten)))

/-- the tag of a token (soynlp/tokenizer/_tokenizer.py:296-299) -/
inductive Tag where
  | L | R
  deriving DecidableEq, Repr

/-- soynlp/tokenizer/_tokenizer.py:292-295 -/
def choosePost (g : Config) (t : Str) (best : List Cand) : PyM (List Cand) :=
  if best ≠ [] then postprocess g t best else baseSub g t 0

/-- soynlp/tokenizer/_tokenizer.py:286-300 with debug=False -/
def tokenizeEojeol (g : Config) (t : Str) : PyM (List (Str × Tag)) := do
  let cs ← removeSubset g (initCands g t)
  let best := findBest (score g cs)
  let post ← choosePost g t best
  .ok ((post.flatMap (fun p => [(p.l, Tag.L), (p.r, Tag.R)])).filter (fun w => w.1 ≠ []))

/-- soynlp/tokenizer/_tokenizer.py:280-284 with flatten=True -/
def tokenize (g : Config) (sent : Str) : PyM (List (Str × Tag)) := do
  let ws ← (splitWs sent).mapM (tokenizeEojeol g)
  .ok ws.flatten

end MaxLR
