import Verif.Py.Dict
import Verif.Py.Str
import Verif.Py.Sort
import Mathlib.Analysis.SpecialFunctions.Pow.Real
/-!
Model of soynlp/word/_word.py `WordExtractor`: training, frequencies, cohesion, accessor variety and branching entropy.
Counts are natural numbers; `np.power` is the real power. Printing and pickling are not modelled.
-/
namespace WX
open Py

/-- the parameters used below, soynlp/word/_word.py:27-51 -/
structure Params where
  maxLeft : Int := 10
  maxRight : Int := 6
  minFrequency : Int := 5

/-- the trained tables `L, R, _aL, _aR`, soynlp/word/_word.py:37-40 -/
structure State where
  L : Dict Str Nat := []
  R : Dict Str Nat := []
  aL : Dict Str Nat := []
  aR : Dict Str Nat := []
  deriving DecidableEq

/-- soynlp/word/_word.py:87-88: the prefixes `word[:i]`, `1 ≤ i ≤ min(max_left_length + 1, len(word))` -/
def lefts (maxLeft : Int) (word : Str) : List Str :=
  (List.range (min (maxLeft + 1) word.length).toNat).map (fun i => word.take (i + 1))

/-- soynlp/word/_word.py:89-90 (and 99): the suffixes `word[-i:]`, `1 ≤ i < min(max_right_length + 1, len(word))` -/
def rights (maxRight : Int) (word : Str) : List Str :=
  (List.range (min (maxRight + 1) word.length - 1).toNat).map (fun i => word.drop (word.length - (i + 1)))

/-- soynlp/word/_word.py:101: the prefixes `word[:i]`, `1 ≤ i < min(max_left_length + 1, len(word))` -/
def properLefts (maxLeft : Int) (word : Str) : List Str :=
  (List.range (min (maxLeft + 1) word.length - 1).toNat).map (fun i => word.take (i + 1))

/-- the keys incremented once each: `d[k] += 1` for every `k` in turn (soynlp/word/_word.py:88,90) -/
def incAll (d : Dict Str Nat) (ks : List Str) : Dict Str Nat := ks.foldl (fun d k => Dict.add d k 1) d

/-- soynlp/word/_word.py:83-90: the keys of `L` (`R`) incremented by one sentence -/
def leftKeys (p : Params) (words : List Str) : List Str :=
  words.flatMap (fun word => if word.length ≤ 1 then [] else lefts p.maxLeft word)
/-- soynlp/word/_word.py:83-90, the right parts of a sentence -/
def rightKeys (p : Params) (words : List Str) : List Str :=
  words.flatMap (fun word => if word.length ≤ 1 then [] else rights p.maxRight word)

/-- soynlp/word/_word.py:94: `zip([words[-1]]+words[:-1], words, words[1:]+[words[0]])` -/
def circular (words : List Str) : List (Str × Str × Str) :=
  (words.getLast?.toList ++ words.dropLast).zip (words.zip (words.drop 1 ++ words.head?.toList))

/-- soynlp/word/_word.py:95-102: the keys of `_aL` (`_aR`) incremented by one sentence. Words are non-empty, so
    `right_word[0]` and `left_word[-1]` exist. -/
def aLeftKeys (p : Params) (words : List Str) : List Str :=
  (circular words).flatMap (fun t =>
    (t.2.1 ++ ' ' :: t.2.2.take 1) :: (rights p.maxRight t.2.1).map (fun s => s ++ ' ' :: t.2.2.take 1))
/-- soynlp/word/_word.py:95-102, the pairs (last character of the previous word, left part) -/
def aRightKeys (p : Params) (words : List Str) : List Str :=
  (circular words).flatMap (fun t =>
    (t.1.drop (t.1.length - 1) ++ ' ' :: t.2.1) :: (properLefts p.maxLeft t.2.1).map (fun s => t.1.drop (t.1.length - 1) ++ ' ' :: s))

/-- soynlp/word/_word.py:59-61 -/
def pruneMin (m : Int) (d : Dict Str Nat) : Dict Str Nat := d.filter (fun kv => decide ((kv.2 : Int) ≥ m))

/-- soynlp/word/_word.py:62-64 -/
def pruneOne (d : Dict Str Nat) : Dict Str Nat := d.filter (fun kv => decide (kv.2 > 1))

/-- soynlp/word/_word.py:77-105, one sentence with its index; a sentence of at most one word skips the pruning test -/
def trainSent (p : Params) (numForPruning : Int) (s : State) (si : Str × Nat) : State :=
  let words := splitWs si.1
  let s := { s with L := incAll s.L (leftKeys p words), R := incAll s.R (rightKeys p words) }
  if words.length ≤ 1 then s
  else
    let s := { s with aL := incAll s.aL (aLeftKeys p words), aR := incAll s.aR (aRightKeys p words) }
    if numForPruning > 0 ∧ (si.2 : Int) % numForPruning = 0 then
      { s with L := pruneMin p.minFrequency s.L, R := pruneMin p.minFrequency s.R }
    else s

/-- soynlp/word/_word.py:56-116 -/
def train (p : Params) (s : State) (sents : List Str) (numForPruning : Int := 0) (cumulate : Bool := true) : PyM State :=
  if sents.length ≤ 0 then .error .valueError
  else
    let s := if cumulate then s else {}
    let s := sents.zipIdx.foldl (trainSent p numForPruning) s
    .ok ⟨pruneMin p.minFrequency s.L, pruneMin p.minFrequency s.R, pruneOne s.aL, pruneOne s.aR⟩

/-- soynlp/word/_word.py:177-178 -/
def frequency (s : State) (w : Str) : Nat × Nat := (Dict.getD s.L w 0, Dict.getD s.R w 0)

/-- one component of soynlp/word/_word.py:173-174: `0 if freq == 0 else (freq / table[key]) ** (1 / (len - 1))` -/
noncomputable def cohesionSide (t : Dict Str Nat) (freq : Nat) (key : Str) (len : Nat) : PyM ℝ :=
  if freq = 0 then .ok 0
  else match Dict.get? t key with
    | none => .error .keyError
    | some 0 => .error .zeroDivision
    | some n => .ok (((freq : ℝ) / (n : ℝ)) ^ ((1 : ℝ) / ((len : ℝ) - 1)))

/-- soynlp/word/_word.py:168-175 -/
noncomputable def cohesion (s : State) (w : Str) : PyM (ℝ × ℝ) :=
  if w.length ≤ 1 then .ok (0, 0)
  else
    let f := frequency s w
    match cohesionSide s.L f.1 (w.take 1) w.length with
    | .error e => .error e
    | .ok l => match cohesionSide s.R f.2 (w.drop (w.length - 1)) w.length with
      | .error e => .error e
      | .ok r => .ok (l, r)

/-! branching entropy and accessor variety -/

/-- soynlp/word/_word.py:222-223, 235-236 -/
def leftExt (s : State) (w : Str) : Dict Str Nat :=
  let d := s.R.filter (fun kv => decide ((kv.1.length : Int) - 1 = w.length ∧ kv.1.drop 1 = w))
  (s.aR.filter (fun kv => decide ((kv.1.length : Int) - 2 = w.length ∧ kv.1.drop 2 = w))).foldl (fun d kv => Dict.set d kv.1 kv.2) d

/-- soynlp/word/_word.py:224-225, 237-238 -/
def rightExt (s : State) (w : Str) : Dict Str Nat :=
  let d := s.L.filter (fun kv => decide ((kv.1.length : Int) - 1 = w.length ∧ kv.1.dropLast = w))
  (s.aL.filter (fun kv => decide ((kv.1.length : Int) - 2 = w.length ∧ kv.1.take (kv.1.length - 2) = w))).foldl (fun d kv => Dict.set d kv.1 kv.2) d

/-- soynlp/word/_word.py:233-241 -/
def accessorVariety (s : State) (w : Str) : Nat × Nat := ((leftExt s w).length, (rightExt s w).length)

/-- soynlp/word/_word.py:14-22 -/
noncomputable def entropy (d : Dict Str Nat) : ℝ :=
  if d = [] then 0
  else
    let sum : ℕ := (d.map (·.2)).sum
    (-1 : ℝ) * (d.map (fun kv => (kv.2 : ℝ) / (sum : ℝ) * Real.log ((kv.2 : ℝ) / (sum : ℝ)))).sum

/-- soynlp/word/_word.py:220-228 -/
noncomputable def branchingEntropy (s : State) (w : Str) : ℝ × ℝ :=
  (if leftExt s w = [] then 0 else entropy (leftExt s w), if rightExt s w = [] then 0 else entropy (rightExt s w))

/-- soynlp/word/_word.py:185-189 -/
def ofLength (d : Dict Str Nat) (n : Int) : List Str := (d.map (·.1)).filter (fun w => decide ((w.length : Int) = n))

/-- `extensions[parse(word)].append(word)` (soynlp/word/_word.py:197,200) -/
def appendTo (d : Dict Str (List Str)) (k : Str) (w : Str) : Dict Str (List Str) := Dict.set d k (Dict.getD d k [] ++ [w])

/-- `word.replace(' ', '')` (soynlp/word/_word.py:200) -/
def noBlank (w : Str) : Str := w.filter (fun c => decide (c ≠ ' '))

/-- soynlp/word/_word.py:195-200 -/
def extensions (parse : Str → Str) (words words_ : List Str) : Dict Str (List Str) :=
  words_.foldl (fun d w => appendTo d (parse (noBlank w)) w) (words.foldl (fun d w => appendTo d (parse w) w) [])

/-- soynlp/word/_word.py:202; a missing key (`None` there) cannot occur, 0 stands for it -/
def extFreq (counter counterA : Dict Str Nat) (exts : List Str) : Dict Str Nat :=
  Dict.ofList (exts.map (fun ext => (ext, if ' ' ∈ ext then Dict.getD counterA ext 0 else Dict.getD counter ext 0)))

/-- soynlp/word/_word.py:190-204 -/
def entropyTable {α : Type} (score : Dict Str Nat → α) (parse : Str → Str) (maxLength : Int) (counter counterA : Dict Str Nat) : Dict Str α :=
  (List.range (maxLength - 2).toNat).foldl (fun be (i : Nat) =>
    (extensions parse (ofLength counter ((i : Int) + 2)) (ofLength counterA ((i : Int) + 3))).foldl
      (fun be e => Dict.set be e.1 (score (extFreq counter counterA e.2))) be) []

/-- soynlp/word/_word.py:205-210 -/
def merge {α : Type} [Zero α] (l r : Dict Str α) : Dict Str (α × α) :=
  r.foldl (fun be e => if Dict.has l e.1 then be else Dict.set be e.1 (0, e.2)) (l.map (fun e => (e.1, (e.2, Dict.getD r e.1 0))))

/-- soynlp/word/_word.py:180-218 -/
def allBranching {α : Type} [Zero α] (score : Dict Str Nat → α) (p : Params) (s : State) : Dict Str (α × α) :=
  merge (entropyTable score (fun e => e.drop 1) (p.maxRight + 1) s.R s.aR)
    (entropyTable score (fun e => e.dropLast) (p.maxLeft + 1) s.L s.aL)

/-- soynlp/word/_word.py:230-231 -/
def allAccessorVariety (p : Params) (s : State) : Dict Str (Nat × Nat) := allBranching List.length p s

/-- soynlp/word/_word.py:243-246: the word set (as a list, in an unspecified order without repetition in Python) -/
def words (p : Params) (s : State) : List Str :=
  (s.L.map (·.1)).filter (fun w => decide ((w.length : Int) ≤ p.maxLeft)) ++ (s.R.map (·.1)).filter (fun w => decide ((w.length : Int) ≤ p.maxRight))

/-- soynlp/word/_word.py:12 -/
structure Scores where
  cohesionForward : ℝ
  cohesionBackward : ℝ
  leftBE : ℝ
  rightBE : ℝ
  leftAV : Nat
  rightAV : Nat
  leftFreq : Nat
  rightFreq : Nat

/-- soynlp/word/_word.py:154-166: the table of non-zero cohesion scores of the words, enumerated in some order -/
noncomputable def allCohesion (s : State) : List Str → Dict Str (ℝ × ℝ) → PyM (Dict Str (ℝ × ℝ))
  | [], cps => .ok cps
  | w :: ws, cps =>
    match cohesion s w with
    | .error e => .error e
    | .ok cp => open Classical in allCohesion s ws (if cp.1 = 0 ∧ cp.2 = 0 then cps else Dict.set cps w cp)

/-- soynlp/word/_word.py:142-152; `order` is the order in which Python enumerates the set of `words()` -/
noncomputable def wordScores (p : Params) (s : State) (order : List Str) : PyM (Dict Str Scores) :=
  match allCohesion s order [] with
  | .error e => .error e
  | .ok cps =>
    .ok (order.foldl (fun d w =>
      let cp := Dict.getD cps w (0, 0)
      let be := Dict.getD (allBranching entropy p s) w (0, 0)
      let av := Dict.getD (allAccessorVariety p s) w (0, 0)
      Dict.set d w ⟨cp.1, cp.2, be.1, be.2, av.1, av.2, Dict.getD s.L w 0, Dict.getD s.R w 0⟩) [])

/-- the thresholds of the constructor, soynlp/word/_word.py:43-51 -/
structure Cuts where
  minFrequency : Int := 5
  minCohesionForward : ℝ := 1 / 20
  minCohesionBackward : ℝ := 0
  maxDroprate : ℝ := 98 / 100
  minLeftBE : ℝ := 0
  minRightBE : ℝ := 0
  minLeftAV : Int := 0
  minRightAV : Int := 0
  removeSubwords : Bool := false

open Classical in
/-- soynlp/word/_word.py:123-140, the body of the loop of `extract`. `L[subword]` is a positive count (C53), so the
    division does not raise. -/
noncomputable def extractStep (c : Cuts) (L : Dict Str Nat) (acc : Dict Str Scores) (ws : Str × Scores) : Dict Str Scores :=
  let word := ws.1
  let score := ws.2
  if score.leftBE < c.minLeftBE ∨ score.rightBE < c.minRightBE ∨ (score.leftAV : Int) < c.minLeftAV ∨
      (score.rightAV : Int) < c.minRightAV ∨ ((max score.leftFreq score.rightFreq : Nat) : Int) < c.minFrequency then acc
  else if word.length ≥ 2 ∧ (score.cohesionForward < c.minCohesionForward ∨ score.cohesionBackward < c.minCohesionBackward) then acc
  else
    let acc := Dict.set acc word score
    if c.removeSubwords = false then acc
    else
      let subword := word.dropLast
      let droprate : ℝ := match Dict.get? L subword with
        | none => 0
        | some n => (score.leftFreq : ℝ) / (n : ℝ)
      if droprate > c.maxDroprate ∧ Dict.has acc subword = true then Dict.erase acc subword else acc

/-- soynlp/word/_word.py:118-140 with a non-empty `scores`; sorted by length, stably -/
noncomputable def extract (c : Cuts) (L : Dict Str Nat) (scores : Dict Str Scores) : Dict Str Scores :=
  (Py.sorted (fun a b => decide (a.1.length ≤ b.1.length)) scores).foldl (extractStep c L) []

end WX
