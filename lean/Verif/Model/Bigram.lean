import Verif.Py.Dict
import Verif.Py.Sort
import Mathlib.Analysis.SpecialFunctions.Log.Basic
/-!
Model of soynlp/word/_phrase.py `Bigram`. Printing is modelled only where it raises (the last message refers to the loop variable).
-/
namespace BG
open Py

/-- soynlp/word/_phrase.py:7-29; the argument `sentences` is not used by the code. `ngram_selector` is stored and never read. -/
structure Params where
  minFrequency : Int := 5
  verbose : Bool := true
  checkpoint : Int := 100000
  tokenizer : Str → List Str := splitWs

/-- `_counter` (None before training) and `_unigram` (soynlp/word/_phrase.py:28-29,64) -/
structure State where
  counter : Option (Dict (Str × Str) Nat) := none
  unigram : Dict Str Nat := []
  deriving DecidableEq

/-- soynlp/word/_phrase.py:37-39 -/
def toBigram (words : List Str) : List (Str × Str) := words.zip (words.drop 1)

/-- soynlp/word/_phrase.py:46-47, 61-62 -/
def cut (m : Int) (d : Dict (Str × Str) Nat) : Dict (Str × Str) Nat := d.filter (fun e => decide ((e.2 : Int) ≥ m))

/-- soynlp/word/_phrase.py:43-59, one sentence with its index -/
def sentence (p : Params) (d : Dict (Str × Str) Nat) (si : Str × Nat) : Dict (Str × Str) Nat :=
  let d := if p.checkpoint > 0 ∧ (si.2 : Int) % p.checkpoint = 0 then cut p.minFrequency d else d
  let words := p.tokenizer si.1
  if words.length ≤ 1 then d else (toBigram words).foldl (fun d b => Dict.add d b 1) d

/-- soynlp/word/_phrase.py:64-67 -/
def unigrams (d : Dict (Str × Str) Nat) : Dict Str Nat :=
  d.foldl (fun u e => Dict.add (Dict.add u e.1.1 1) e.1.2 1) []

/-- soynlp/word/_phrase.py:35-71. With no sentence and `verbose` the last message reads the unset loop variable; the counters are
    already stored then. -/
def train (p : Params) (sents : List Str) : State × PyM Unit :=
  let d := cut p.minFrequency (sents.zipIdx.foldl (sentence p) [])
  (⟨some d, unigrams d⟩, if p.verbose ∧ sents = [] then .error .unboundLocal else .ok ())

/-- soynlp/word/_phrase.py:99-104 (`extract` with score 'frequency'); `self._counter.items()` on None raises -/
def extractByFrequency (s : State) (topk : Int) (threshold : Int) : PyM (Dict (Str × Str) (Nat × Nat)) :=
  match s.counter with
  | none => .error .attributeError
  | some c =>
    let bigrams := c.filter (fun e => decide ((e.2 : Int) ≥ threshold))
    let bigrams := if topk > 0 then sorted (fun a b => decide (b.2 ≤ a.2)) bigrams else bigrams
    .ok (Dict.ofList (bigrams.map (fun e => (e.1, (e.2, e.2)))))

open Classical in
/-- the loop shared by soynlp/word/_phrase.py:89-97 and 113-121: `score` may raise (`_unigram[...]`) -/
noncomputable def scoreAll (score : (Str × Str) × Nat → PyM ℝ) (threshold : ℝ) :
    Dict (Str × Str) Nat → Dict (Str × Str) (Nat × ℝ) → PyM (Dict (Str × Str) (Nat × ℝ))
  | [], acc => .ok acc
  | e :: es, acc =>
    match score e with
    | .error x => .error x
    | .ok v => scoreAll score threshold es (if v ≥ threshold then Dict.set acc e.1 (e.2, v) else acc)

/-- soynlp/word/_phrase.py:84-86 and 108-110: the base and what is done with it -/
noncomputable def scoreWith (u : Dict Str Nat) (f : Nat → Nat → ℝ) (e : (Str × Str) × Nat) : PyM ℝ :=
  match Dict.get? u e.1.1, Dict.get? u e.1.2 with
  | some a, some b => .ok (if a * b = 0 then 0 else f e.2 (a * b))
  | _, _ => .error .keyError

/-- soynlp/word/_phrase.py:82-97 -/
noncomputable def extractByPmi (s : State) (threshold : ℝ) : PyM (Dict (Str × Str) (Nat × ℝ)) :=
  match s.counter with
  | none => .error .attributeError
  | some c =>
    let N := 2 * (c.map (·.2)).sum
    scoreAll (scoreWith s.unigram (fun freq base => Real.log ((N : ℝ) * freq / base))) threshold c []

/-- soynlp/word/_phrase.py:106-121 -/
noncomputable def extractByMikolov (p : Params) (s : State) (threshold : ℝ) : PyM (Dict (Str × Str) (Nat × ℝ)) :=
  match s.counter with
  | none => .error .attributeError
  | some c => scoreAll (scoreWith s.unigram (fun freq base => ((freq : ℝ) - p.minFrequency) / base)) threshold c []

/-- soynlp/word/_phrase.py:73-80: `score` is the constructor's argument. A frequency is at least a threshold iff it is at least the next integer.
    `raise NotImplemented` is a TypeError. -/
noncomputable def extract (p : Params) (score : Str) (s : State) (topk : Int := -1) (threshold : ℝ := 0) : PyM (Dict (Str × Str) (Nat × ℝ)) :=
  if score = "frequency".toList then (extractByFrequency s topk ⌈threshold⌉).map (fun d => d.map (fun e => (e.1, (e.2.1, (e.2.2 : ℝ)))))
  else if score = "pmi".toList then extractByPmi s threshold
  else if score = "mikolov".toList then extractByMikolov p s threshold
  else .error .typeError

end BG
