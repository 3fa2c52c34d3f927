import Verif.Py.Basic
import Mathlib.Algebra.Order.Field.Rat
import Mathlib.Data.List.Dedup
import Mathlib.Data.List.Infix
/-!
Vocabulary for the statements about `NewsNounExtractor`: what a corpus says about a left part `l`, read off the words of the corpus one
occurrence at a time. Nothing here refers to the graphs or loops of the program.
-/
namespace NewsNounSpec
open Py

/-- the words of the corpus, in order, and the two length limits -/
structure Corpus where
  words : List Str
  L : Int
  R : Int

/-- the word `w` counts for the left part `l`: `l` is a non-empty prefix of at most `L` characters with at most `R` characters after it -/
def Counts (c : Corpus) (l w : Str) : Prop :=
  l <+: w ∧ l ≠ [] ∧ (l.length : Int) ≤ c.L ∧ (w.length : Int) ≤ l.length + c.R

instance (c : Corpus) (l w : Str) : Decidable (Counts c l w) := by unfold Counts; infer_instance

/-- what follows `l`, once for every occurrence of a word that counts for `l` -/
def rests (c : Corpus) (l : Str) : List Str :=
  (c.words.filter (fun w => decide (Counts c l w))).map (fun w => w.drop l.length)

/-- what precedes the non-empty right part `r`, once for every occurrence of a word that counts for that left part -/
def befores (c : Corpus) (r : Str) : List Str :=
  (c.words.filter (fun w => decide (r ≠ [] ∧ r <:+ w ∧ Counts c (w.take (w.length - r.length)) w))).map (fun w => w.take (w.length - r.length))

/-- the number of those occurrences -/
def freq (c : Corpus) (l : Str) : Nat := (rests c l).length

open Classical in
/-- the number of those occurrences whose rest satisfies `P` -/
noncomputable def num (c : Corpus) (l : Str) (P : Str → Prop) : Nat := (rests c l).countP (fun r => decide (P r))

/-- their share (0 when `l` never occurs) -/
noncomputable def share (c : Corpus) (l : Str) (P : Str → Prop) : Rat := (num c l P : Rat) / (freq c l : Rat)

/-- the scores of the rests that have one, once for every occurrence -/
def seen (rs : Str → Option Rat) (c : Corpus) (l : Str) : List Rat := (rests c l).filterMap rs

/-- their mean (0 when there is none) -/
def mean (rs : Str → Option Rat) (c : Corpus) (l : Str) : Rat := (seen rs c l).sum / ((seen rs c l).length : Rat)

/-- the number of different rests that satisfy `P` -/
def different (c : Corpus) (l : Str) (P : Str → Bool) : Nat := ((rests c l).filter P).dedup.length

/-! ### what the extractor asks about a word -/

/-- a corpus, the scores of the right parts, the particles and the verbs; the words in the noun table (`T`), the scored candidates (`S`) and
    the candidates accepted so far (`A`) -/
structure Sit where
  c : Corpus
  rs : Str → Option Rat
  josa : Str → Prop
  verb : Str → Prop
  T : Str → Prop
  S : Str → Prop
  A : Str → Prop

variable (x : Sit)

def Known (w : Str) : Prop := x.S w ∨ x.T w

/-- a proper prefix of `l` that looks like a noun -/
def Stem (l a : Str) : Prop := a <+: l ∧ a ≠ l ∧ 2 ≤ a.length ∧ (x.T a ∨ 2/5 < mean x.rs x.c a)

/-- 대학생으 of 대학생으로: it is much rarer than its longest noun-like prefix, and over 80% of its words are such a prefix and a particle -/
def NJsubJ (l : Str) : Prop :=
  ∃ a, Stem x l a ∧ (∀ b, Stem x l b → b.length ≤ a.length) ∧ freq x.c a ≠ 0 ∧ (freq x.c l : Rat) / freq x.c a ≤ 7/10 ∧
    8/10 < share x.c l (fun r => ∃ b j, Stem x l b ∧ l ++ r = b ++ j ∧ x.josa j)

/-- 떡볶 of 떡볶이: `a` is `l` without a particle, has a high score, and is not much rarer -/
def NsubJ (l a : Str) : Prop :=
  ∃ j, l = a ++ j ∧ j ≠ [] ∧ 2 ≤ a.length ∧ x.josa j ∧ 7/10 < mean x.rs x.c a ∧ 7/10 < (freq x.c a : Rat) / freq x.c l

/-- `l` without its last character, or, if it has more than three characters, without its last two -/
def Clipped (l a z : Str) : Prop := l = a ++ z ∧ (z.length = 1 ∨ z.length = 2 ∧ 3 < l.length)

/-- over 70% of the occurrences of `w` are whole words -/
def Alone (w : Str) : Prop := 7/10 < share x.c w (· = [])

/-- 폭행당 of 폭행당했다: what follows a known noun is, together with the rests, mostly whole words -/
def NVsubE (l : Str) : Prop :=
  ∃ a z, Clipped l a z ∧ x.S a ∧ x.T a ∧ 7/10 < share x.c l (fun r => Alone x (z ++ r))

/-- clipping gives a known word that is over ten times as frequent (or does not occur) -/
def NWsub (l : Str) : Prop := ∃ a z, Clipped l a z ∧ Known x a ∧ (freq x.c a = 0 ∨ 10 * freq x.c l < freq x.c a)

/-- two or three known words -/
def Compound (l : Str) : Prop :=
  4 ≤ l.length ∧ ((∃ a b, l = a ++ b ∧ 2 ≤ a.length ∧ b ≠ [] ∧ Known x a ∧ Known x b) ∨
    ∃ a b d, l = a ++ b ++ d ∧ 2 ≤ a.length ∧ 2 ≤ b.length ∧ 2 ≤ d.length ∧ Known x a ∧ Known x b ∧ Known x d)

/-- a known word, alone or with a positive right part -/
def NJ (w : Str) : Prop := ∃ a r, w = a ++ r ∧ 2 ≤ a.length ∧ Known x a ∧ (r = [] ∨ ∃ s, x.rs r = some s ∧ 0 < s)

/-- a noun and a verb -/
def NV (l : Str) : Prop := ∃ a v, l = a ++ v ∧ 2 ≤ a.length ∧ v ≠ [] ∧ (x.A a ∨ x.T a) ∧ x.verb v

/-- the right parts taken as a sign of a noun; of a longer right part the first two characters are compared -/
def passWords : List String :=
  ["과", "는", "되고", "되는", "되다", "된다", "들", "들에", "들의", "들이", "로", "로는", "로도", "로서", "를", "부터", "뿐", "뿐만", "뿐이", "뿐인",
   "에게", "에도", "에서", "에와", "와", "으로", "은", "의", "이", "이나", "이라", "이었", "인", "임", "처럼", "하다", "한", "할", "했던", "했고", "했다"]

/-- a candidate seen at most 10 times, with at most one positive right part, needs more than half of its non-empty rests to be such right parts
    or known words with their particles -/
def FewJosa (l : Str) : Prop :=
  x.S l ∧ freq x.c l ≤ 10 ∧ different x.c l (fun r => decide (∃ s ∈ x.rs r, 0 < s)) ≤ 1 ∧
    2 * num x.c l (fun r => r ≠ [] ∧ (String.ofList (r.take 2) ∈ passWords ∨ NJ x r)) ≤ num x.c l (· ≠ [])

/-- the first character is ㅎ or a syllable with that initial, 하 (U+D558) to 힣 (U+D7A3) -/
def StartsWithH (r : Str) : Prop := ∃ ch t, r = ch :: t ∧ (ch = 'ㅎ' ∨ 0xD558 ≤ ch.toNat ∧ ch.toNat ≤ 0xD7A3)

/-- 당/하다: half of the rests or more begin with ㅎ (not asked if the word is a known one and a last character other than 당) -/
def DangHada (l : Str) : Prop :=
  ¬ ((∃ a ch, l = a ++ [ch] ∧ ch ≠ '당' ∧ Known x a)) ∧ 1/2 ≤ share x.c l StartsWithH

/-- `l` ends with one of the strings -/
def EndsIn (l : Str) (ws : List String) : Prop := ∃ w ∈ ws, w.toList <:+ l

/-- the rest is one of the strings -/
def OneOf (ws : List String) (r : Str) : Prop := ∃ w ∈ ws, r = w.toList

/-- the ending rules -/
def BadSuffix (l : Str) : Prop :=
  x.verb l ∨ EndsIn l ["갔다", "이는", "겠지", "보는"] ∨
  (EndsIn l ["으"] ∧ 1/2 < share x.c l (OneOf ["로", "로써", "로만", "로의"])) ∨
  (EndsIn l ["지"] ∧ 1/2 < share x.c l (OneOf ["만"])) ∨
  (EndsIn l ["없"] ∧ 1/2 < share x.c l (OneOf ["는", "이", "다", "었다"])) ∨
  (EndsIn l ["인", "은", "의", "와", "과", "들이", "들은", "들도", "들을"] ∧ (freq x.c l : Rat) / freq x.c l.dropLast < 8/10) ∨
  ∃ a, l = a ++ "으로".toList ∧ (a.length = 1 ∨ x.T a ∨ x.A a)

/-- a scored candidate is accepted -/
def Accept (l : Str) : Prop :=
  ¬ NJsubJ x l ∧ ¬ (∃ l', x.S l' ∧ ¬ NJsubJ x l' ∧ NsubJ x l' l) ∧ ¬ (NVsubE x l ∧ NWsub x l ∧ ¬ Compound x l) ∧
  (¬ FewJosa x l ∨ Compound x l) ∧ ¬ BadSuffix x l ∧ ¬ DangHada x l

/-- a whole eojeol is added as a compound -/
def AddCompound (l : Str) : Prop :=
  ¬ x.A l ∧ ¬ NJsubJ x l ∧ ¬ NJ x l ∧ ¬ NV x l ∧ ¬ BadSuffix x l ∧ Compound x l

/-- frequent, and at least 99% of its occurrences are whole words -/
def Whole (minFrequency : Int) (l : Str) : Prop := freq x.c l ≠ 0 ∧ minFrequency ≤ freq x.c l ∧ 99/100 ≤ share x.c l (· = [])

/-- reading the words in order, a word is kept iff `P` holds of it and of the words kept before it -/
inductive Scan (P : List Str → Str → Prop) : List Str → List Str → List Str → Prop
  | done (kept) : Scan P kept [] kept
  | keep {kept w ws out} : P kept w → Scan P (kept ++ [w]) ws out → Scan P kept (w :: ws) out
  | skip {kept w ws out} : ¬ P kept w → Scan P kept ws out → Scan P kept (w :: ws) out

/-- a list without its repetitions, in the order of the first occurrences -/
def firsts (ws : List Str) : List Str := ws.reverse.dedup.reverse

/-- every left part of the corpus, once: the words in the order of their first occurrences, the cuts of a word from the shortest left part on -/
def leftParts (c : Corpus) : List Str :=
  firsts ((firsts (c.words.filter (fun w => decide ((w.length : Int) ≤ c.L + c.R)))).flatMap (fun w => w.inits.filter (fun l => decide (Counts c l w))))

/-- a candidate that is scored: frequent enough, no right part itself, at least two characters, score and frequency above the thresholds -/
def Scored (c : Corpus) (rs : Str → Option Rat) (minNounScore : Rat) (minFrequency : Int) (minFeatureProportion : Rat) (l : Str) : Prop :=
  minFrequency ≤ freq c l ∧ rs l = none ∧ minNounScore < mean rs c l ∧ minFeatureProportion < freq c l ∧ 2 ≤ l.length

/-- the first two characters of a whole eojeol, when they have a noun's score and what follows is a verb -/
def NounBeforeVerb (x : Sit) (minFrequency : Int) (w : Str) : Prop :=
  ∃ v, Whole x minFrequency (w ++ v) ∧ w.length = 2 ∧ 2 ≤ v.length ∧ 2/5 ≤ mean x.rs x.c w ∧ (x.verb v ∨ 3 ≤ v.length ∧ x.verb [])

/-- the corpus of a list of sentences -/
abbrev corpusOf (sents : List Str) (L R : Int) : Corpus := ⟨sents.flatMap splitWs, L, R⟩

open Classical in
/-- the scored candidates in order: the given words, or all left parts when none are given -/
noncomputable def scoredWords (c : Corpus) (rs : Str → Option Rat) (minNounScore : Rat) (minFrequency : Int) (given : List Str)
    (minFeatureProportion : Rat) : List Str :=
  (firsts (if given = [] then leftParts c else given)).filter
    (fun l => decide (Scored c rs minNounScore minFrequency minFeatureProportion l))

open Classical in
/-- the whole eojeols in order -/
noncomputable def wholeWords (x : Sit) (minFrequency : Int) : List Str := (leftParts x.c).filter (fun l => decide (Whole x minFrequency l))

/-- what holds when an extraction begins to filter: the table holds the nouns of earlier extractions (`T₀`) and the nouns found before verbs -/
noncomputable def start (c : Corpus) (rs : Str → Option Rat) (josa verb T₀ : Str → Prop) (minNounScore : Rat) (minFrequency : Int) (given : List Str)
    (minFeatureProportion : Rat) : Sit where
  c := c
  rs := rs
  josa := josa
  verb := verb
  T := fun w => T₀ w ∨ NounBeforeVerb ⟨c, rs, josa, verb, fun _ => False, fun _ => False, fun _ => False⟩ minFrequency w
  S := (· ∈ scoredWords c rs minNounScore minFrequency given minFeatureProportion)
  A := fun _ => False

/-- the nouns of an extraction that begins in the situation `x`: `kept` are the accepted candidates, in order, `comps` the compounds that are
    added afterwards -/
def Nouns (x : Sit) (candidates wholes kept comps : List Str) : Prop :=
  Scan (fun k w => Accept { x with A := (· ∈ k) } w) [] candidates kept ∧
  Scan (fun k w => AddCompound { x with A := (· ∈ kept), T := fun v => x.T v ∨ v ∈ k } w) [] wholes comps

end NewsNounSpec
