import Verif.Model.NewsPos
import Verif.Spec.Unicode
/-!
Vocabulary for the statements about the POS extractors: frequencies of sets of eojeols and two-part readings of a word. Nothing here refers
to the passes of the algorithm.
-/
namespace PosSpec
open Py

/-- the total frequency of the eojeols of `E` that satisfy `p` -/
def mass (E : Dict Str Nat) (p : Str → Bool) : Nat := ((E.filter (fun e => p e.1)).map (·.2)).sum

/-- `w` is `l` followed by `r`, with `l` of at least two characters in `L` and `r` non-empty in `R` -/
def Reads (L R : Str → Prop) (w l r : Str) : Prop := w = l ++ r ∧ 2 ≤ l.length ∧ r ≠ [] ∧ L l ∧ R r

/-- `w` is in `X` -/
abbrev In {ν : Type} (X : Dict Str ν) (w : Str) : Prop := w ∈ Dict.keys X

end PosSpec

namespace PosSpec
open Py NewsPos

/-- a noun that occurs alone as an eojeol of the corpus -/
def Standing (s : State) (w : Str) : Prop := w ∈ s.nouns ∧ In s.eojeols w

/-- a word known before the extraction -/
def Known (s : State) (w : Str) : Prop := w ∈ s.nouns ∨ In s.adjectives w ∨ In s.verbs w ∨ w ∈ s.adverbs

/-- a particle, or an adjective or verb form that occurs alone as an eojeol -/
def Ending (s : State) (r : Str) : Prop := r ∈ s.josas ∨ In s.eojeols r ∧ (In s.adjectives r ∨ In s.verbs r)

/-- the reading with the shortest left part -/
def ShortestRead (L R : Str → Prop) (w l r : Str) : Prop := Reads L R w l r ∧ ∀ l' r', Reads L R w l' r' → l.length ≤ l'.length

/-- a particle that follows a noun in some eojeol that is no known word -/
def AttestedJosa (s : State) (r : Str) : Prop :=
  ∃ e l, In s.eojeols e ∧ ¬ Known s e ∧ ShortestRead (Standing s) (· ∈ s.josas) e l r

/-- the nouns of at least two characters that occur alone, each with score 1 -/
def nounScores (s : State) : Dict Str Rat :=
  (s.eojeols.filter (fun e => s.nouns.contains e.1 && decide (1 < e.1.length))).map (fun e => (e.1, 1))

end PosSpec

namespace PosSpec
open Py NewsPos

/-- a stem and an ending may be written together without contraction: the stem ends in a Korean character, and it is not a stem ending in ㄹ
    or ㅂ before ㄴ ㄹ ㅁ ㅂ or a character that is not Korean, and not a stem ending in the vowel ㅡ before 어, 아 or a character that is not
    Korean -/
def Joinable (stem eomi : Str) : Prop :=
  ∃ x y l, stem.getLast? = some x ∧ eomi.head? = some y ∧ Hangle.decompose x = .ok (some l) ∧
    (l.2.2 ∈ ['ㄹ', 'ㅂ'] → ∃ r, Hangle.decompose y = .ok (some r) ∧ r.1 ∉ ['ㄴ', 'ㄹ', 'ㅁ', 'ㅂ']) ∧
    (l.2.1 = 'ㅡ' ∧ l.2.2 = ' ' → ∃ r, Hangle.decompose y = .ok (some r) ∧ ¬ (r.1 = 'ㅇ' ∧ r.2.1 ∈ ['ㅓ', 'ㅏ']))

/-- the test whether a stem and an ending join is not defined: one of them is empty, or the stem does not end in a Korean character, or the
    ending does not begin with one although the stem ends in ㄹ, ㅂ or the vowel ㅡ -/
def JoinUndefined (stem eomi : Str) : Prop :=
  stem = [] ∨ eomi = [] ∨ (∃ x, stem.getLast? = some x ∧ ¬ Spec.Korean x) ∨
    ∃ x y l, stem.getLast? = some x ∧ eomi.head? = some y ∧ ¬ Spec.Korean y ∧ Hangle.decompose x = .ok (some l) ∧
      (l.2.2 ∈ ['ㄹ', 'ㅂ'] ∨ l.2.1 = 'ㅡ' ∧ l.2.2 = ' ')

/-- `ls` are the lemmas of `w` read as a known predicator followed by a form with lemmas in `base`: the stems of that form with the first part
    in front, as far as they join and are new -/
def CompoundLemmas (s : State) (newStem : Str → Prop) (base : Dict Str Entry) (w : Str) (ls : List (Str × Str)) : Prop :=
  ∃ a b e, ShortestRead (fun x => In s.adjectives x ∨ In s.verbs x) (In base) w a b ∧ Dict.get? base b = some e ∧ ls ≠ [] ∧
    ∀ q, q ∈ ls ↔ ∃ stem, (stem, q.2) ∈ e.2 ∧ q.1 = a ++ stem ∧ Joinable q.1 q.2 ∧ newStem q.1

/-- `ls` are lemmas of `w` with known stem and ending, each of which conjugates to `w`: all those that the lemmatizer proposes for the split
    with the longest left part for which it proposes any -/
def KnownLemmas (stems eomis : List Str) (w : Str) (ls : List (Str × Str)) : Prop :=
  ls ≠ [] ∧ (∀ q ∈ ls, q.1 ∈ stems ∧ q.2 ∈ eomis ∧ q.2 ≠ [] ∧ ∃ b, Lemma.conjugate q.1 q.2 = .ok b ∧ w ∈ b) ∧
  ∃ l r out, w = l ++ r ∧ l ≠ [] ∧ Lemma.lemmaCandidate l r = .ok out ∧ (∀ q, q ∈ ls ↔ q ∈ out ∧ q.1 ∈ stems ∧ q.2 ∈ eomis) ∧
    ∀ l' r' out', w = l' ++ r' → l.length < l'.length → Lemma.lemmaCandidate l' r' = .ok out' → ∀ q ∈ out', ¬ (q.1 ∈ stems ∧ q.2 ∈ eomis)

end PosSpec

namespace PosSpec
open Py NewsPos

/-- the sum of `weight` over the words of `D`, once for each of their lemmas that satisfies `p` -/
def lemmaSum (D : Dict Str Entry) (weight : Str × Entry → Int) (p : Str × Str → Bool) : Int :=
  (D.map (fun e => ((e.2.2.filter p).length : Int) * weight e)).sum

/-- the ending begins with a consonant letter -/
def beginsWithJaum (eomi : Str) : Bool := match eomi.head? with
  | none => false
  | some c => decide (Spec.Consonant c)

end PosSpec

namespace PosSpec
open Py NewsPos

/-- the chat extractor also refuses stems ending in 업, 닿 and 땋 -/
def ChatJoinable (stem eomi : Str) : Prop := (∀ c ∈ ['업', '닿', '땋'], stem.getLast? ≠ some c) ∧ Joinable stem eomi

/-- `ls` are the lemmas of `w` read as a known predicator followed by a form with lemmas in `base` -/
def ChatCompound (s : State) (base : Dict Str Entry) (w : Str) (ls : List (Str × Str)) : Prop :=
  ∃ a b e, ShortestRead (fun x => In s.adjectives x ∨ In s.verbs x) (In base) w a b ∧ Dict.get? base b = some e ∧ ls ≠ [] ∧
    ∀ q, q ∈ ls ↔ ∃ stem, (stem, q.2) ∈ e.2 ∧ q.1 = a ++ stem ∧ ChatJoinable q.1 q.2 ∧ q.1 ∉ s.adjectiveStems ∧ q.1 ∉ s.verbStems

/-- an eojeol that is neither a known word nor noun + ending -/
def Unread (s : State) (w : Str) : Prop := In s.eojeols w ∧ ¬ Known s w ∧ ¬ ∃ l r, Reads (Standing s) (Ending s) w l r

/-- the stem has a positive frequency in the table, nine tenths of it with endings that begin with a consonant letter -/
def WrongStem (D : Dict Str Entry) (x : Str) : Prop :=
  0 < lemmaSum D (fun e => e.2.1) (fun l => decide (l.1 = x)) ∧
  9 * lemmaSum D (fun e => e.2.1) (fun l => decide (l.1 = x)) ≤ 10 * lemmaSum D (fun e => e.2.1) (fun l => decide (l.1 = x) && beginsWithJaum l.2)

/-- `cand` is the table of the unread eojeols that are compounds, `kept` what is left of it without the lemmas of wrong stems -/
structure ChatFound (s : State) (base cand kept : Dict Str Entry) : Prop where
  wf : Dict.WF cand ∧ Dict.WF kept
  sound : ∀ w n ls, Dict.get? cand w = some (n, ls) → Dict.get? s.eojeols w = some n ∧ Unread s w ∧ ChatCompound s base w ls
  complete : ∀ w, Unread s w → (∃ ls, ChatCompound s base w ls) → In cand w
  kept : ∀ w n ls', Dict.get? kept w = some (n, ls') ↔ ls' ≠ [] ∧ ∃ ls, Dict.get? cand w = some (n, ls) ∧ ∃ p : Str → Bool, (∀ x, p x = true ↔ ¬ WrongStem cand x) ∧
    ls' = ls.filter (fun l => p l.1)

/-- how many lemmas of the words of `D` have this ending -/
def endingCount (D : Dict Str Entry) (e : Str) : Int := lemmaSum D (fun _ => 1) (fun l => decide (l.2 = e))

end PosSpec

namespace PosSpec
open Py NewsPos

/-- the total frequency of the eojeols of `E` with property `P` -/
noncomputable def total (E : Dict Str Nat) (P : Str → Prop) : Nat := mass E (fun e => @decide (P e) (Classical.propDecidable _))

/-- an eojeol that is neither a known word, nor noun + ending, nor returned as adjective or verb -/
def Leftover (s : State) (t : WordTags) (e : Str) : Prop := Unread s e ∧ ¬ In t.adjective e ∧ ¬ In t.verb e

/-- a returned adjective or verb, or a particle seen after a noun -/
def Recognised (s : State) (t : WordTags) (r : Str) : Prop := In t.adjective r ∨ In t.verb r ∨ AttestedJosa s r

/-- a noun that stands alone, or one character in front of a recognised word in an eojeol left over -/
def PlainNoun (s : State) (t : WordTags) (w : Str) : Prop := Standing s w ∨ ∃ c r, w = [c] ∧ Leftover s t (c :: r) ∧ Recognised s t r

/-- an eojeol left over that is no particle, ending or single character, and not one character + recognised word -/
def Residual (s : State) (t : WordTags) (e : Str) : Prop :=
  Leftover s t e ∧ ¬ Recognised s t (e.drop 1) ∧ e ∉ t.josa ∧ e ∉ t.eomi ∧ e.length ≠ 1

/-- `w` is the noun that `e` is a compound of: the noun tokenizer cuts `e` into known nouns of at least two characters; the last piece is dropped if it
    is a noun, a recognised word or a particle and at least two pieces precede it; only if it is dropped it need not be a known noun of two characters -/
def CompoundNoun (s : State) (t : WordTags) (e w : Str) : Prop :=
  ∃ init last, MaxScore.recursiveTokenize (nounScores s) 10 0 e = .ok (init ++ [last]) ∧ (∀ k ∈ init, 0 < k.score) ∧
    (2 ≤ init.length ∧ (PlainNoun s t last.word ∨ Recognised s t last.word) ∧ w = init.flatMap (·.word) ∨
     ¬ (2 ≤ init.length ∧ (PlainNoun s t last.word ∨ Recognised s t last.word)) ∧ 0 < last.score ∧ w = e)

end PosSpec
