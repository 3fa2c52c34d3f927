import Verif.Model.Conjugation
/-!
What `PredicatorExtractor.extract` is to report, stated with the lemmatiser of the library (`lemma_candidate`, claims C41-C44) and lists of words.
-/
namespace Spec
open Py

/-- the word is a known noun followed by a known particle -/
def NounJosa (nouns josas : List Str) (w : Str) : Prop := ∃ n j, n ≠ [] ∧ j ≠ [] ∧ n ∈ nouns ∧ j ∈ josas ∧ w = n ++ j

/-- a pair of a known stem and a known ending that `lemma_candidate` offers for some split of the word -/
def Reading (stems eomis : List Str) (w : Str) (p : Str × Str) : Prop :=
  p.1 ∈ stems ∧ p.2 ∈ eomis ∧ ∃ l r cs, l ≠ [] ∧ w = l ++ r ∧ Lemma.lemmaCandidate l r = .ok cs ∧ p ∈ cs

/-- `ls` lists the readings of `w`, each once; a noun with a particle has none -/
structure Readings (nouns josas stems eomis : List Str) (w : Str) (ls : List (Str × Str)) : Prop where
  nodup : ls.Nodup
  mem : ∀ p, p ∈ ls ↔ ¬ NounJosa nouns josas w ∧ Reading stems eomis w p

/-- the words read with ending `e`: one item for each reading (`rd`) -/
def occurrences (rd : Str → List (Str × Str)) (words : List Str) (e : Str) : List Str :=
  words.flatMap (fun w => List.replicate ((rd w).countP (fun p => decide (p.2 = e))) w)

/-- the ending looks like a piece of nouns: it is short, and of the words of two characters read with it at least half are nouns -/
def Suspicious (nouns : List Str) (e : Str) (occ : List Str) : Prop :=
  e.length < 3 ∧ 0 < occ.countP (fun w => decide (w.length = 2)) ∧
  occ.countP (fun w => decide (w.length = 2)) ≤ 2 * occ.countP (fun w => decide (w.length = 2 ∧ w ∈ nouns))

/-- the ending is given up: it is suspicious and all words read with it have two characters -/
def GivenUp (nouns : List Str) (e : Str) (occ : List Str) : Prop := Suspicious nouns e occ ∧ ∀ w ∈ occ, w.length = 2

/-- the readings of `w` with the ending are taken back -/
def TakenBack (nouns : List Str) (e : Str) (occ : List Str) (w : Str) : Prop :=
  w ∈ occ ∧ (GivenUp nouns e occ ∨ Suspicious nouns e occ ∧ ((w.length = 2 ∧ w ∈ nouns) ∨ (w.length = 3 ∧ e.length = 2)))

end Spec
