import Verif.Model.Sources
import Verif.Props.C123
/-! C123, continued: training twice from one `DoublespaceLineCorpus`. -/
namespace Props
open Py Corpus

/-- **C123** Training is such a measurement: a trainer that checks its corpus asks for its length. Hand a corpus constructed without
    limits to a trainer, replace the content of the file, and hand the same corpus to any trainer again: it is trained with the new
    file cut to the number of documents (sentences) the old one had. Even a file that is now empty is not refused. -/
theorem C123_training (text text' : Str) (sents : Bool) (skip : Nat) (hne : wholeFile sents (docsOf text skip) ≠ []) :
    ∃ c c', constructAt (some text) (-1) (-1) sents skip = .ok c ∧ Src.checkCorpus (.file c) = (.ok (), .file c') ∧
      ∀ {α : Type} (train : List Str → PyM α),
        Src.checked (.file c) train = train (wholeFile sents (docsOf text skip)) ∧
        Src.checked (.file { c' with text := text' }) train =
          train ((wholeFile sents (docsOf text' skip)).take (wholeFile sents (docsOf text skip)).length) := by
  have hdocs : docsOf text skip ≠ [] := by
    intro h; apply hne; rw [h]; cases sents <;> rfl
  have hl : skip < (fileLines text).length := by
    rcases Nat.lt_or_ge skip (fileLines text).length with h | h
    · exact h
    · exact absurd (List.drop_of_length_le h) hdocs
  have hw : (wholeFile sents (docsOf text skip)).length ≠ 0 := fun h => hne (List.length_eq_zero_iff.1 h)
  have key : ∀ t', (wholeFile sents (docsOf t' skip)).take (wholeFile sents (docsOf text skip)).length =
      items ⟨t', sents, skip, (docsOf text skip).length, ((docsOf text skip).flatMap sentencesOf).length⟩ := by
    intro t'
    rw [items_eq]
    have : (if sents then ((docsOf text skip).flatMap sentencesOf).length else (docsOf text skip).length) =
        (wholeFile sents (docsOf text skip)).length := by
      cases sents <;> simp [wholeFile]
    rw [this]
    unfold firstOf
    rw [if_neg hw]
  have hpos : (docsOf text skip).length ≠ 0 := fun h => hdocs (List.length_eq_zero_iff.1 h)
  have hlen0 := len_open text sents skip hl
  have hlen1 : ∀ t', len ⟨t', sents, skip, (docsOf text skip).length, ((docsOf text skip).flatMap sentencesOf).length⟩ =
      (((wholeFile sents (docsOf text skip)).length : Int), ⟨t', sents, skip, (docsOf text skip).length, ((docsOf text skip).flatMap sentencesOf).length⟩) := by
    intro t'
    rw [len_frozen _ _ _ _ _ hpos]
    cases sents <;> simp [wholeFile]
  have hc0 : Src.checkCorpus (.file ⟨text, sents, skip, 0, 0⟩) =
      (.ok (), .file ⟨text, sents, skip, (docsOf text skip).length, ((docsOf text skip).flatMap sentencesOf).length⟩) := by
    unfold Src.checkCorpus Src.len
    simp only [hlen0]
    rw [if_neg (by omega)]
    simp only [Int.toNat_natCast]
    rw [if_neg (by omega)]
  have hc1 : ∀ t', Src.checkCorpus (.file ⟨t', sents, skip, (docsOf text skip).length, ((docsOf text skip).flatMap sentencesOf).length⟩) =
      (.ok (), .file ⟨t', sents, skip, (docsOf text skip).length, ((docsOf text skip).flatMap sentencesOf).length⟩) := by
    intro t'
    unfold Src.checkCorpus Src.len
    simp only [hlen1]
    rw [if_neg (by omega)]
    simp only [Int.toNat_natCast]
    rw [if_neg (by omega)]
  refine ⟨⟨text, sents, skip, 0, 0⟩, _, rfl, hc0, fun train => ⟨?_, ?_⟩⟩
  · unfold Src.checked
    rw [hc0]
    simp only [Src.iterate]
    rw [← key text, List.take_length]
  · unfold Src.checked
    rw [hc1 text']
    simp only [Src.iterate]
    rw [← key text']

/-- counting a file of one document, which then grows to two: the second count through the same object misses the new one -/
example : wholeFile false (docsOf "a b\n".toList 0) ≠ [] ∧
    (wholeFile false (docsOf "a b\nc\n".toList 0)).take (wholeFile false (docsOf "a b\n".toList 0)).length = ["a b".toList] := by
  refine ⟨?_, ?_⟩ <;> decide +kernel

end Props
