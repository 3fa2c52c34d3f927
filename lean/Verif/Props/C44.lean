import Verif.Proofs.Recover
/-! C44: lemmatisation recovers what conjugation produced. -/
namespace Props
open Py Hangle Spec Lemma

/-- C44: if `surface` is a form of `conjugate(stem, ending)` made by one of the rule pairs of `Covered`, then some split of it is given back
    as `(stem, ending)` by `lemma_candidate`, and so `lemmatize(surface)` returns the pair for every lemmatiser that knows the two. The stem
    consists of complete syllables; so does the ending, except that it may start with a bare consonant; and its first syllable does not end
    in ㅎ. -/
theorem C44_recovers (stem ending surface : Str) (forms : List Str) (e0 : Char) (hs : ∀ c ∈ stem, Syllable c) (he : ending.head? = some e0)
    (h0 : Syllable e0 ∨ Consonant e0) (hh : ∀ x y, ¬ IsSyllableOf e0 x y 'ㅎ') (het : ∀ c ∈ ending.drop 1, Syllable c)
    (h : conjugate stem ending = .ok forms) (hm : surface ∈ forms) (hc : Covered stem ending surface) :
    (∃ l r cs, l ≠ [] ∧ surface = l ++ r ∧ lemmaCandidate l r = .ok cs ∧ (stem, ending) ∈ cs) ∧
    (∀ stems endings checkOnlyStem out, stems stem = true → endings ending = true → lemmatize ⟨stems, endings, []⟩ surface checkOnlyStem = .ok out →
      (stem, ending) ∈ out) := by
  have hd : ∃ d, decomposeList e0 = .ok d ∧ d.2.2 ≠ 'ㅎ' := by
    rcases h0 with h0 | h0
    · obtain ⟨d, hd, hL, hc⟩ := decomposeList_syllable h0
      refine ⟨d, hd, ?_⟩
      intro e
      rw [e] at hc
      exact hh _ _ (isSyllableOf_iff.2 hc)
    · exact ⟨_, decomposeList_consonant h0, show ' ' ≠ 'ㅎ' by decide⟩
  obtain ⟨d, hd, hd2⟩ := hd
  have hrec := covered_recovered hs e0 d het h hm he hd hd2 hc
  refine ⟨hrec, ?_⟩
  intro stems endings only out h1 h2 hl
  obtain ⟨l, r, cs, h3, rfl, h4, h5⟩ := hrec
  refine (mem_lemmatize hl _).2 ⟨l.length, ?_, by simp, cs, ?_, h5, h1, Or.inr h2⟩
  · exact List.length_pos_iff.2 h3
  · rw [List.take_left, List.drop_left]; exact h4

/-- an irregular verb through the whole pipeline: 시퍼렇 + 었다 -/
example : "시퍼렜다".toList ∈ (conjugate "시퍼렇".toList "었다".toList).toOption.getD [] := by decide +kernel
example : Covered "시퍼렇".toList "었다".toList "시퍼렜다".toList :=
  .hMerge "시퍼".toList '렇' '렜' 'ㄹ' '었' "다".toList 'ㅓ' 'ㅔ' 'ㅆ' (by decide) (by decide) (by decide) ⟨5, 4, 27, by decide, by decide⟩
    ⟨5, 5, 20, by decide, by decide⟩ ⟨11, 4, 20, by decide, by decide⟩
example : Covered "모으".toList "았다".toList "모았다".toList :=
  .euOpen [] '모' 'ㅁ' 'ㅗ' '았' "다".toList 'ㅏ' 'ㅆ' (by decide) ⟨6, 8, 0, by decide, by decide⟩ ⟨11, 0, 20, by decide, by decide⟩
example : Covered "이".toList "ㅂ니다".toList "입니다".toList :=
  .attach [] '이' '입' 'ㅇ' 'ㅣ' ' ' 'ㅂ' "니다".toList (by decide) ⟨11, 20, 0, by decide, by decide⟩ (by decide) (by decide) ⟨11, 20, 17, by decide, by decide⟩

/-- everything is known -/
def C44_all : Lemmatizer := ⟨fun _ => true, fun _ => true, []⟩

/-- C44: outside the rule pairs forms are lost. 가 + 았다 = 갔다, 이르 + 어 = 이르러, 하 + 았다 = 하였다 and 푸 + 었다 = 퍼다 are produced by
    `conjugate`, but no lemmatiser takes them apart into the same stem and ending. -/
theorem C44_lost :
    let pairs : List (Str × Str × Str) := [("가".toList, "았다".toList, "갔다".toList), ("이르".toList, "어".toList, "이르러".toList),
      ("하".toList, "았다".toList, "하였다".toList), ("푸".toList, "었다".toList, "퍼다".toList)]
    ∀ p ∈ pairs, p.2.2 ∈ (conjugate p.1 p.2.1).toOption.getD [] ∧ ∃ out, lemmatize C44_all p.2.2 = .ok out ∧ (p.1, p.2.1) ∉ out := by
  intro pairs p hp
  have key : ∀ p ∈ pairs, p.2.2 ∈ (conjugate p.1 p.2.1).toOption.getD [] ∧ (lemmatize C44_all p.2.2).toOption.isSome = true ∧
      (p.1, p.2.1) ∉ (lemmatize C44_all p.2.2).toOption.getD [] := by decide +kernel
  obtain ⟨h1, h2, h3⟩ := key p hp
  refine ⟨h1, ?_⟩
  cases hl : lemmatize C44_all p.2.2 with
  | error e => rw [hl] at h2; cases h2
  | ok out => rw [hl] at h3; exact ⟨out, rfl, h3⟩

end Props
