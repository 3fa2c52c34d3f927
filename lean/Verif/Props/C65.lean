import Verif.Proofs.Lemmatizer
/-! C65: `lemma_candidate` and `lemma_candidate_chat`: candidates of one split, with an emoticon consonant taken off. -/
namespace Props
open Py Hangle Spec Lemma

/-- `stripped` is `l` whose last syllable lost its final consonant, one of ㄷ ㅂ ㅅ ㅇ ㅋ ㅎ -/
def EmoticonOff (l stripped : Str) : Prop :=
  ∃ front c d x y z, l = front ++ [c] ∧ stripped = front ++ [d] ∧ IsSyllableOf c x y z ∧ IsSyllableOf d x y ' ' ∧
    z ∈ ['ㄷ', 'ㅂ', 'ㅅ', 'ㅇ', 'ㅋ', 'ㅎ']

private theorem off_unique {l a b : Str} (ha : EmoticonOff l a) (hb : EmoticonOff l b) : a = b := by
  obtain ⟨f, c, d, x, y, z, h1, h2, h3, h4, _⟩ := ha
  obtain ⟨f', c', d', x', y', z', h1', h2', h3', h4', _⟩ := hb
  obtain ⟨e1, e2⟩ := List.append_inj' (h1.symm.trans h1') rfl
  cases e2
  subst e1
  have := (isSyllableOf_decompose h3).symm.trans (isSyllableOf_decompose h3')
  cases this
  rw [isSyllableOf_iff] at h4 h4'
  have := h4.symm.trans h4'
  cases this
  rw [h2, h2']

/-- C65: `lemma_candidate_chat(l, r)` is `lemma_candidate(l, r)`, plus - when there is no right part - the candidates of `l` without
    the emoticon consonant at its end. On complete syllables it never fails. -/
theorem C65_chat (l r : Str) (hne : l ≠ []) (hl : ∀ c ∈ l, Syllable c) (hr : ∀ c ∈ r, Syllable c) :
    ∃ out plain, lemmaCandidateChat l r = .ok out ∧ lemmaCandidate l r = .ok plain ∧
      (r ≠ [] → out = plain) ∧ ((∀ s, ¬ EmoticonOff l s) → out = plain) ∧
      (r = [] → ∀ s, EmoticonOff l s → ∃ more, lemmaCandidate s [] = .ok more ∧ ∀ q, q ∈ out ↔ q ∈ plain ∨ q ∈ more) := by
  obtain ⟨plain, hp⟩ := lemmaCandidate_ok l r hne hl hr
  obtain ⟨front, last, rfl⟩ : ∃ f c, l = f ++ [c] := by
    rcases List.eq_nil_or_concat l with h | ⟨f, c, h⟩
    · exact absurd h hne
    · exact ⟨f, c, by rw [h]; simp⟩
  obtain ⟨d, hd, hL, hcomp⟩ := decomposeList_syllable (hl last (by simp))
  obtain ⟨x, y, z⟩ := d
  have hsy : IsSyllableOf last x y z := isSyllableOf_iff.2 hcomp
  obtain ⟨o, ho, hos, _⟩ := compose_ok hL.cho hL.jung blank_jong
  have hoff : ∀ s, EmoticonOff (front ++ [last]) s ↔ z ∈ ['ㄷ', 'ㅂ', 'ㅅ', 'ㅇ', 'ㅋ', 'ㅎ'] ∧ s = front ++ [o] := by
    intro s
    have hmk : z ∈ ['ㄷ', 'ㅂ', 'ㅅ', 'ㅇ', 'ㅋ', 'ㅎ'] → EmoticonOff (front ++ [last]) (front ++ [o]) :=
      fun hz => ⟨front, last, o, x, y, z, rfl, rfl, hsy, isSyllableOf_iff.2 ho, hz⟩
    constructor
    · intro h
      have hz : z ∈ ['ㄷ', 'ㅂ', 'ㅅ', 'ㅇ', 'ㅋ', 'ㅎ'] := by
        obtain ⟨f', c', d', x', y', z', h1, _, h3, _, h5⟩ := h
        obtain ⟨_, e2⟩ := List.append_inj' h1 rfl
        cases e2
        have := (isSyllableOf_decompose hsy).symm.trans (isSyllableOf_decompose h3)
        cases this
        exact h5
      exact ⟨hz, off_unique h (hmk hz)⟩
    · rintro ⟨hz, rfl⟩; exact hmk hz
  have hun : lemmaCandidateChat (front ++ [last]) r = (match chatExtra (front ++ [last]) r (x, y, z) [] with
      | .error e => .error e
      | .ok more => .ok (plain ++ more)) := by
    unfold lemmaCandidateChat
    rw [hp]
    dsimp only
    rw [List.getLast?_append]
    simp only [List.getLast?_singleton, Option.some_or]
    rw [hd]
    rfl
  have hdrop : (front ++ [last]).dropLast = front := by simp
  obtain ⟨more, hm⟩ := lemmaCandidate_ok (front ++ [o]) [] (by simp) (by
    intro c hc
    rcases List.mem_append.1 hc with h | h
    · exact hl c (List.mem_append_left _ h)
    · rw [List.mem_singleton] at h; subst h; exact hos) (by simp)
  have hplain : ¬ (r = [] ∧ z ∈ ['ㄷ', 'ㅂ', 'ㅅ', 'ㅇ', 'ㅋ', 'ㅎ']) → lemmaCandidateChat (front ++ [last]) r = .ok plain := by
    intro h
    rw [hun]
    unfold chatExtra isEmoticonJamo
    rw [if_neg (by
      rintro ⟨h1, h2⟩
      exact h ⟨h1, of_decide_eq_true h2⟩)]
    simp
  by_cases hz : r = [] ∧ z ∈ ['ㄷ', 'ㅂ', 'ㅅ', 'ㅇ', 'ㅋ', 'ㅎ']
  · have hfull : lemmaCandidateChat (front ++ [last]) r = .ok (plain ++ more) := by
      rw [hun]
      unfold chatExtra isEmoticonJamo
      rw [if_pos ⟨hz.1, decide_eq_true hz.2⟩]
      dsimp only
      rw [ho, hdrop, hz.1]
      dsimp only
      rw [hm]
    refine ⟨_, plain, hfull, hp, fun h => absurd hz.1 h, fun h => absurd ((hoff _).2 ⟨hz.2, rfl⟩) (h _), ?_⟩
    intro _ s hs
    rw [((hoff s).1 hs).2]
    exact ⟨more, hm, fun q => List.mem_append⟩
  · refine ⟨plain, plain, hplain hz, hp, fun _ => rfl, fun _ => rfl, ?_⟩
    intro hr0 s hs
    exact absurd ⟨hr0, ((hoff s).1 hs).1⟩ hz

/-- C65: what the candidates are: pairs with a non-empty ending that conjugate to the word, or to the word without its emoticon
    consonant. -/
theorem C65_sound (l r : Str) (pre : Predefined) (out : List (Str × Str)) (h : lemmaCandidateChat l r pre = .ok out) (stem ending : Str)
    (hm : (stem, ending) ∈ out) :
    ending ≠ [] ∧ ∃ forms, conjugate stem ending = .ok forms ∧ (l ++ r ∈ forms ∨ (r = [] ∧ ∃ s, EmoticonOff l s ∧ s ∈ forms)) := by
  unfold lemmaCandidateChat at h
  cases hp : lemmaCandidate l r pre with
  | error e => rw [hp] at h; cases h
  | ok plain =>
    rw [hp] at h
    dsimp only at h
    cases hg : l.getLast? with
    | none => rw [hg] at h; cases h
    | some last =>
      rw [hg] at h
      dsimp only at h
      cases hd : decomposeList last with
      | error e => rw [hd] at h; cases h
      | ok d =>
        rw [hd] at h
        dsimp only at h
        cases hx : chatExtra l r d pre with
        | error e => rw [hx] at h; cases h
        | ok more =>
          rw [hx] at h
          cases h
          rcases List.mem_append.1 hm with hm | hm
          · obtain ⟨h1, b, h2, h3⟩ := lemmaCandidate_sound hp _ hm
            exact ⟨h1, b, h2, Or.inl h3⟩
          · unfold chatExtra at hx
            split at hx
            · rename_i hc
              cases ho : compose d.1 d.2.1 ' ' with
              | error e => rw [ho] at hx; cases hx
              | ok o =>
                rw [ho] at hx
                dsimp only at hx
                obtain ⟨h1, b, h2, h3⟩ := lemmaCandidate_sound hx _ hm
                refine ⟨h1, b, h2, Or.inr ⟨hc.1, l.dropLast ++ [o], ?_, ?_⟩⟩
                · have hz := of_decide_eq_true hc.2
                  have hsyl : Syllable last := by
                    rcases decomposeList_korean hd with hs | hs | hs
                    · exact hs
                    · rw [decomposeList_consonant hs] at hd; cases hd; exact absurd hz (by simp)
                    · rw [decomposeList_vowel hs] at hd; cases hd; exact absurd hz (by simp)
                  obtain ⟨d', hd', _, hcomp⟩ := decomposeList_syllable hsyl
                  rw [hd] at hd'
                  cases hd'
                  exact ⟨l.dropLast, last, o, d.1, d.2.1, d.2.2, eq_dropLast_append hg, rfl, isSyllableOf_iff.2 hcomp, isSyllableOf_iff.2 ho, hz⟩
                · rw [hc.1, List.append_nil] at h3; exact h3
            · cases hx; cases hm

/-- 그랫 is read as 그래 with ㅅ: (그렇, 아) besides nothing else -/
example : (lemmaCandidateChat "그랫".toList []).toOption.map (fun o => decide (("그렇".toList, "아".toList) ∈ o)) = some true ∧
    (lemmaCandidate "그랫".toList []).toOption.map (fun o => decide (("그렇".toList, "아".toList) ∈ o)) = some false ∧
    (lemmaCandidateChat "그랜".toList []).toOption.map (fun o => decide (("그렇".toList, "아".toList) ∈ o)) = some false := by
  refine ⟨?_, ?_, ?_⟩ <;> decide +kernel
/-- the hypotheses are met by 그랫 -/
example : EmoticonOff "그랫".toList "그래".toList :=
  ⟨"그".toList, '랫', '래', 'ㄹ', 'ㅐ', 'ㅅ', rfl, rfl, isSyllableOf_iff.2 (by decide +kernel), isSyllableOf_iff.2 (by decide +kernel), by decide⟩

/-- C65: `lemmatize` without further arguments also checks the ending. -/
theorem C65_default (z : Lemmatizer) (word : Str) (out : List (Str × Str)) (h : lemmatize z word = .ok out) (q : Str × Str) (hq : q ∈ out) :
    z.stems q.1 = true ∧ z.endings q.2 = true := by
  obtain ⟨i, _, _, cs, _, _, h3, h4⟩ := (mem_lemmatize h q).1 hq
  rcases h4 with h4 | h4
  · cases h4
  · exact ⟨h3, h4⟩

end Props
