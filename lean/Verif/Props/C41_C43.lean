import Verif.Proofs.Lemmatizer
/-! C41 - C43: conjugation and lemmatisation. -/
namespace Props
open Py Hangle Spec Lemma

/-! ### C41: lemmatisation is sound -/

/-- C41: every pair that `lemmatize` returns has a known stem and a non-empty ending, known as well unless `check_only_stem`, and the
    word is one of the forms `conjugate` makes of the pair - whatever the known stems and endings, and whatever predefined lemmas the
    caller gave. -/
theorem C41_sound (z : Lemmatizer) (word : Str) (checkOnlyStem : Bool) (out : List (Str × Str)) (h : lemmatize z word checkOnlyStem = .ok out)
    (stem ending : Str) (hm : (stem, ending) ∈ out) :
    z.stems stem = true ∧ ending ≠ [] ∧ (checkOnlyStem = false → z.endings ending = true) ∧
      ∃ forms, conjugate stem ending = .ok forms ∧ word ∈ forms := by
  obtain ⟨i, _, _, cs, h1, h2, h3, h4⟩ := (mem_lemmatize h _).1 hm
  obtain ⟨h5, forms, h6, h7⟩ := lemmaCandidate_sound h1 _ h2
  rw [List.take_append_drop] at h7
  refine ⟨h3, h5, ?_, forms, h6, h7⟩
  rintro rfl
  rcases h4 with h4 | h4
  · cases h4
  · exact h4

/-- knowing only 트 and 었다, 텄다 is taken apart -/
def C41_ex : Lemmatizer := ⟨fun s => decide (s = "트".toList), fun s => decide (s = "었다".toList), []⟩
example : ("트".toList, "었다".toList) ∈ (lemmatize C41_ex "텄다".toList).toOption.getD [] := by decide +kernel

/-- C41: without predefined lemmas of its own, `lemmatize` succeeds exactly on words of complete syllables. -/
theorem C41_succeeds_iff (stems endings : Str → Bool) (word : Str) (checkOnlyStem : Bool) :
    (∃ out, lemmatize ⟨stems, endings, []⟩ word checkOnlyStem = .ok out) ↔ ∀ c ∈ word, Syllable c := by
  have e : (∃ out, lemmatize ⟨stems, endings, []⟩ word checkOnlyStem = .ok out) ↔
      ∃ out, (List.range' 1 word.length).mapM (lemmatizeAt ⟨stems, endings, []⟩ checkOnlyStem word) = .ok out := by
    unfold lemmatize
    constructor
    · rintro ⟨out, h⟩; obtain ⟨a, ha, _⟩ := map_ok h; exact ⟨a, ha⟩
    · rintro ⟨out, h⟩; exact ⟨_, map_of_ok h _⟩
  rw [e, mapM_ok_iff]
  constructor
  · intro h c hc
    by_cases hs : Syllable c
    · exact hs
    · exfalso
      obtain ⟨i, hi, rfl⟩ := List.mem_iff_getElem.1 hc
      obtain ⟨b, hb⟩ := h (i + 1) (by rw [List.mem_range'_1]; omega)
      unfold lemmatizeAt at hb
      obtain ⟨cs, hcs, _⟩ := map_ok hb
      have hlast : (word.take (i + 1)).getLast? = some word[i] := by
        rw [List.take_succ_eq_append_getElem hi, List.getLast?_append]; rfl
      obtain ⟨er, her⟩ := lemmaCandidate_raises (word.take (i + 1)) (word.drop (i + 1)) word[i] [] hlast hs
      rw [her] at hcs; cases hcs
  · intro h i hi
    rw [List.mem_range'_1] at hi
    obtain ⟨out, ho⟩ := lemmaCandidate_ok (word.take i) (word.drop i) (by intro e; have := congrArg List.length e; rw [List.length_take] at this; simp only [List.length_nil] at this; omega)
      (fun c hc => h c (List.mem_of_mem_take hc)) (fun c hc => h c (List.mem_of_mem_drop hc))
    exact ⟨_, map_of_ok ho _⟩

example : ∀ c ∈ "깨달아".toList, Syllable c := by decide
example : ¬ ∀ c ∈ "ㅋㅋ".toList, Syllable c := by decide

/-- C41: a pair is returned exactly if some split of the word offers it and it is known; in particular the result grows with the known
    stems and endings, and does not depend on anything else. -/
theorem C41_monotone (stems stems' endings endings' : Str → Bool) (word : Str) (checkOnlyStem : Bool) (out out' : List (Str × Str))
    (hs : ∀ s, stems s = true → stems' s = true) (he : ∀ s, endings s = true → endings' s = true)
    (h : lemmatize ⟨stems, endings, []⟩ word checkOnlyStem = .ok out) (h' : lemmatize ⟨stems', endings', []⟩ word checkOnlyStem = .ok out') :
    ∀ q ∈ out, q ∈ out' := by
  intro q hq
  obtain ⟨i, h1, h2, cs, h3, h4, h5, h6⟩ := (mem_lemmatize h q).1 hq
  refine (mem_lemmatize h' q).2 ⟨i, h1, h2, cs, h3, h4, hs _ h5, ?_⟩
  rcases h6 with h6 | h6
  · exact Or.inl h6
  · exact Or.inr (he _ h6)

/-! ### C42: conjugation only touches the boundary -/

/-- C42: every form keeps the stem up to its last two characters - up to its last one unless the stem ends in 르 - and the whole ending
    after its first character; at most one character is lost. -/
theorem C42_boundary (stem ending : Str) (enforce : Bool) (forms : List Str) (h : conjugate stem ending enforce = .ok forms) (s : Str) (hs : s ∈ forms) :
    (stem.take (stem.length - 2) <+: s) ∧ (stem.getLast? ≠ some '르' → stem.take (stem.length - 1) <+: s) ∧ (ending.drop 1 <:+ s) ∧
      (s.length = stem.length + ending.length ∨ s.length + 1 = stem.length + ending.length) := by
  obtain ⟨x, hx, rfl, ht, hlen, _, hc⟩ := conjugate_ok h
  have hb := boundary_ctx hx forms hc s hs
  have ht' : tail1 x.ending = ending.drop 1 := ht
  have hpos : 0 < x.ending.length := by obtain ⟨e0, es, he⟩ := hx.ending; rw [he]; simp
  have hspos : 0 < x.stem.length := by rw [hx.stem]; simp
  have hl : (ending.drop 1).length + 1 = ending.length := by rw [List.length_drop]; omega
  have hd1 : x.stem.dropLast = x.stem.take (x.stem.length - 1) := List.dropLast_eq_take
  have hd2 : x.stem.dropLast.dropLast = x.stem.take (x.stem.length - 2) := by
    rw [List.dropLast_eq_take, List.length_dropLast, hd1, List.take_take]
    congr 1; omega
  cases hb with
  | one mid e hm =>
    rw [ht'] at e
    rw [hd1] at e
    refine ⟨?_, fun _ => ⟨mid ++ ending.drop 1, by rw [e]; simp⟩, ⟨_, e.symm⟩, ?_⟩
    · have : x.stem.take (x.stem.length - 2) <+: x.stem.take (x.stem.length - 1) := List.take_prefix_take_left (by omega)
      exact this.trans ⟨mid ++ ending.drop 1, by rw [e]; simp⟩
    · have := congrArg List.length e
      simp only [List.length_append, List.length_take] at this
      rcases hm with hm | hm <;> omega
  | two a b e h2 hr =>
    rw [ht', hd2] at e
    refine ⟨⟨[a, b] ++ ending.drop 1, by rw [e]; simp⟩, fun hn => absurd hr hn, ⟨_, e.symm⟩, ?_⟩
    have := congrArg List.length e
    simp only [List.length_append, List.length_take, List.length_cons, List.length_nil] at this
    omega

example : (conjugate "구르".toList "어서".toList).toOption.getD [] = ["굴러서".toList] := by decide +kernel
example : (conjugate "더럽".toList "어서".toList).toOption.getD [] = ["더러워서".toList] := by decide +kernel

/-! ### C43: conjugation is total on well-formed input -/

/-- the one combination on which a rule fails: the ending starts with the bare letter ㅇ and the stem ends in an open ㅡ syllable other than
    르, and other than 으 after a syllable -/
def LostVowel (stem : Str) (e0 : Char) : Prop :=
  e0 = 'ㅇ' ∧ ∃ front c x, stem = front ++ [c] ∧ IsSyllableOf c x 'ㅡ' ' ' ∧ x ≠ 'ㄹ' ∧ (x = 'ㅇ' → front = [])

/-- C43: for a stem of complete syllables and an ending that starts with a complete syllable or a consonant, `conjugate` raises nothing
    except on `LostVowel`, and finds a form if the ending starts with a syllable or an attaching consonant. -/
theorem C43_total (stem ending : Str) (e0 : Char) (enforce : Bool) (hne : stem ≠ []) (hs : ∀ c ∈ stem, Syllable c) (he : ending.head? = some e0)
    (h0 : Syllable e0 ∨ Consonant e0) (hl : ¬ LostVowel stem e0) :
    ∃ forms, conjugate stem ending enforce = .ok forms ∧ (Syllable e0 ∨ e0 ∈ ['ㄴ', 'ㄹ', 'ㅁ', 'ㅂ', 'ㅆ'] → forms ≠ []) := by
  obtain ⟨x, g, hstem, _, hx, a1, a2, a3⟩ := conjugate_reaches enforce hne hs he h0
  have hn : ¬ EuRaise x := by
    rintro ⟨h1, h2, h3, h4, h5⟩
    refine hl ⟨a3 h1, x.front, x.last, x.ll.1, by rw [← hstem]; exact g.wf.stem, ?_, h4, ?_⟩
    · rw [isSyllableOf_iff]
      have := compose_self g.last g.ll
      rw [h2, h3] at this; exact this
    · intro e
      by_cases hf : x.front = []
      · exact hf
      · refine absurd ⟨e, ?_⟩ h5
        rw [g.wf.stem, List.length_append]
        have := List.length_pos_iff.2 hf
        simp; omega
  obtain ⟨b, hb, hb2⟩ := conjugateCtx_total g hn
  refine ⟨b, hx.trans hb, ?_⟩
  rintro (h | h)
  · exact hb2 (Or.inl (a1 h))
  · refine hb2 (Or.inr ?_)
    rw [a2 (attaching_consonant (c := e0) h).1]; exact h

example : ¬ LostVowel "쓰".toList '어' := by rintro ⟨h, _⟩; exact absurd h (by decide)

/-- C43: on `LostVowel` it raises. -/
theorem C43_raises (stem ending : Str) (e0 : Char) (enforce : Bool) (hne : stem ≠ []) (hs : ∀ c ∈ stem, Syllable c) (he : ending.head? = some e0)
    (hl : LostVowel stem e0) : conjugate stem ending enforce = .error .valueError := by
  obtain ⟨rfl, front, c, v, rfl, hc, hv, hf⟩ := hl
  obtain ⟨x, g, hstem, _, hx, _, a2, _⟩ := conjugate_reaches enforce hne hs he (Or.inr (by decide))
  rw [hx]
  refine conjugateCtx_raises g ?_
  have hwf := g.wf.stem
  rw [hstem] at hwf
  have e1 : front = x.front ∧ c = x.last := by
    have := List.append_inj' hwf rfl
    exact ⟨this.1, by simpa using this.2⟩
  have hll := g.last
  rw [← e1.2, isSyllableOf_decompose hc] at hll
  have hll' := Except.ok.inj hll
  refine ⟨a2 (by decide), by rw [← hll'], by rw [← hll'], by rw [← hll']; exact hv, ?_⟩
  rintro ⟨h1, h2⟩
  rw [← hll'] at h1
  rw [hstem, hf h1] at h2
  simp at h2

example : LostVowel "예쁘".toList 'ㅇ' := ⟨rfl, "예".toList, '쁘', 'ㅃ', rfl, ⟨8, 18, 0, by decide, by decide⟩, by decide, by decide⟩

/-- C43: what is not well-formed raises: no ending, no stem, and a first ending character or last stem character that is not Korean. -/
theorem C43_rejects (stem ending : Str) (enforce : Bool) :
    conjugate stem [] enforce = .error .assertion ∧ (ending ≠ [] → conjugate [] ending enforce = .error .indexError) ∧
    (∀ front c, stem = front ++ [c] → ending ≠ [] → ¬ Korean c → conjugate stem ending enforce = .error .typeError) ∧
    (∀ e0 es front c, ending = e0 :: es → stem = front ++ [c] → Korean c → ¬ Korean e0 → conjugate stem ending enforce = .error .typeError) := by
  refine ⟨rfl, ?_, ?_, ?_⟩
  · intro h
    cases ending with
    | nil => exact absurd rfl h
    | cons e es => rfl
  · rintro front c rfl h hc
    cases ending with
    | nil => exact absurd rfl h
    | cons e es => simp [conjugate, decomposeList_other hc]
  · rintro e0 es front c rfl rfl hc he
    have : ∃ d, decomposeList c = .ok d := by
      rcases hc with h | h | h
      · obtain ⟨d, hd, _⟩ := decomposeList_syllable h; exact ⟨d, hd⟩
      · exact ⟨_, decomposeList_consonant h⟩
      · exact ⟨_, decomposeList_vowel h⟩
    obtain ⟨d, hd⟩ := this
    simp [conjugate, hd, decomposeList_other he]

/-- C43: an ending that starts with a bare vowel is never conjugated, whatever Korean character the stem ends in: `compose` refuses the missing initial. -/
theorem C43_vowel (stem ending : Str) (e0 c : Char) (enforce : Bool) (hs : stem.getLast? = some c) (hc : Korean c) (he : ending.head? = some e0) (hv : Vowel e0) :
    conjugate stem ending enforce = .error .valueError := by
  obtain ⟨es, rfl⟩ : ∃ es, ending = e0 :: es := by
    cases ending with
    | nil => cases he
    | cons a t => cases he; exact ⟨t, rfl⟩
  have : ∃ d, decomposeList c = .ok d := by
    rcases hc with h | h | h
    · obtain ⟨d, hd, _⟩ := decomposeList_syllable h; exact ⟨d, hd⟩
    · exact ⟨_, decomposeList_consonant h⟩
    · exact ⟨_, decomposeList_vowel h⟩
  obtain ⟨d, hd⟩ := this
  have hb : ∀ y z, compose ' ' y z = .error .valueError := fun y z => rfl
  have hnb : e0 ≠ ' ' := by rintro rfl; unfold Vowel at hv; revert hv; decide
  unfold conjugate
  simp only
  rw [hs]
  simp only
  rw [hd, decomposeList_vowel hv]
  simp only
  unfold conjugateParts
  have h1 : harmony1 d ((' ', e0, ' '), e0 :: es) = .ok ((' ', e0, ' '), e0 :: es) := by
    unfold harmony1; rw [if_neg]; rintro ⟨_, h, _⟩; exact absurd h (show ¬ (' ' = 'ㅇ') by decide)
  have h2 : harmony2 d ((' ', e0, ' '), e0 :: es) = .ok ((' ', e0, ' '), e0 :: es) := by
    unfold harmony2; rw [if_neg]; rintro ⟨_, h, _⟩; exact absurd h (show ¬ (' ' = 'ㅇ') by decide)
  have h3 : harmony3 d ((' ', e0, ' '), e0 :: es) = .ok ((' ', e0, ' '), e0 :: es) ∨ harmony3 d ((' ', e0, ' '), e0 :: es) = .error .valueError := by
    unfold harmony3 setVowel
    split
    · right; simp only [hb]; rfl
    · left; rfl
  have hr : rFirstOf (' ', e0, ' ') (e0 :: es) = .error .valueError := by
    unfold rFirstOf; rw [if_pos hnb]; exact hb _ _
  unfold harmony
  cases enforce with
  | false => simp only [Bool.false_eq_true, if_false, hr]
  | true =>
    simp only [if_true, h1, h2]
    rcases h3 with h3 | h3 <;> rw [h3] <;> simp only [hr]

example : ("먹".toList.getLast? = some '먹' ∧ Korean '먹') ∧ ("ㅔ요".toList.head? = some 'ㅔ' ∧ Vowel 'ㅔ') := by
  refine ⟨⟨rfl, .inl (by unfold Syllable; decide)⟩, rfl, by unfold Vowel; decide⟩

/-- C43: `conjugate_chat` accepts every ending that `conjugate` accepts and offers at least the same forms; a bare consonant that can close a
    syllable attaches to the stem. -/
theorem C43_chat (stem ending : Str) (e0 : Char) (enforce : Bool) (hne : stem ≠ []) (hs : ∀ c ∈ stem, Syllable c) (he : ending.head? = some e0)
    (h0 : Syllable e0 ∨ (Consonant e0 ∧ ∃ k : Nat, finalJamo[k]? = some e0.toNat)) (hl : ¬ LostVowel stem e0) :
    ∃ forms chat, conjugate stem ending enforce = .ok forms ∧ conjugateChat stem ending enforce = .ok chat ∧ (∀ s ∈ forms, s ∈ chat) ∧
      (Consonant e0 → ∃ front c x y z d, stem = front ++ [c] ∧ IsSyllableOf c x y z ∧ IsSyllableOf d x y e0 ∧ front ++ d :: ending.drop 1 ∈ chat) := by
  obtain ⟨forms, hf, _⟩ := C43_total stem ending e0 enforce hne hs he (h0.imp id (fun h => h.1)) hl
  obtain ⟨es, rfl⟩ : ∃ es, ending = e0 :: es := by
    cases ending with
    | nil => cases he
    | cons a as => cases he; exact ⟨as, rfl⟩
  obtain ⟨last, hlast⟩ : ∃ last, stem.getLast? = some last := by
    cases h : stem.getLast? with
    | none => exact absurd (List.getLast?_eq_none_iff.1 h) hne
    | some c => exact ⟨c, rfl⟩
  obtain ⟨ll, hll, hL, hself⟩ := decomposeList_syllable (hs last (List.mem_of_getLast? hlast))
  rcases h0 with h0 | ⟨h0, hj⟩
  · obtain ⟨rf, hrf, hR, _⟩ := decomposeList_syllable h0
    have hb : ¬ (rf.2.1 = ' ' ∧ rf.1 ≠ ' ') := fun e => blank_not_jung (e.1 ▸ hR.jung)
    refine ⟨forms, forms ++ [], hf, ?_, by simp, ?_⟩
    · simp only [conjugateChat, hf, hlast, hll, hrf, chatJong, if_neg hb]
    · intro hc; exfalso; unfold Syllable at h0; unfold Consonant at hc; omega
  · have hrf := decomposeList_consonant h0
    have hj' : e0 ∈ jongsungList := (mem_iff_getElem? jongsung_spec e0).2 hj
    obtain ⟨d, h1, _, _⟩ := compose_ok hL.cho hL.jung hj'
    have hb : (e0, ' ', ' ').2.1 = ' ' ∧ (e0, ' ', ' ').1 ≠ ' ' := ⟨rfl, (consonant_ne h0).2.2⟩
    refine ⟨forms, forms ++ [stem.dropLast ++ d :: es], hf, ?_, fun s h => List.mem_append_left _ h, ?_⟩
    · simp only [conjugateChat, hf, hlast, hll, hrf, chatJong, h1]
      rw [if_pos ⟨trivial, hb.2⟩]
      rfl
    · intro _
      exact ⟨stem.dropLast, last, ll.1, ll.2.1, ll.2.2, d, eq_dropLast_append hlast, isSyllableOf_iff.2 hself, isSyllableOf_iff.2 h1, by simp⟩

example : "이닣".toList ∈ (conjugateChat "이니".toList "ㅎ".toList).toOption.getD [] := by decide +kernel

end Props
