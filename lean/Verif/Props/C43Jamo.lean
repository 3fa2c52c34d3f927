import Verif.Props.C41_C43
import Verif.Proofs.ConjExact
import Mathlib.Tactic.Tauto
/-! C43 on stems that do not end in a complete syllable, and the consonants `conjugate_chat` cannot attach. -/
namespace Props
open Py Hangle Spec Lemma

private theorem cons_ne {c : Char} (h : Consonant c) {k : Char} (hk : Syllable k) : c ≠ k := by
  rintro rfl; unfold Consonant at h; unfold Syllable at hk; omega

private theorem vow_ne {c : Char} (h : Vowel c) {k : Char} (hk : Syllable k) : c ≠ k := by
  rintro rfl; unfold Vowel at h; unfold Syllable at hk; omega

private theorem compose_blank_vowel (c z : Char) : compose c ' ' z = .error .valueError := by
  refine Props.C01_compose_rejects c ' ' z ?_
  rintro ⟨a, b, d, h⟩
  obtain ⟨c', h1, _⟩ := compose_of_jamoAt h
  exact absurd (isSyllableOf_iff.2 h1) not_syllable_blank

private theorem compose_blank_initial (v z : Char) : compose ' ' v z = .error .valueError := rfl

/-- the ending starts with 어라 or 아라 -/
def RaEnding (ending : Str) : Prop := ending.take 2 = "어라".toList ∨ ending.take 2 = "아라".toList

private theorem raEnding_iff (e : Char) (es : Str) : RaEnding (e :: es) ↔ (e :: es).take 2 = ['어', '라'] ∨ (e :: es).take 2 = ['아', '라'] := Iff.rfl

private theorem ra_da {e : Char} {es : Str} (h : RaEnding (e :: es)) : e ≠ '다' ∧ (e = '어' ∨ e = '아') := by
  unfold RaEnding at h
  cases es <;> simp at h
  rcases h with ⟨rfl, _⟩ | ⟨rfl, _⟩ <;> decide

open Classical in
/-- the rules after a bare consonant: only 다, the attaching consonants and 어라/아라 are looked at -/
private theorem rules_consonant {front es : Str} {c e i v w r : Char} (hc : Consonant c) :
    conjugateCtx (ctx front c c ' ' ' ' e i v w r es) =
      (if v = ' ' ∧ (i = 'ㄴ' ∨ i = 'ㄹ' ∨ i = 'ㅁ' ∨ i = 'ㅂ' ∨ i = 'ㅆ') then .error .valueError
       else if RaEnding (e :: es) then .ok [front ++ c :: '아' :: es]
       else if e = '다' ∨ v ≠ ' ' then .ok [front ++ c :: e :: es] else .ok []) := by
  have n := fun k (hk : Syllable k) => cons_ne hc hk
  have n1 := n '르' (by decide)
  have n2 := n '오' (by decide)
  have n3 := n '우' (by decide)
  have n4 := n '가' (by decide)
  have n5 := n '하' (by decide)
  generalize hk : ctx front c c ' ' ' ' e i v w r es = k
  have r1 : ruleDa k = .ok (if e = '다' then [front ++ c :: e :: es] else []) := by subst hk; simp [ruleDa]; split <;> rfl
  have r2 : ruleD k = .ok [] := by subst hk; simp [ruleD]
  have r3 : ruleReu k = .ok [] := by subst hk; simp [ruleReu, n1]
  have r4 : ruleB k = .ok [] := by subst hk; simp [ruleB]
  have r5 : ruleJong k = if v = ' ' ∧ (i = 'ㄴ' ∨ i = 'ㄹ' ∨ i = 'ㅁ' ∨ i = 'ㅂ' ∨ i = 'ㅆ') then .error .valueError else .ok [] := by
    subst hk; simp only [ruleJong, compose_blank_vowel]; rfl
  have r6 : ruleS k = .ok [] := by subst hk; simp [ruleS]
  have r7 : ruleU k = .ok [] := by subst hk; simp [ruleU]
  have r8 : ruleO k = .ok [] := by subst hk; simp [ruleO]
  have r9 : ruleEu k = .ok [] := by subst hk; simp [ruleEu]
  have r10 : ruleRa k = .ok (if RaEnding (e :: es) then [front ++ c :: '아' :: es] else []) := by
    subst hk; simp only [ruleRa, ← raEnding_iff]
    by_cases h : RaEnding (e :: es)
    · rw [if_pos h, if_pos h]; simp [n2, n3, n4, tail1]
    · rw [if_neg h, if_neg h]
  have r11 : ruleReo k = .ok [] := by subst hk; simp [ruleReo, n1]
  have r12 : ruleHa k = .ok [] := by subst hk; simp [ruleHa, n5]
  have r13 : ruleHDrop k = .ok [] := by subst hk; simp [ruleHDrop]
  have r14 : ruleHMerge k = .ok [] := by subst hk; simp [ruleHMerge]
  have r15 : ruleHNe k = .ok [] := by subst hk; simp [ruleHNe]
  have r16 : ruleI k = .ok [] := by subst hk; simp [ruleI]
  have rd : ruleDefault k = if v ≠ ' ' then .ok [front ++ c :: e :: es] else .ok [] := by
    subst hk
    simp only [ruleDefault]
    split
    · rename_i h; rw [if_neg (fun hh => h hh.2.2)]; simp
    · rfl
  unfold conjugateCtx
  simp only [rules, runRules, r1, r2, r3, r4, r5, r6, r7, r8, r9, r10, r11, r12, r13, r14, r15, r16, List.nil_append, List.append_nil]
  by_cases h5 : v = ' ' ∧ (i = 'ㄴ' ∨ i = 'ㄹ' ∨ i = 'ㅁ' ∨ i = 'ㅂ' ∨ i = 'ㅆ')
  · simp only [if_pos h5]
  · simp only [if_neg h5, List.nil_append]
    by_cases hr : RaEnding (e :: es)
    · rw [if_pos hr, if_pos hr, if_neg (ra_da hr).1]; rfl
    · rw [if_neg hr, if_neg hr]
      by_cases hd : e = '다'
      · rw [if_pos hd, if_pos (.inl hd)]; rfl
      · rw [if_neg hd]
        simp only [List.nil_append, rd]
        by_cases hv : v = ' '
        · rw [if_neg (fun h => h hv), if_neg (fun h => h.elim hd (fun h => h hv))]
        · rw [if_pos hv, if_pos (.inr hv)]

/-- `conjugate` after a bare jamo without vowel harmony, or whose vowel harmony does nothing -/
private theorem reach {front es : Str} {c e x y z i v w r : Char} (enforce : Bool) (hc : decomposeList c = .ok (x, y, z)) (he : decomposeList e = .ok (i, v, w))
    (hh : harmony enforce (x, y, z) (i, v, w) (e :: es) = .ok ((i, v, w), e :: es)) (hr : rFirstOf (i, v, w) (e :: es) = .ok r) :
    conjugate (front ++ [c]) (e :: es) enforce = conjugateCtx (ctx front c x y z e i v w r es) := by
  simp only [conjugate, List.getLast?_concat, hc, he, conjugateParts, hh, hr, List.dropLast_concat]

private theorem harmony_consonant (enforce : Bool) (c : Char) (rf : Jamo) (ending : Str) : harmony enforce (c, ' ', ' ') rf ending = .ok (rf, ending) := by
  have h1 : ∀ p, harmony1 (c, ' ', ' ') p = .ok p := by
    intro p; unfold harmony1; rw [if_neg]; rintro ⟨⟨_, h⟩, _⟩; exact absurd h (show ' ' ∉ positive by decide)
  have h2 : ∀ p, harmony2 (c, ' ', ' ') p = .ok p := by
    intro p; unfold harmony2; rw [if_neg]; rintro ⟨⟨_, h⟩, _⟩; exact absurd h (show ' ' ∉ negative by decide)
  have h3 : ∀ p, harmony3 (c, ' ', ' ') p = .ok p := by
    intro p; unfold harmony3; rw [if_neg]; rintro ⟨h, _⟩; exact absurd h (show ' ' ∉ neuter by decide)
  unfold harmony
  split
  · simp only [h1, h2, h3]
  · rfl

open Classical in
/-- C43: a stem that ends in a bare consonant (whatever comes before it) cannot take an attaching consonant (ValueError) and takes every other
    ending: an ending that starts with a complete syllable is appended - 어라 and 아라 both as 아라 -, one that starts with another bare consonant
    has no form. -/
theorem C43_consonant_stem (front es : Str) (c e : Char) (enforce : Bool) (hc : Consonant c) (he : Syllable e ∨ Consonant e) :
    conjugate (front ++ [c]) (e :: es) enforce =
      if e ∈ ['ㄴ', 'ㄹ', 'ㅁ', 'ㅂ', 'ㅆ'] then .error .valueError
      else if Consonant e then .ok []
      else if RaEnding (e :: es) then .ok [front ++ c :: '아' :: es]
      else .ok [front ++ c :: e :: es] := by
  rcases he with he | he
  · obtain ⟨⟨i, v, w⟩, hd, hL, _⟩ := decomposeList_syllable he
    have hv : v ≠ ' ' := fun h => blank_not_jung (h ▸ hL.jung)
    obtain ⟨r, hr, _⟩ := compose_ok hL.cho hL.jung blank_jong
    rw [reach enforce (decomposeList_consonant hc) hd (harmony_consonant _ _ _ _) (r := r) (by unfold rFirstOf; rw [if_pos hv]; exact hr), rules_consonant hc]
    have e1 : e ∉ ['ㄴ', 'ㄹ', 'ㅁ', 'ㅂ', 'ㅆ'] := by
      intro h
      have := (attaching_consonant h).1
      unfold Syllable at he; unfold Consonant at this; omega
    have e2 : ¬ Consonant e := by intro h; unfold Syllable at he; unfold Consonant at h; omega
    rw [if_neg (fun h => hv h.1), if_neg e1, if_neg e2, if_pos (.inr hv : e = '다' ∨ v ≠ ' ')]
  · rw [reach enforce (decomposeList_consonant hc) (decomposeList_consonant he) (harmony_consonant _ _ _ _) (r := e) (by simp [rFirstOf]), rules_consonant hc]
    by_cases h : e ∈ ['ㄴ', 'ㄹ', 'ㅁ', 'ㅂ', 'ㅆ']
    · rw [if_pos h, if_pos ⟨rfl, by simpa using h⟩]
    · rw [if_neg h, if_pos he, if_neg (fun hh => h (by simpa using hh.2)), if_neg, if_neg]
      · rintro (rfl | h)
        · exact absurd he (by decide)
        · exact h rfl
      · intro hr
        rcases (ra_da hr).2 with rfl | rfl <;> exact absurd he (by decide)

example : conjugate "ㅋ".toList "어라".toList = .ok ["ㅋ아라".toList] ∧ conjugate "하ㅋ".toList "다".toList true = .ok ["하ㅋ다".toList] ∧
    conjugate "ㅋ".toList "ㄴ다".toList = .error .valueError := by decide +kernel

/-- the vowel of the ending would have to merge into the bare vowel `c` the stem ends in -/
def VowelClash (c e : Char) (es : Str) : Prop :=
  e ∈ ['ㄴ', 'ㄹ', 'ㅁ', 'ㅂ', 'ㅆ'] ∨ (c = 'ㅡ' ∧ e = 'ㅇ') ∨
  ∃ v w, IsSyllableOf e 'ㅇ' v w ∧ (c = 'ㅡ' ∨ (c = 'ㅜ' ∧ v = 'ㅓ') ∨ (c = 'ㅗ' ∧ v = 'ㅏ') ∨ (c = 'ㅣ' ∧ v = 'ㅓ') ∨ (v = c ∧ ¬ RaEnding (e :: es)))

open Classical in
private theorem rules_vowel {front es : Str} {c e i v w r : Char} (hc : Vowel c) (hr : r = '어' ↔ i = 'ㅇ' ∧ v = 'ㅓ') (hd : e = '다' → i = 'ㄷ' ∧ v = 'ㅏ') :
    conjugateCtx (ctx front c ' ' c ' ' e i v w r es) =
      (if (v = ' ' ∧ (i = 'ㄴ' ∨ i = 'ㄹ' ∨ i = 'ㅁ' ∨ i = 'ㅂ' ∨ i = 'ㅆ')) ∨ (c = 'ㅜ' ∧ i = 'ㅇ' ∧ v = 'ㅓ') ∨ (c = 'ㅗ' ∧ i = 'ㅇ' ∧ v = 'ㅏ') ∨
          (c = 'ㅡ' ∧ i = 'ㅇ') ∨ (c = 'ㅣ' ∧ i = 'ㅇ' ∧ v = 'ㅓ') ∨ (i = 'ㅇ' ∧ v = c ∧ ¬ RaEnding (e :: es)) then .error .valueError
       else if RaEnding (e :: es) then .ok [front ++ c :: (if c ∈ ['ㅓ', 'ㅕ', 'ㅜ', 'ㅠ'] then '어' else '아') :: es]
       else if v ≠ ' ' then .ok [front ++ c :: e :: es] else .ok []) := by
  have n := fun k (hk : Syllable k) => vow_ne hc hk
  have n1 := n '르' (by decide)
  have n2 := n '오' (by decide)
  have n3 := n '우' (by decide)
  have n4 := n '가' (by decide)
  have n5 := n '하' (by decide)
  have n6 := n '푸' (by decide)
  have hcb : c ≠ ' ' := by rintro rfl; exact absurd hc (by decide)
  have hmap : ∀ (f : Char → List Str) a b, (compose ' ' a b).map f = .error .valueError := fun f a b => rfl
  generalize hk : ctx front c ' ' c ' ' e i v w r es = k
  have r1 : ruleDa k = .ok (if e = '다' then [front ++ c :: e :: es] else []) := by subst hk; simp [ruleDa]; split <;> rfl
  have r2 : ruleD k = .ok [] := by subst hk; simp [ruleD]
  have r3 : ruleReu k = .ok [] := by subst hk; simp [ruleReu, n1]
  have r4 : ruleB k = .ok [] := by subst hk; simp [ruleB]
  have r5 : ruleJong k = if v = ' ' ∧ (i = 'ㄴ' ∨ i = 'ㄹ' ∨ i = 'ㅁ' ∨ i = 'ㅂ' ∨ i = 'ㅆ') then .error .valueError else .ok [] := by
    subst hk; simp only [ruleJong, hmap]
  have r6 : ruleS k = .ok [] := by subst hk; simp [ruleS]
  have r7 : ruleU k = if c = 'ㅜ' ∧ i = 'ㅇ' ∧ v = 'ㅓ' then .error .valueError else .ok [] := by subst hk; simp [ruleU, hmap, n6]
  have r8 : ruleO k = if c = 'ㅗ' ∧ i = 'ㅇ' ∧ v = 'ㅏ' then .error .valueError else .ok [] := by subst hk; simp [ruleO, hmap]
  have r9 : ruleEu k = if c = 'ㅡ' ∧ i = 'ㅇ' then .error .valueError else .ok [] := by subst hk; simp [ruleEu, hmap]
  have r10 : ruleRa k = .ok (if RaEnding (e :: es) then [front ++ c :: (if c ∈ ['ㅓ', 'ㅕ', 'ㅜ', 'ㅠ'] then '어' else '아') :: es] else []) := by
    subst hk; simp only [ruleRa, ← raEnding_iff]
    by_cases h : RaEnding (e :: es)
    · rw [if_pos h, if_pos h, if_neg n2, if_neg n3, if_neg n4]
      split <;> simp [tail1]
    · rw [if_neg h, if_neg h]
  have r11 : ruleReo k = .ok [] := by subst hk; simp [ruleReo, n1]
  have r12 : ruleHa k = .ok [] := by subst hk; simp [ruleHa, n5]
  have r13 : ruleHDrop k = .ok [] := by subst hk; simp [ruleHDrop]
  have r14 : ruleHMerge k = .ok [] := by subst hk; simp [ruleHMerge]
  have r15 : ruleHNe k = .ok [] := by subst hk; simp [ruleHNe]
  have r16 : ruleI k = if c = 'ㅣ' ∧ i = 'ㅇ' ∧ v = 'ㅓ' then .error .valueError else .ok [] := by
    subst hk; simp only [ruleI, hmap, hr]
    by_cases h : c = 'ㅣ' ∧ i = 'ㅇ' ∧ v = 'ㅓ'
    · rw [if_pos h, if_pos ⟨h.2, h.1, trivial⟩]
    · rw [if_neg h, if_neg (fun hh => h ⟨hh.2.1, hh.1⟩)]
  have rd : ruleDefault k = if v ≠ ' ' then (if i = 'ㅇ' ∧ v = c then .error .valueError else .ok [front ++ c :: e :: es]) else .ok [] := by
    subst hk
    simp only [ruleDefault, hmap, true_and]
    split
    · split
      · rfl
      · simp
    · rfl
  unfold conjugateCtx
  simp only [rules, runRules, r1, r2, r3, r4, r5, r6, r7, r8, r9, r10, r11, r12, r13, r14, r15, r16, List.nil_append, List.append_nil]
  by_cases h5 : v = ' ' ∧ (i = 'ㄴ' ∨ i = 'ㄹ' ∨ i = 'ㅁ' ∨ i = 'ㅂ' ∨ i = 'ㅆ')
  · simp only [if_pos h5, if_pos (Or.inl h5)]
  by_cases h7 : c = 'ㅜ' ∧ i = 'ㅇ' ∧ v = 'ㅓ'
  · simp only [if_neg h5, if_pos h7, if_pos (Or.inr (Or.inl h7))]
  by_cases h8 : c = 'ㅗ' ∧ i = 'ㅇ' ∧ v = 'ㅏ'
  · simp only [if_neg h5, if_neg h7, if_pos h8, if_pos (Or.inr (Or.inr (Or.inl h8)))]
  by_cases h9 : c = 'ㅡ' ∧ i = 'ㅇ'
  · simp only [if_neg h5, if_neg h7, if_neg h8, if_pos h9, if_pos (Or.inr (Or.inr (Or.inr (Or.inl h9))))]
  by_cases h16 : c = 'ㅣ' ∧ i = 'ㅇ' ∧ v = 'ㅓ'
  · simp only [if_neg h5, if_neg h7, if_neg h8, if_neg h9, if_pos h16, if_pos (Or.inr (Or.inr (Or.inr (Or.inr (Or.inl h16)))))]
  simp only [if_neg h5, if_neg h7, if_neg h8, if_neg h9, if_neg h16, List.nil_append, List.append_nil]
  by_cases hra : RaEnding (e :: es)
  · have hn : ¬ ((v = ' ' ∧ (i = 'ㄴ' ∨ i = 'ㄹ' ∨ i = 'ㅁ' ∨ i = 'ㅂ' ∨ i = 'ㅆ')) ∨ (c = 'ㅜ' ∧ i = 'ㅇ' ∧ v = 'ㅓ') ∨ (c = 'ㅗ' ∧ i = 'ㅇ' ∧ v = 'ㅏ') ∨
          (c = 'ㅡ' ∧ i = 'ㅇ') ∨ (c = 'ㅣ' ∧ i = 'ㅇ' ∧ v = 'ㅓ') ∨ (i = 'ㅇ' ∧ v = c ∧ ¬ RaEnding (e :: es))) := by
      rintro (h | h | h | h | h | h)
      · exact h5 h
      · exact h7 h
      · exact h8 h
      · exact h9 h
      · exact h16 h
      · exact h.2.2 hra
    rw [if_neg hn, if_pos hra, if_pos hra, if_neg (ra_da hra).1]
    rfl
  · rw [if_neg hra, if_neg hra]
    by_cases hl : i = 'ㅇ' ∧ v = c
    · rw [if_pos (Or.inr (Or.inr (Or.inr (Or.inr (Or.inr ⟨hl.1, hl.2, hra⟩)))))]
      rw [if_neg (fun h => by have := (hd h).1; rw [hl.1] at this; exact absurd this (by decide))]
      simp only [List.nil_append, rd]
      rw [if_pos (by rw [hl.2]; exact hcb), if_pos hl]
    · have hn : ¬ ((v = ' ' ∧ (i = 'ㄴ' ∨ i = 'ㄹ' ∨ i = 'ㅁ' ∨ i = 'ㅂ' ∨ i = 'ㅆ')) ∨ (c = 'ㅜ' ∧ i = 'ㅇ' ∧ v = 'ㅓ') ∨ (c = 'ㅗ' ∧ i = 'ㅇ' ∧ v = 'ㅏ') ∨
          (c = 'ㅡ' ∧ i = 'ㅇ') ∨ (c = 'ㅣ' ∧ i = 'ㅇ' ∧ v = 'ㅓ') ∨ (i = 'ㅇ' ∧ v = c ∧ ¬ RaEnding (e :: es))) := by
        rintro (h | h | h | h | h | h)
        · exact h5 h
        · exact h7 h
        · exact h8 h
        · exact h9 h
        · exact h16 h
        · exact hl ⟨h.1, h.2.1⟩
      rw [if_neg hn]
      by_cases hdd : e = '다'
      · have : v ≠ ' ' := by rw [(hd hdd).2]; decide
        rw [if_pos hdd, if_pos this]; rfl
      · rw [if_neg hdd]
        simp only [List.nil_append, rd]
        rw [if_neg hl]

open Classical in
/-- C43: a stem that ends in a bare vowel (whatever comes before it) raises a ValueError exactly where the ending would have to merge into that vowel;
    otherwise an ending that starts with a complete syllable is appended - 어라 and 아라 with the vowel that fits - and one that starts with another
    bare consonant has no form. -/
theorem C43_vowel_stem (front es : Str) (c e : Char) (hc : Vowel c) (he : Syllable e ∨ Consonant e) :
    conjugate (front ++ [c]) (e :: es) =
      if VowelClash c e es then .error .valueError
      else if Consonant e then .ok []
      else if RaEnding (e :: es) then .ok [front ++ c :: (if c ∈ ['ㅓ', 'ㅕ', 'ㅜ', 'ㅠ'] then '어' else '아') :: es]
      else .ok [front ++ c :: e :: es] := by
  have hcb : c ≠ ' ' := by rintro rfl; exact absurd hc (by decide)
  rcases he with he | he
  · obtain ⟨⟨i, v, w⟩, hd, hL, hself⟩ := decomposeList_syllable he
    have hv : v ≠ ' ' := fun h => blank_not_jung (h ▸ hL.jung)
    obtain ⟨r, hr, _⟩ := compose_ok hL.cho hL.jung blank_jong
    have hrd := (compose_inv hr).2.2
    have ceo := chr_iff hrd (show decomposeList '어' = .ok ('ㅇ', 'ㅓ', ' ') by decide +kernel)
    have hda := chr_iff hd (show decomposeList '다' = .ok ('ㄷ', 'ㅏ', ' ') by decide +kernel)
    have e1 : e ∉ ['ㄴ', 'ㄹ', 'ㅁ', 'ㅂ', 'ㅆ'] := by
      intro h
      have := (attaching_consonant h).1
      unfold Syllable at he; unfold Consonant at this; omega
    have e2 : ¬ Consonant e := by intro h; unfold Syllable at he; unfold Consonant at h; omega
    have e3 : e ≠ 'ㅇ' := by rintro rfl; exact absurd he (by decide)
    rw [reach false (decomposeList_vowel hc) hd rfl (r := r) (by unfold rFirstOf; rw [if_pos hv]; exact hr),
      rules_vowel hc ⟨fun h => ⟨(ceo.1 h).1, (ceo.1 h).2.1⟩, fun h => ceo.2 ⟨h.1, h.2, rfl⟩⟩ (fun h => ⟨(hda.1 h).1, (hda.1 h).2.1⟩)]
    rw [if_neg e2, if_pos hv]
    refine if_congr ?_ rfl rfl
    constructor
    · rintro (h | h | h | h | h | h)
      · exact absurd h.1 hv
      · exact .inr (.inr ⟨v, w, isSyllableOf_iff.2 (by rw [← h.2.1]; exact hself), .inr (.inl ⟨h.1, h.2.2⟩)⟩)
      · exact .inr (.inr ⟨v, w, isSyllableOf_iff.2 (by rw [← h.2.1]; exact hself), .inr (.inr (.inl ⟨h.1, h.2.2⟩))⟩)
      · exact .inr (.inr ⟨v, w, isSyllableOf_iff.2 (by rw [← h.2]; exact hself), .inl h.1⟩)
      · exact .inr (.inr ⟨v, w, isSyllableOf_iff.2 (by rw [← h.2.1]; exact hself), .inr (.inr (.inr (.inl ⟨h.1, h.2.2⟩)))⟩)
      · exact .inr (.inr ⟨v, w, isSyllableOf_iff.2 (by rw [← h.1]; exact hself), .inr (.inr (.inr (.inr h.2)))⟩)
    · rintro (h | h | ⟨v', w', hs, h⟩)
      · exact absurd h e1
      · exact absurd h.2 e3
      · rw [isSyllableOf_decompose hs] at hd
        obtain ⟨rfl, rfl, rfl⟩ : 'ㅇ' = i ∧ v' = v ∧ w' = w := by
          have := Except.ok.inj hd
          simpa using this
        rcases h with h | h | h | h | h
        · exact .inr (.inr (.inr (.inl ⟨h, rfl⟩)))
        · exact .inr (.inl ⟨h.1, rfl, h.2⟩)
        · exact .inr (.inr (.inl ⟨h.1, rfl, h.2⟩))
        · exact .inr (.inr (.inr (.inr (.inl ⟨h.1, rfl, h.2⟩))))
        · exact .inr (.inr (.inr (.inr (.inr ⟨rfl, h⟩))))
  · have ne : ∀ k, Syllable k → e ≠ k := fun k hk => cons_ne he hk
    rw [reach false (decomposeList_vowel hc) (decomposeList_consonant he) rfl (r := e) (by simp [rFirstOf]),
      rules_vowel hc ⟨fun h => absurd h (ne _ (by decide)), fun h => absurd h.2 (by decide)⟩ (fun h => absurd h (ne _ (by decide)))]
    have hra : ¬ RaEnding (e :: es) := fun h => (ra_da h).2.elim (ne _ (by decide)) (ne _ (by decide))
    have hns : ∀ v w, ¬ IsSyllableOf e 'ㅇ' v w := by
      intro v w h
      have := isSyllableOf_decompose h
      rw [decomposeList_consonant he] at this
      have := Except.ok.inj this
      simp only [Prod.mk.injEq] at this
      rw [← this.2.1] at h
      exact not_syllable_blank h
    rw [if_pos he, if_neg hra]
    simp only [ne_eq, not_true_eq_false, if_false]
    refine if_congr ?_ rfl rfl
    constructor
    · rintro (h | h | h | h | h | h)
      · exact .inl (by simpa using h.2)
      · exact absurd h.2.2 (by decide)
      · exact absurd h.2.2 (by decide)
      · exact .inr (.inl h)
      · exact absurd h.2.2 (by decide)
      · exact absurd h.2.1.symm hcb
    · rintro (h | h | ⟨v, w, h, _⟩)
      · exact .inl ⟨trivial, by simpa using h⟩
      · exact .inr (.inr (.inr (.inl h)))
      · exact absurd h (hns v w)

example : conjugate "ㅠ".toList "어라".toList = .ok ["ㅠ어라".toList] ∧ conjugate "ㅡ".toList "어".toList = .error .valueError ∧
    conjugate "하ㅏ".toList "다".toList = .ok ["하ㅏ다".toList] ∧ conjugate "ㅏ".toList "았다".toList = .error .valueError := by decide +kernel

/-- C43: `conjugate_chat` attaches every bare consonant to the stem, so one that cannot close a syllable (ㄸ, ㅃ or ㅉ) is a ValueError, although
    `conjugate` accepts the ending. -/
theorem C43_chat_raises (stem es : Str) (e0 : Char) (enforce : Bool) (hne : stem ≠ []) (hs : ∀ c ∈ stem, Syllable c) (h0 : e0 ∈ ['ㄸ', 'ㅃ', 'ㅉ']) :
    (∃ forms, conjugate stem (e0 :: es) enforce = .ok forms) ∧ conjugateChat stem (e0 :: es) enforce = .error .valueError := by
  have hc : Consonant e0 := by
    simp only [List.mem_cons, List.not_mem_nil, or_false] at h0
    rcases h0 with rfl | rfl | rfl <;> decide
  have hne0 : e0 ≠ 'ㅇ' := by rintro rfl; revert h0; decide
  obtain ⟨forms, hf, _⟩ := C43_total stem (e0 :: es) e0 enforce hne hs rfl (.inr hc) (fun h => hne0 h.1)
  refine ⟨⟨forms, hf⟩, ?_⟩
  obtain ⟨last, hlast⟩ : ∃ last, stem.getLast? = some last := by
    cases h : stem.getLast? with
    | none => exact absurd (List.getLast?_eq_none_iff.1 h) hne
    | some c => exact ⟨c, rfl⟩
  obtain ⟨ll, hll, hL, hself⟩ := decomposeList_syllable (hs last (List.mem_of_getLast? hlast))
  have hj : e0 ∉ jongsungList := by
    simp only [List.mem_cons, List.not_mem_nil, or_false] at h0
    rcases h0 with rfl | rfl | rfl <;> decide
  have hcomp : compose ll.1 ll.2.1 e0 = .error .valueError := by
    refine Props.C01_compose_rejects _ _ _ ?_
    rintro ⟨a, b, d, h⟩
    obtain ⟨c', h1, _⟩ := compose_of_jamoAt h
    exact hj (compose_inv h1).1.2.2
  simp only [conjugateChat, hf, hlast, hll, decomposeList_consonant hc, chatJong, hcomp]
  rw [if_pos ⟨trivial, (consonant_ne hc).2.2⟩]
  rfl

example : conjugate "하".toList "ㅉ".toList = .ok [] ∧ conjugateChat "하".toList "ㅉ".toList = .error .valueError := by decide +kernel

end Props
