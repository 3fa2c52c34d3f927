import Verif.Proofs.Hangle
/-! C01, C02: composition and decomposition of Hangul characters. -/
namespace Props
open Py Spec Hangle

/-- C01 (a): taking a complete syllable apart and composing the parts gives the syllable back. -/
theorem C01_compose_decompose (c : Char) (h : Syllable c) :
    ∃ x y z, decompose c = .ok (some (x, y, z)) ∧ compose x y z = .ok c := by
  obtain ⟨x, y, z, i, j, k, hd, hj, e⟩ := decompose_syllable h
  obtain ⟨c', hc, e', _⟩ := compose_of_jamoAt hj
  refine ⟨x, y, z, hd, ?_⟩
  rw [hc, char_ext (e'.trans e.symm)]

example : Syllable '값' := by decide

/-- C01 (b): every i-th initial, j-th vowel and k-th final compose to the syllable the standard assigns to them,
    and that syllable decomposes into exactly these three. -/
theorem C01_decompose_compose (x y z : Char) (i j k : Nat) (h : JamoAt x y z i j k) :
    ∃ c, compose x y z = .ok c ∧ Syllable c ∧ c.toNat = 0xAC00 + (i * 21 + j) * 28 + k ∧
      decompose c = .ok (some (x, y, z)) := by
  obtain ⟨c, hc, e, l1, l2, l3⟩ := compose_of_jamoAt h
  have hs : Syllable c := ⟨by omega, by omega⟩
  refine ⟨c, hc, hs, e, ?_⟩
  obtain ⟨x', y', z', i', j', k', hd, hj, e'⟩ := decompose_syllable hs
  obtain ⟨_, _, _, l1', l2', l3'⟩ := compose_of_jamoAt hj
  have : i' = i ∧ j' = j ∧ k' = k := by omega
  obtain ⟨rfl, rfl, rfl⟩ := this
  obtain ⟨rfl, rfl, rfl⟩ := jamoAt_unique h hj
  exact hd

example : JamoAt 'ㅎ' 'ㅏ' 'ㄴ' 18 0 4 := by decide

/-- C01 (c): any other triple is rejected with `ValueError`. -/
theorem C01_compose_rejects (x y z : Char) (h : ¬ ∃ i j k, JamoAt x y z i j k) :
    compose x y z = .error .valueError := by
  unfold compose
  cases hx : index chosungList x with
  | error e => rw [((index_err_iff x e).1 hx).1]; rfl
  | ok i =>
    cases hy : index jungsungList y with
    | error e => simp only [bind, Except.bind]; rw [((index_err_iff y e).1 hy).1]
    | ok j =>
      cases hz : index jongsungList z with
      | error e => simp only [bind, Except.bind]; rw [((index_err_iff z e).1 hz).1]
      | ok k =>
        exact absurd ⟨i, j, k, (index_ok_iff chosung_spec initial_nodup x i).1 hx,
          (index_ok_iff jungsung_spec vowel_nodup y j).1 hy, (index_ok_iff jongsung_spec final_nodup z k).1 hz⟩ h

/-- the blank is not an initial, so a lone vowel cannot be composed -/
example : ¬ ∃ i j k, JamoAt ' ' 'ㅏ' ' ' i j k := by
  rintro ⟨i, j, k, h, _⟩
  have : (32 : Nat) ∈ initialJamo := List.mem_of_getElem? h
  revert this; decide

/-- C02 (a): `decompose` never raises; it is `None` exactly for non-Korean characters, keeps a free consonant in
    the first and a free vowel in the second place, and gives a syllable's own jamo. -/
theorem C02_decompose_cases (c : Char) :
    (decompose c = .ok none ↔ ¬ Korean c) ∧
    (Consonant c → decompose c = .ok (some (c, ' ', ' '))) ∧
    (Vowel c → decompose c = .ok (some (' ', c, ' '))) ∧
    (Syllable c → ∃ x y z i j k, decompose c = .ok (some (x, y, z)) ∧ JamoAt x y z i j k ∧
      c.toNat = 0xAC00 + (i * 21 + j) * 28 + k) := by
  refine ⟨⟨?_, decompose_nonkorean⟩, decompose_consonant, decompose_vowel, decompose_syllable⟩
  intro h hk
  rcases hk with hs | hs | hs
  · obtain ⟨x, y, z, _, _, _, hd, _⟩ := decompose_syllable hs; rw [hd] at h; cases h
  · rw [decompose_consonant hs] at h; cases h
  · rw [decompose_vowel hs] at h; cases h

example : Consonant 'ㅋ' ∧ Vowel 'ㅠ' ∧ Syllable '가' ∧ ¬ Korean 'a' := by decide

private theorem jamoAt_not_blank {x y z i j k} (h : JamoAt x y z i j k) : x ≠ ' ' ∧ y ≠ ' ' := by
  obtain ⟨h1, h2, _⟩ := h
  constructor
  · rintro rfl; have : (32 : Nat) ∈ initialJamo := List.mem_of_getElem? h1
    revert this; decide
  · rintro rfl; have : (32 : Nat) ∈ vowelJamo := List.mem_of_getElem? h2
    revert this; decide

/-- C02 (b): two Korean characters with the same decomposition are equal. -/
theorem C02_decompose_injective (a b : Char) (ha : Korean a) (hb : Korean b) (h : decompose a = decompose b) :
    a = b := by
  rcases ha with ha | ha | ha <;> rcases hb with hb | hb | hb
  · obtain ⟨x, y, z, h1, h2⟩ := C01_compose_decompose a ha
    obtain ⟨x', y', z', h1', h2'⟩ := C01_compose_decompose b hb
    rw [h1, h1'] at h
    cases h
    rw [h2] at h2'; cases h2'; rfl
  · obtain ⟨x, y, z, _, _, _, h1, h2, _⟩ := decompose_syllable ha
    rw [h1, decompose_consonant hb] at h; cases h; exact absurd rfl (jamoAt_not_blank h2).2
  · obtain ⟨x, y, z, _, _, _, h1, h2, _⟩ := decompose_syllable ha
    rw [h1, decompose_vowel hb] at h; cases h; exact absurd rfl (jamoAt_not_blank h2).1
  · obtain ⟨x, y, z, _, _, _, h1, h2, _⟩ := decompose_syllable hb
    rw [h1, decompose_consonant ha] at h; cases h; exact absurd rfl (jamoAt_not_blank h2).2
  · rw [decompose_consonant ha, decompose_consonant hb] at h; cases h; rfl
  · rw [decompose_consonant ha, decompose_vowel hb] at h; cases h; rfl
  · obtain ⟨x, y, z, _, _, _, h1, h2, _⟩ := decompose_syllable hb
    rw [h1, decompose_vowel ha] at h; cases h; exact absurd rfl (jamoAt_not_blank h2).1
  · rw [decompose_consonant hb, decompose_vowel ha] at h; cases h; rfl
  · rw [decompose_vowel ha, decompose_vowel hb] at h; cases h; rfl

/-- C02 (c): the classification predicates are the standard's blocks, pairwise disjoint, and cover
    `character_is_korean`. -/
theorem C02_classes (c : Char) :
    (isComplete c = true ↔ Syllable c) ∧ (isJaum c = true ↔ Consonant c) ∧ (isMoum c = true ↔ Vowel c) ∧
    (isKorean c = (isComplete c || isJaum c || isMoum c)) ∧
    ¬ (isComplete c = true ∧ isJaum c = true) ∧ ¬ (isComplete c = true ∧ isMoum c = true) ∧
    ¬ (isJaum c = true ∧ isMoum c = true) := by
  refine ⟨isComplete_iff c, isJaum_iff c, isMoum_iff c, rfl, ?_, ?_, ?_⟩ <;>
    simp only [isComplete_iff, isJaum_iff, isMoum_iff, Syllable, Consonant, Vowel] <;> omega

/-- C02: the other character tests: ASCII digits, ASCII letters, and the seven punctuation marks `! " ' , . ? \``. -/
theorem C02_ascii (c : Char) :
    (isNumber c = true ↔ c ∈ "0123456789".toList) ∧
    (isEnglish c = true ↔ c ∈ "abcdefghijklmnopqrstuvwxyzABCDEFGHIJKLMNOPQRSTUVWXYZ".toList) ∧
    (isPunctuation c = true ↔ c ∈ ['!', '"', '\'', ',', '.', '?', '`']) := by
  have key : ∀ l : List Char, c ∈ l ↔ c.toNat ∈ l.map Char.toNat := by
    intro l
    rw [List.mem_map]
    constructor
    · intro h; exact ⟨c, h, rfl⟩
    · rintro ⟨d, hd, e⟩; rw [← char_ext e]; exact hd
  refine ⟨?_, ?_, ?_⟩
  · rw [key, show "0123456789".toList.map Char.toNat = List.range' 48 10 by decide]
    simp only [isNumber, Bool.and_eq_true, decide_eq_true_eq, List.mem_range'_1]; omega
  · rw [key, show "abcdefghijklmnopqrstuvwxyzABCDEFGHIJKLMNOPQRSTUVWXYZ".toList.map Char.toNat = List.range' 97 26 ++ List.range' 65 26 by decide]
    simp only [isEnglish, Bool.or_eq_true, Bool.and_eq_true, decide_eq_true_eq, List.mem_append, List.mem_range'_1]; omega
  · rw [key]
    simp [isPunctuation, or_assoc]

end Props
