import Verif.Py.Str
import Verif.Model.Hangle
import Verif.Spec.Unicode
/-! Lemmas for Hangul composition. -/
namespace Hangle
open Py Spec

theorem chosung_spec : chosungList.map Char.toNat = initialJamo := by decide +kernel
theorem jungsung_spec : jungsungList.map Char.toNat = vowelJamo := by decide +kernel
theorem jongsung_spec : jongsungList.map Char.toNat = finalJamo := by decide +kernel

theorem initial_length : initialJamo.length = 19 := rfl
theorem vowel_length : vowelJamo.length = 21 := rfl
theorem final_length : finalJamo.length = 28 := rfl
theorem initial_nodup : initialJamo.Nodup := by decide +kernel
theorem vowel_nodup : vowelJamo.Nodup := by decide +kernel
theorem final_nodup : finalJamo.Nodup := by decide +kernel

theorem nodup_getElem?_inj {l : List Nat} (h : l.Nodup) {i j n : Nat}
    (hi : l[i]? = some n) (hj : l[j]? = some n) : i = j := by
  obtain ⟨h1, e1⟩ := List.getElem?_eq_some_iff.1 hi
  obtain ⟨h2, e2⟩ := List.getElem?_eq_some_iff.1 hj
  exact (List.getElem_inj h).1 (e1.trans e2.symm)

/-- `index` finds exactly the position in the code-point table -/
theorem index_ok_iff {l : List Char} {t : List Nat} (hl : l.map Char.toNat = t) (hn : t.Nodup) (c : Char) (i : Nat) :
    index l c = .ok i ↔ t[i]? = some c.toNat := by
  subst hl
  unfold index
  rw [List.getElem?_map]
  constructor
  · intro h
    split at h
    · rename_i j hj
      cases h
      obtain ⟨h1, h2, _⟩ := List.findIdx?_eq_some_iff_getElem.1 hj
      simp at h2
      simp [h1, h2]
    · cases h
  · intro h
    simp only [Option.map_eq_some_iff] at h
    obtain ⟨d, hd, he⟩ := h
    have hdc : d = c := char_ext he
    subst hdc
    have hmem : d ∈ l := List.mem_of_getElem? hd
    split
    · rename_i j hj
      obtain ⟨h1, h2, _⟩ := List.findIdx?_eq_some_iff_getElem.1 hj
      simp at h2
      have := nodup_getElem?_inj hn (i := i) (j := j) (n := d.toNat) (by simp [List.getElem?_map, hd])
        (by simp [h1, h2])
      rw [this]
    · rename_i hj
      rw [List.findIdx?_eq_none_iff] at hj
      have := hj d hmem; simp at this

theorem index_err_iff {l : List Char} (c : Char) (e : PyErr) :
    index l c = .error e ↔ (e = .valueError ∧ c ∉ l) := by
  unfold index
  split
  · rename_i j hj
    obtain ⟨h1, h2, _⟩ := List.findIdx?_eq_some_iff_getElem.1 hj
    simp at h2
    simp only [reduceCtorEq, false_iff, not_and, Decidable.not_not]
    intro _; rw [← h2]; exact List.getElem_mem h1
  · rename_i hj
    rw [List.findIdx?_eq_none_iff] at hj
    constructor
    · intro h; cases h; refine ⟨rfl, fun hm => ?_⟩
      have := hj c hm; simp at this
    · rintro ⟨rfl, _⟩; rfl

theorem getItem_of_table {l : List Char} {t : List Nat} (hl : l.map Char.toNat = t) {i : Nat} (hi : i < t.length) :
    ∃ c, getItem l i = .ok c ∧ t[i]? = some c.toNat := by
  subst hl
  simp at hi
  refine ⟨l[i], ?_, ?_⟩
  · simp [getItem, hi]
  · simp [hi]

theorem isComplete_iff (c : Char) : isComplete c = true ↔ Syllable c := by
  simp [isComplete, Syllable, korBegin, korEnd]
theorem isJaum_iff (c : Char) : isJaum c = true ↔ Consonant c := by
  simp [isJaum, Consonant, jaumBegin, jaumEnd]
theorem isMoum_iff (c : Char) : isMoum c = true ↔ Vowel c := by
  simp [isMoum, Vowel, moumBegin, moumEnd]
theorem isKorean_iff (c : Char) : isKorean c = true ↔ Korean c := by
  simp [isKorean, Korean, Syllable, Consonant, Vowel, korBegin, korEnd, jaumBegin, jaumEnd, moumBegin, moumEnd, or_assoc]

theorem valid_of_lt {n : Nat} (h : n < 0xD800) : n.isValidChar := Or.inl h

/-- decomposition of a syllable, through the standard's arithmetic -/
theorem decompose_syllable {c : Char} (h : Syllable c) :
    ∃ x y z i j k, decompose c = .ok (some (x, y, z)) ∧ JamoAt x y z i j k ∧
      c.toNat = 0xAC00 + (i * 21 + j) * 28 + k := by
  obtain ⟨h1, h2⟩ := h
  have hk : isKorean c = true := by rw [isKorean_iff]; exact Or.inl ⟨h1, h2⟩
  have hb : c.toNat - 44032 ≤ 11171 := by omega
  have l1 : (c.toNat - 44032) / 588 < 19 := by omega
  have l2 : (c.toNat - 44032 - (c.toNat - 44032) / 588 * 588) / 28 < 21 := by omega
  have l3 : c.toNat - 44032 - (c.toNat - 44032) / 588 * 588 -
      (c.toNat - 44032 - (c.toNat - 44032) / 588 * 588) / 28 * 28 < 28 := by omega
  obtain ⟨x, hx, hx'⟩ := getItem_of_table chosung_spec (i := (c.toNat - 44032) / 588) (by rw [initial_length]; exact l1)
  obtain ⟨y, hy, hy'⟩ := getItem_of_table jungsung_spec (by rw [vowel_length]; exact l2)
  obtain ⟨z, hz, hz'⟩ := getItem_of_table jongsung_spec (by rw [final_length]; exact l3)
  refine ⟨x, y, z, _, _, _, ?_, ⟨hx', hy', hz'⟩, by omega⟩
  simp only [decompose, hk, jaumBegin, jaumEnd, moumBegin, moumEnd, korBegin, chosungBase, jungsungBase]
  rw [if_neg (by simp), if_neg (by simp; omega), if_neg (by simp; omega)]
  rw [hx, hy, hz]; rfl

theorem compose_of_jamoAt {x y z : Char} {i j k : Nat} (h : JamoAt x y z i j k) :
    ∃ c, compose x y z = .ok c ∧ c.toNat = 0xAC00 + (i * 21 + j) * 28 + k ∧ i < 19 ∧ j < 21 ∧ k < 28 := by
  obtain ⟨hx, hy, hz⟩ := h
  have l1 : i < 19 := (List.getElem?_eq_some_iff.1 hx).1
  have l2 : j < 21 := (List.getElem?_eq_some_iff.1 hy).1
  have l3 : k < 28 := (List.getElem?_eq_some_iff.1 hz).1
  have e1 := (index_ok_iff chosung_spec initial_nodup x i).2 hx
  have e2 := (index_ok_iff jungsung_spec vowel_nodup y j).2 hy
  have e3 := (index_ok_iff jongsung_spec final_nodup z k).2 hz
  have hv : Nat.isValidChar (korBegin + chosungBase * i + jungsungBase * j + k) := by
    apply valid_of_lt; simp only [korBegin, chosungBase, jungsungBase]; omega
  refine ⟨Char.ofNat (korBegin + chosungBase * i + jungsungBase * j + k), ?_, ?_, l1, l2, l3⟩
  · simp only [compose, e1, e2, e3]
    exact chr_ok hv
  · rw [char_ofNat_toNat hv]; simp only [korBegin, chosungBase, jungsungBase]; omega

theorem jamoAt_unique {x y z x' y' z' : Char} {i j k : Nat} (h : JamoAt x y z i j k) (h' : JamoAt x' y' z' i j k) :
    x = x' ∧ y = y' ∧ z = z' := by
  obtain ⟨a, b, c⟩ := h
  obtain ⟨a', b', c'⟩ := h'
  rw [a] at a'; rw [b] at b'; rw [c] at c'
  refine ⟨char_ext ?_, char_ext ?_, char_ext ?_⟩ <;> simp_all

theorem mem_iff_getElem? {l : List Char} {t : List Nat} (hl : l.map Char.toNat = t) (c : Char) :
    c ∈ l ↔ ∃ i : Nat, t[i]? = some c.toNat := by
  subst hl
  constructor
  · intro h
    obtain ⟨i, hi, e⟩ := List.getElem_of_mem h
    exact ⟨i, by simp [hi, e]⟩
  · rintro ⟨i, hi⟩
    rw [List.getElem?_map, Option.map_eq_some_iff] at hi
    obtain ⟨d, hd, e⟩ := hi
    rw [← char_ext e]; exact List.mem_of_getElem? hd

theorem decompose_nonkorean {c : Char} (h : ¬ Korean c) : decompose c = .ok none := by
  have : isKorean c = false := by
    cases hk : isKorean c
    · rfl
    · exact absurd ((isKorean_iff c).1 hk) h
  simp [decompose, this]

theorem decompose_consonant {c : Char} (h : Consonant c) : decompose c = .ok (some (c, ' ', ' ')) := by
  have : isKorean c = true := (isKorean_iff c).2 (Or.inr (Or.inl h))
  obtain ⟨h1, h2⟩ := h
  simp [decompose, this, h1, h2]

theorem decompose_vowel {c : Char} (h : Vowel c) : decompose c = .ok (some (' ', c, ' ')) := by
  have : isKorean c = true := (isKorean_iff c).2 (Or.inr (Or.inr h))
  obtain ⟨h1, h2⟩ := h
  have h3 : ¬ c.toNat ≤ 12622 := by omega
  simp [decompose, this, h1, h2, h3]

end Hangle
