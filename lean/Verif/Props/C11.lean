import Verif.Spec.Emoticon
import Verif.Props.C09_C10
/-! C11: emoticon_normalize. -/
namespace Props
open Py Spec Hangle Normalizer

theorem pattern_zero (c : Char) : (pattern c == some 0) = decide (Consonant c) := by
  rw [Bool.eq_iff_iff, decide_eq_true_iff]
  simp only [pattern, Consonant, Bool.and_eq_true, decide_eq_true_eq]
  by_cases h1 : 12593 ≤ c.toNat ∧ c.toNat ≤ 12622
  · simp [h1]
  · rw [if_neg h1]; simp only [h1]
    split
    · simp
    · split <;> simp

theorem pattern_one (c : Char) : (pattern c == some 1) = decide (Vowel c) := by
  rw [Bool.eq_iff_iff, decide_eq_true_iff]
  simp only [pattern, Vowel, Bool.and_eq_true, decide_eq_true_eq]
  by_cases h1 : 12593 ≤ c.toNat ∧ c.toNat ≤ 12622
  · rw [if_pos h1]; constructor
    · intro h; exact absurd h (by decide)
    · intro h; omega
  · rw [if_neg h1]
    by_cases h2 : 12623 ≤ c.toNat ∧ c.toNat ≤ 12643
    · simp [h2]
    · rw [if_neg h2]; simp only [h2]; split <;> simp

theorem pattern_two (c : Char) : (pattern c == some 2) = decide (Syllable c) := by
  rw [Bool.eq_iff_iff, decide_eq_true_iff]
  simp only [pattern, Syllable, Bool.and_eq_true, decide_eq_true_eq]
  by_cases h1 : 12593 ≤ c.toNat ∧ c.toNat ≤ 12622
  · rw [if_pos h1]; constructor
    · intro h; exact absurd h (by decide)
    · intro h; omega
  · rw [if_neg h1]
    by_cases h2 : 12623 ≤ c.toNat ∧ c.toNat ≤ 12643
    · rw [if_pos h2]; constructor
      · intro h; exact absurd h (by decide)
      · intro h; omega
    · rw [if_neg h2]
      by_cases h3 : 44032 ≤ c.toNat ∧ c.toNat ≤ 55203
      · simp [h3]
      · simp [h3]

/-- the neighbour is a free consonant / a free vowel -/
def NextTo (P : Char → Prop) (o : Option Char) : Prop := ∃ q, o = some q ∧ P q
instance (P : Char → Prop) [DecidablePred P] (o : Option Char) : Decidable (NextTo P o) :=
  match o with
  | none => isFalse (by rintro ⟨_, h, _⟩; cases h)
  | some q => decidable_of_iff (P q) ⟨fun h => ⟨q, rfl, h⟩, by rintro ⟨_, h, k⟩; cases h; exact k⟩

private theorem pat_bind0 (o : Option Char) : (o.isSome && (o.bind pattern == some 0)) = decide (NextTo Consonant o) := by
  cases o with
  | none => rfl
  | some q =>
    simp only [Option.isSome_some, Option.bind_some, pattern_zero, Bool.true_and]
    congr 1
    exact propext ⟨fun h => ⟨q, rfl, h⟩, by rintro ⟨_, h, k⟩; cases h; exact k⟩
private theorem pat_bind1 (o : Option Char) : (o.isSome && (o.bind pattern == some 1)) = decide (NextTo Vowel o) := by
  cases o with
  | none => rfl
  | some q =>
    simp only [Option.isSome_some, Option.bind_some, pattern_one, Bool.true_and]
    congr 1
    exact propext ⟨fun h => ⟨q, rfl, h⟩, by rintro ⟨_, h, k⟩; cases h; exact k⟩

private theorem piece_eq (prev : Option Char) (c : Char) (next : Option Char) :
    emoticonPiece prev c next =
      if Syllable c ∧ NextTo Consonant prev ∧ NextTo Vowel next then do
        let (cho, jung, jong) ← unpack c
        if some cho = prev && some jung = next && jong = ' ' then .ok [cho, jung] else .ok [c]
      else if Syllable c ∧ NextTo Consonant next then do
        let (cho, jung, jong) ← unpack c
        if some jong = next then do
          let x ← compose cho jung ' '
          .ok [x, jong]
        else .ok []
      else if Syllable c ∧ NextTo Consonant prev then do
        let (cho, jung, _) ← unpack c
        if some cho = prev then .ok [cho, jung] else .ok []
      else .ok [c] := by
  have e1 : (prev.isSome && next.isSome && (prev.bind pattern == some 0 && pattern c == some 2 && next.bind pattern == some 1))
      = decide (Syllable c ∧ NextTo Consonant prev ∧ NextTo Vowel next) := by
    rw [Bool.decide_and, Bool.decide_and, ← pat_bind0, ← pat_bind1, pattern_two]
    cases prev.isSome <;> cases next.isSome <;> cases (prev.bind pattern == some 0) <;> cases decide (Syllable c) <;>
      cases (next.bind pattern == some 1) <;> rfl
  have e2 : (next.isSome && pattern c == some 2 && next.bind pattern == some 0) = decide (Syllable c ∧ NextTo Consonant next) := by
    rw [Bool.decide_and, ← pat_bind0, pattern_two]
    cases next.isSome <;> cases (next.bind pattern == some 0) <;> cases decide (Syllable c) <;> rfl
  have e3 : (prev.isSome && (pattern c == some 2 && prev.bind pattern == some 0)) = decide (Syllable c ∧ NextTo Consonant prev) := by
    rw [Bool.decide_and, ← pat_bind0, pattern_two]
    cases prev.isSome <;> cases (prev.bind pattern == some 0) <;> cases decide (Syllable c) <;> rfl
  unfold emoticonPiece
  simp only [e1, e2, e3, decide_eq_true_eq]

private theorem unpack_syllable {c : Char} (h : Syllable c) :
    ∃ x y z i j k, unpack c = .ok (x, y, z) ∧ JamoAt x y z i j k ∧ c.toNat = 0xAC00 + (i * 21 + j) * 28 + k := by
  obtain ⟨x, y, z, i, j, k, h1, h2, h3⟩ := decompose_syllable h
  exact ⟨x, y, z, i, j, k, by simp [unpack, h1, bind, Except.bind], h2, h3⟩

private theorem jamoAt_open {x y z : Char} {i j k : Nat} (h : JamoAt x y z i j k) : JamoAt x y ' ' i j 0 :=
  ⟨h.1, h.2.1, rfl⟩

/-- the parts of a syllable are determined by it -/
private theorem isSyllableOf_unique {c x y z x' y' z' : Char} (h : IsSyllableOf c x y z) (h' : IsSyllableOf c x' y' z') :
    x = x' ∧ y = y' ∧ z = z' := by
  obtain ⟨i, j, k, hj, e⟩ := h
  obtain ⟨i', j', k', hj', e'⟩ := h'
  obtain ⟨_, _, _, l1, l2, l3⟩ := compose_of_jamoAt hj
  obtain ⟨_, _, _, l1', l2', l3'⟩ := compose_of_jamoAt hj'
  have : i = i' ∧ j = j' ∧ k = k' := by omega
  obtain ⟨rfl, rfl, rfl⟩ := this
  exact jamoAt_unique hj hj'

private theorem not_syllable_jamo {x y z : Char} {i j k : Nat} (h : JamoAt x y z i j k) :
    ¬ Syllable x ∧ ¬ Syllable y ∧ ¬ Syllable z := by
  have t1 : ∀ n ∈ initialJamo, n < 44032 := by decide
  have t2 : ∀ n ∈ vowelJamo, n < 44032 := by decide
  have t3 : ∀ n ∈ finalJamo, n < 44032 := by decide
  have h1 := t1 _ (List.mem_of_getElem? h.1)
  have h2 := t2 _ (List.mem_of_getElem? h.2.1)
  have h3 := t3 _ (List.mem_of_getElem? h.2.2)
  refine ⟨fun h => ?_, fun h => ?_, fun h => ?_⟩ <;> have := h.1 <;> omega

private theorem syllable_of {c x y z : Char} (h : IsSyllableOf c x y z) : Syllable c := by
  obtain ⟨i, j, k, hj, e⟩ := h
  obtain ⟨_, _, _, l1, l2, l3⟩ := compose_of_jamoAt hj
  exact ⟨by omega, by omega⟩

private theorem piece_total (prev : Option Char) (c : Char) (next : Option Char) :
    ∃ p, emoticonPiece prev c next = .ok p := by
  rw [piece_eq]
  split
  · rename_i h
    obtain ⟨x, y, z, i, j, k, hu, hj, e⟩ := unpack_syllable h.1
    simp only [hu, bind, Except.bind]
    split <;> exact ⟨_, rfl⟩
  · split
    · rename_i h
      obtain ⟨x, y, z, i, j, k, hu, hj, e⟩ := unpack_syllable h.1
      obtain ⟨d, hd, _⟩ := compose_of_jamoAt (jamoAt_open hj)
      simp only [hu, bind, Except.bind, hd]
      split <;> exact ⟨_, rfl⟩
    · split
      · rename_i h
        obtain ⟨x, y, z, i, j, k, hu, hj, e⟩ := unpack_syllable h.1
        simp only [hu, bind, Except.bind]
        split <;> exact ⟨_, rfl⟩
      · exact ⟨_, rfl⟩

private theorem go_total (s : Str) (prev : Option Char) : ∃ t, emoticonGo prev s = .ok t := by
  induction s generalizing prev with
  | nil => exact ⟨_, rfl⟩
  | cons c cs ih =>
    obtain ⟨p, hp⟩ := piece_total prev c cs.head?
    obtain ⟨t, ht⟩ := ih (some c)
    exact ⟨p ++ t, by simp [emoticonGo, hp, ht, bind, Except.bind]⟩

/-- C11 (a): `emoticon_normalize` never raises. -/
theorem C11_total (isWord : Char → Bool) (s : Str) (n : Nat) : ∃ t, emoticonNormalize isWord s n = .ok t := by
  unfold emoticonNormalize
  split
  · exact ⟨_, rfl⟩
  · obtain ⟨t, ht⟩ := go_total s none
    exact ⟨_, by rw [ht]; rfl⟩

/-- the situations in which the code keeps a syllable `c` with these neighbours: a consonant after it is its own
    final, and a consonant before it is its own initial and it has no final (or the next character is a free
    jamo). -/
def SafeAt (prev : Option Char) (c : Char) (next : Option Char) : Prop :=
  ∀ x y z, IsSyllableOf c x y z →
    (∀ q, next = some q → Consonant q → q = z) ∧
    (∀ p, prev = some p → Consonant p → (∃ q, next = some q ∧ (Vowel q ∨ Consonant q)) ∨ (p = x ∧ z = ' '))

/-- every character of the text is safe between its neighbours -/
def SafeText (s : Str) : Prop := ∀ a c b, s = a ++ c :: b → SafeAt a.getLast? c b.head?

private theorem spells_exists (c : Char) : ∃ ps, Spells c ps := by
  by_cases h : Syllable c
  · obtain ⟨x, y, z, i, j, k, _, hj, e⟩ := unpack_syllable h
    by_cases hz : z = ' '
    · subst hz; exact ⟨_, .open x y ⟨i, j, k, hj, e⟩⟩
    · exact ⟨_, .closed x y z ⟨i, j, k, hj, e⟩ hz⟩
  · exact ⟨_, .other h⟩

private theorem spellsText_append {s t ps qs : Str} (h : SpellsText s ps) (h' : SpellsText t qs) :
    SpellsText (s ++ t) (ps ++ qs) := by
  induction h with
  | nil => simpa
  | cons hc _ ih => simpa [List.append_assoc] using SpellsText.cons hc ih

private theorem final_consonant {z : Char} {k : Nat} (h : finalJamo[k]? = some z.toNat) (hz : z ≠ ' ') : Consonant z := by
  have t : ∀ n ∈ finalJamo, n = 32 ∨ (12593 ≤ n ∧ n ≤ 12622) := by decide
  rcases t _ (List.mem_of_getElem? h) with h | h
  · exact absurd (char_ext (h.trans (by decide))) hz
  · exact h

private theorem piece_spells (prev : Option Char) (c : Char) (next : Option Char) (h : SafeAt prev c next) :
    ∃ p ps, emoticonPiece prev c next = .ok p ∧ Spells c ps ∧ SpellsText p ps := by
  have keep : ∃ p ps, (.ok [c] : PyM Str) = .ok p ∧ Spells c ps ∧ SpellsText p ps := by
    obtain ⟨ps, hp⟩ := spells_exists c
    exact ⟨[c], ps, rfl, hp, by simpa using SpellsText.cons hp .nil⟩
  rw [piece_eq]
  split
  · rename_i hs
    obtain ⟨x, y, z, i, j, k, hu, hj, e⟩ := unpack_syllable hs.1
    have nj := not_syllable_jamo hj
    simp only [hu, bind, Except.bind]
    split
    · rename_i hc
      simp at hc
      obtain ⟨_, hz⟩ := hc
      subst hz
      exact ⟨_, [x, y], rfl, .open x y ⟨i, j, k, hj, e⟩,
        by simpa using SpellsText.cons (.other nj.1) (SpellsText.cons (.other nj.2.1) .nil)⟩
    · exact keep
  · split
    · rename_i hs
      obtain ⟨x, y, z, i, j, k, hu, hj, e⟩ := unpack_syllable hs.1
      have nj := not_syllable_jamo hj
      obtain ⟨q, hq, hcq⟩ := hs.2
      have hz : q = z := (h x y z ⟨i, j, k, hj, e⟩).1 q hq hcq
      subst hz
      obtain ⟨d, hd, he, _⟩ := compose_of_jamoAt (jamoAt_open hj)
      have hqb : q ≠ ' ' := by rintro rfl; revert hcq; decide
      simp only [hu, bind, Except.bind, hd, hq, if_true]
      exact ⟨_, [x, y, q], rfl, .closed x y q ⟨i, j, k, hj, e⟩ hqb,
        by simpa using SpellsText.cons (.open x y ⟨i, j, 0, jamoAt_open hj, he⟩) (SpellsText.cons (.other nj.2.2) .nil)⟩
    · split
      · rename_i hn1 hn2 hs
        obtain ⟨x, y, z, i, j, k, hu, hj, e⟩ := unpack_syllable hs.1
        have nj := not_syllable_jamo hj
        obtain ⟨p, hp, hcp⟩ := hs.2
        rcases (h x y z ⟨i, j, k, hj, e⟩).2 p hp hcp with ⟨q, hq, hv | hv⟩ | ⟨rfl, rfl⟩
        · exact absurd ⟨hs.1, hs.2, q, hq, hv⟩ hn1
        · exact absurd ⟨hs.1, q, hq, hv⟩ hn2
        · simp only [hu, bind, Except.bind, hp, if_true]
          exact ⟨_, [p, y], rfl, .open p y ⟨i, j, k, hj, e⟩,
            by simpa using SpellsText.cons (.other nj.1) (SpellsText.cons (.other nj.2.1) .nil)⟩
      · exact keep

private theorem go_spells (s a : Str) (h : ∀ a' c b, s = a' ++ c :: b → SafeAt (a ++ a').getLast? c b.head?) :
    ∃ t ps, emoticonGo a.getLast? s = .ok t ∧ SpellsText s ps ∧ SpellsText t ps := by
  induction s generalizing a with
  | nil => exact ⟨[], [], rfl, .nil, .nil⟩
  | cons c cs ih =>
    obtain ⟨p, ps, hp, h1, h2⟩ := piece_spells a.getLast? c cs.head? (by simpa using h [] c cs rfl)
    obtain ⟨t, qs, ht, h3, h4⟩ := ih (a ++ [c]) (by
      intro a' d b e
      have := h (c :: a') d b (by simp [e])
      simpa using this)
    rw [List.getLast?_append] at ht
    simp at ht
    exact ⟨p ++ t, ps ++ qs, by simp [emoticonGo, hp, ht, bind, Except.bind], .cons h1 h3, spellsText_append h2 h4⟩

/-- C11 (b): in a text whose syllables are safe next to free jamo, the result is the repeat-normalised
    form of a text with exactly the same letters in the same order. (Without the hypothesis that is
    false: `C11_violated`; what happens then is `C11_rewritten`.) -/
theorem C11_same_letters (isWord : Char → Bool) (s : Str) (n : Nat) (hs : s ≠ []) (h : SafeText s) :
    ∃ t ps, emoticonNormalize isWord s n = .ok (repeatNormalize isWord t n) ∧ SpellsText s ps ∧ SpellsText t ps := by
  obtain ⟨t, ps, h1, h2, h3⟩ := go_spells s [] h
  refine ⟨t, ps, ?_, h2, h3⟩
  simp at h1
  simp [emoticonNormalize, hs, h1, bind, Except.bind]

/-- a text without free consonants is safe, so ordinary text is only repeat-normalised -/
theorem C11_no_free_consonant (isWord : Char → Bool) (s : Str) (n : Nat) (h : ∀ c ∈ s, ¬ Consonant c) :
    emoticonNormalize isWord s n = .ok (repeatNormalize isWord s n) := by
  have hg : ∀ (s : Str) (prev : Option Char), (∀ c ∈ s, ¬ Consonant c) → (∀ p, prev = some p → ¬ Consonant p) →
      emoticonGo prev s = .ok s := by
    intro s
    induction s with
    | nil => intro _ _ _; rfl
    | cons c cs ih =>
      intro prev h hp
      have hn : ¬ NextTo Consonant prev := by rintro ⟨q, hq, k⟩; exact hp q hq k
      have hn2 : ¬ NextTo Consonant cs.head? := by
        rintro ⟨q, hq, k⟩
        exact h q (List.mem_cons_of_mem _ (List.mem_of_mem_head? (by simp [hq]))) k
      simp only [emoticonGo, piece_eq]
      rw [if_neg (by simp [hn]), if_neg (by simp [hn2]), if_neg (by simp [hn]),
        ih (some c) (fun d hd => h d (List.mem_cons_of_mem _ hd)) (by intro p hp; cases hp; exact h c (by simp))]
      rfl
  unfold emoticonNormalize
  split
  · rename_i hs; subst hs
    simp [repeatNormalize, repeatSub, collapse, collapseGo, strip, lstrip, rstrip]
  · rw [hg s none h (by simp)]; rfl

example : SafeText "ㅋ쿠ㅜ".toList := by
  intro a c b h
  have : (a = [] ∧ c = 'ㅋ' ∧ b = ['쿠', 'ㅜ']) ∨ (a = ['ㅋ'] ∧ c = '쿠' ∧ b = ['ㅜ']) ∨ (a = ['ㅋ', '쿠'] ∧ c = 'ㅜ' ∧ b = []) := by
    have h : ['ㅋ', '쿠', 'ㅜ'] = a ++ c :: b := h
    match a, h with
    | [], h => simp at h; exact Or.inl ⟨rfl, h.1.symm, h.2.symm⟩
    | [_], h => simp at h; exact Or.inr (Or.inl ⟨by rw [h.1], h.2.1.symm, h.2.2.symm⟩)
    | [_, _], h => simp at h; exact Or.inr (Or.inr ⟨by rw [h.1, h.2.1], h.2.2.1.symm, by simp [h.2.2.2]⟩)
    | _ :: _ :: _ :: _, h => simp at h
  intro x y z hs
  have hsyl := syllable_of hs
  rcases this with ⟨rfl, rfl, rfl⟩ | ⟨rfl, rfl, rfl⟩ | ⟨rfl, rfl, rfl⟩
  · exact absurd hsyl (by decide)
  · exact ⟨by intro q hq hc; cases hq; exact absurd hc (by decide),
      by intro p hp hc; exact Or.inl ⟨'ㅜ', rfl, Or.inl (by decide)⟩⟩
  · exact absurd hsyl (by decide)

example : emoticonNormalize (fun _ => true) "ㅋ쿠ㅜ".toList 2 = .ok "ㅋㅋㅜㅜ".toList := by decide +kernel

private theorem single_consonant (isWord : Char → Bool) (q : Char) (h : Consonant q) (n : Nat) :
    repeatNormalize isWord [q] n = [q] := by
  have hs : isSpace q = false := by
    cases hs : isSpace q
    · rfl
    · rw [isSpace_iff] at hs
      obtain ⟨h1, h2⟩ := h
      simp only [whitespace, List.mem_cons, List.not_mem_nil, or_false] at hs
      omega
  have : repeatSub isWord 3 n [q] = [q] := by simp [repeatSub, repeatSubGo]
  simp [repeatNormalize, this, collapse, collapseGo, strip, lstrip, rstrip, hs]

private theorem parts {c x y z : Char} (h : IsSyllableOf c x y z) : Consonant x ∧ Vowel y ∧ (z = ' ' ∨ Consonant z) := by
  obtain ⟨i, j, k, hj, _⟩ := h
  have t1 : ∀ n ∈ initialJamo, 12593 ≤ n ∧ n ≤ 12622 := by decide
  have t2 : ∀ n ∈ vowelJamo, 12623 ≤ n ∧ n ≤ 12643 := by decide
  refine ⟨t1 _ (List.mem_of_getElem? hj.1), t2 _ (List.mem_of_getElem? hj.2.1), ?_⟩
  by_cases hz : z = ' '
  · exact Or.inl hz
  · exact Or.inr (final_consonant hj.2.2 hz)

private theorem vowel_consonant {q : Char} (hv : Vowel q) (hc : Consonant q) : False := by
  have := hv.1; have := hc.2; omega

private theorem blank_letter : ¬ Consonant ' ' ∧ ¬ Vowel ' ' := by decide

private theorem piece_fate (prev : Option Char) (c : Char) (next : Option Char) :
    ∃ p, emoticonPiece prev c next = .ok p ∧ Fate prev c next p := by
  rw [piece_eq]
  by_cases hsyl : Syllable c
  · obtain ⟨x, y, z, i, j, k, hu, hj, e⟩ := unpack_syllable hsyl
    have hc : IsSyllableOf c x y z := ⟨i, j, k, hj, e⟩
    obtain ⟨px, py, pz⟩ := parts hc
    have uniq : ∀ {x' y' z'}, IsSyllableOf c x' y' z' → x' = x ∧ y' = y ∧ z' = z := fun h => isSyllableOf_unique h hc
    by_cases h1 : NextTo Consonant prev ∧ NextTo Vowel next
    · rw [if_pos ⟨hsyl, h1⟩]
      obtain ⟨⟨p, hp, hpc⟩, q, hq, hqv⟩ := h1
      simp only [hu, bind, Except.bind]
      split
      · rename_i hh
        simp only [Bool.and_eq_true, decide_eq_true_eq] at hh
        exact ⟨_, rfl, .unfolded x y z hc ⟨hh.1.1.symm, Or.inl ⟨hh.1.2.symm, hh.2⟩⟩⟩
      · rename_i hh
        simp only [Bool.and_eq_true, decide_eq_true_eq] at hh
        refine ⟨_, rfl, .kept ?_ ?_⟩
        · rintro ⟨x', y', z', h', ⟨q', hq', hc', _⟩ | ⟨hn, _⟩⟩
          · rw [hq] at hq'; cases hq'; exact vowel_consonant hqv hc'
          · exact (hn q hq).2 hqv
        · intro x' y' z' h'
          obtain ⟨rfl, rfl, rfl⟩ := uniq h'
          refine ⟨?_, ?_⟩
          · rintro ⟨hx, ⟨hy, hz⟩ | hn⟩
            · exact hh ⟨⟨hx.symm, hy.symm⟩, hz⟩
            · exact (hn q hq).2 hqv
          · rintro ⟨hz, hz'⟩
            rw [hq] at hz; cases hz
            rcases pz with h | h
            · exact hz' h
            · exact vowel_consonant hqv h
    · rw [if_neg (fun h => h1 h.2)]
      by_cases h2 : NextTo Consonant next
      · rw [if_pos ⟨hsyl, h2⟩]
        obtain ⟨q, hq, hqc⟩ := h2
        simp only [hu, bind, Except.bind]
        split
        · rename_i hz
          obtain ⟨d, hd, he, _⟩ := compose_of_jamoAt (jamoAt_open hj)
          simp only [hd]
          refine ⟨_, rfl, .shared x y z d hc ⟨hz.symm, ?_⟩ ⟨i, j, 0, jamoAt_open hj, he⟩⟩
          rintro rfl
          rw [hq] at hz; cases hz
          exact blank_letter.1 hqc
        · rename_i hz
          refine ⟨_, rfl, .lost ⟨x, y, z, hc, Or.inl ⟨q, hq, hqc, ?_⟩⟩⟩
          rintro rfl; exact hz hq.symm
      · rw [if_neg (fun h => h2 h.2)]
        by_cases h3 : NextTo Consonant prev
        · rw [if_pos ⟨hsyl, h3⟩]
          have hno : NoLetter next := fun q hq => ⟨fun h => h2 ⟨q, hq, h⟩, fun h => h1 ⟨h3, q, hq, h⟩⟩
          obtain ⟨p, hp, hpc⟩ := h3
          simp only [hu, bind, Except.bind]
          split
          · rename_i hx
            exact ⟨_, rfl, .unfolded x y z hc ⟨hx.symm, Or.inr hno⟩⟩
          · rename_i hx
            refine ⟨_, rfl, .lost ⟨x, y, z, hc, Or.inr ⟨hno, p, hp, hpc, ?_⟩⟩⟩
            rintro rfl; exact hx hp.symm
        · rw [if_neg (fun h => h3 h.2)]
          refine ⟨_, rfl, .kept ?_ ?_⟩
          · rintro ⟨x', y', z', h', ⟨q', hq', hc', _⟩ | ⟨_, p, hp, hpc, _⟩⟩
            · exact h2 ⟨q', hq', hc'⟩
            · exact h3 ⟨p, hp, hpc⟩
          · intro x' y' z' h'
            obtain ⟨rfl, rfl, rfl⟩ := uniq h'
            refine ⟨fun h => h3 ⟨_, h.1, px⟩, fun h => ?_⟩
            rcases pz with h' | h'
            · exact h.2 h'
            · exact h2 ⟨_, h.1, h'⟩
  · rw [if_neg (fun h => hsyl h.1), if_neg (fun h => hsyl h.1), if_neg (fun h => hsyl h.1)]
    exact ⟨_, rfl, .kept (fun ⟨_, _, _, h, _⟩ => hsyl (syllable_of h)) (fun _ _ _ h => absurd (syllable_of h) hsyl)⟩

/-- the specification leaves no choice -/
private theorem fate_unique {prev : Option Char} {c : Char} {next : Option Char} {p p' : List Char} (h : Fate prev c next p) (h' : Fate prev c next p') :
    p = p' := by
  have lu : ∀ {x y z}, LostAt prev c next → IsSyllableOf c x y z → UnfoldedAt prev next x y z → False := by
    rintro x y z ⟨x', y', z', h', hl⟩ hc ⟨hp, hn⟩
    obtain ⟨rfl, rfl, rfl⟩ := isSyllableOf_unique h' hc
    rcases hl with ⟨q, hq, hqc, _⟩ | ⟨_, p, hp', _, hne⟩
    · rcases hn with ⟨hy, _⟩ | hn
      · rw [hq] at hy; cases hy; exact vowel_consonant (parts hc).2.1 hqc
      · exact (hn q hq).1 hqc
    · rw [hp] at hp'; cases hp'; exact hne rfl
  have ls : ∀ {x y z}, LostAt prev c next → IsSyllableOf c x y z → SharedAt next z → False := by
    rintro x y z ⟨x', y', z', h', hl⟩ hc ⟨hz, hz'⟩
    obtain ⟨rfl, rfl, rfl⟩ := isSyllableOf_unique h' hc
    rcases hl with ⟨q, hq, _, hne⟩ | ⟨hn, _⟩
    · rw [hz] at hq; cases hq; exact hne rfl
    · rcases (parts hc).2.2 with h | h
      · exact hz' h
      · exact (hn _ hz).1 h
  have us : ∀ {x y z x' y' z'}, IsSyllableOf c x y z → UnfoldedAt prev next x y z → IsSyllableOf c x' y' z' → SharedAt next z' → False := by
    rintro x y z x' y' z' hc ⟨_, hn⟩ hc' ⟨hz, hz'⟩
    obtain ⟨rfl, rfl, rfl⟩ := isSyllableOf_unique hc' hc
    rcases (parts hc).2.2 with h | h
    · exact hz' h
    · rcases hn with ⟨hy, _⟩ | hn
      · rw [hz] at hy; cases hy; exact vowel_consonant (parts hc).2.1 h
      · exact (hn _ hz).1 h
  cases h with
  | lost hl => cases h' with
    | lost _ => rfl
    | unfolded x y z hc hu => exact (lu hl hc hu).elim
    | shared x y z d hc hu _ => exact (ls hl hc hu).elim
    | kept hn _ => exact absurd hl hn
  | unfolded x y z hc hu => cases h' with
    | lost hl => exact (lu hl hc hu).elim
    | unfolded x' y' z' hc' _ => obtain ⟨rfl, rfl, rfl⟩ := isSyllableOf_unique hc hc'; rfl
    | shared x' y' z' d hc' hs _ => exact (us hc hu hc' hs).elim
    | kept _ hn => exact absurd hu (hn _ _ _ hc).1
  | shared x y z d hc hs hd => cases h' with
    | lost hl => exact (ls hl hc hs).elim
    | unfolded x' y' z' hc' hu => exact (us hc' hu hc hs).elim
    | shared x' y' z' d' hc' _ hd' =>
      obtain ⟨rfl, rfl, rfl⟩ := isSyllableOf_unique hc hc'
      obtain ⟨i, j, k, hj, e⟩ := hd
      obtain ⟨i', j', k', hj', e'⟩ := hd'
      obtain ⟨d1, q1, e1, _⟩ := compose_of_jamoAt hj
      obtain ⟨d2, q2, e2, _⟩ := compose_of_jamoAt hj'
      have : d1 = d2 := Except.ok.inj (q1.symm.trans q2)
      subst this
      rw [char_ext (e.trans (e1.symm.trans (e2.trans e'.symm)))]
    | kept _ hn => exact absurd hs (hn _ _ _ hc).2
  | kept hn hk => cases h' with
    | lost hl => exact absurd hl hn
    | unfolded x' y' z' hc' hu => exact absurd hu (hk _ _ _ hc').1
    | shared x' y' z' d hc' hs _ => exact absurd hs (hk _ _ _ hc').2
    | kept _ _ => rfl

/-- C11 (c), exactly what is written: for every text the result is the repeat-normalised form of the text in which each character has met
    its `Fate` (Spec/Emoticon), and there is only one such text. -/
theorem C11_rewritten (isWord : Char → Bool) (s : Str) (n : Nat) :
    ∃ t, emoticonNormalize isWord s n = .ok (repeatNormalize isWord t n) ∧ Rewritten none s t ∧ ∀ t', Rewritten none s t' → t' = t := by
  have hgo : ∀ (s : Str) (prev : Option Char), ∃ t, emoticonGo prev s = .ok t ∧ Rewritten prev s t ∧ ∀ t', Rewritten prev s t' → t' = t := by
    intro s
    induction s with
    | nil => intro prev; exact ⟨[], rfl, .nil _, fun t' h => by cases h; rfl⟩
    | cons c cs ih =>
      intro prev
      obtain ⟨t, h1, h2, h3⟩ := ih (some c)
      obtain ⟨p, hp, hf⟩ := piece_fate prev c cs.head?
      refine ⟨p ++ t, by simp [emoticonGo, hp, h1, bind, Except.bind], .cons hf h2, ?_⟩
      intro t' h'
      cases h' with
      | cons hf' h2' => rw [fate_unique hf' hf, h3 _ h2']
  obtain ⟨t, h1, h2, h3⟩ := hgo s none
  refine ⟨t, ?_, h2, h3⟩
  unfold emoticonNormalize
  split
  · rename_i hs; subst hs
    cases h2
    simp [repeatNormalize, repeatSub, collapse, collapseGo, strip, lstrip, rstrip]
  · rw [h1]; rfl

/-- C11 (d), violated: every syllable followed by a free consonant other than its final is deleted, and so is
    every syllable preceded by a free consonant other than its initial. -/
theorem C11_violated (isWord : Char → Bool) (c q x y z : Char) (n : Nat) (hc : IsSyllableOf c x y z) (hq : Consonant q) :
    (q ≠ z → emoticonNormalize isWord [c, q] n = .ok [q]) ∧
    (q ≠ x → emoticonNormalize isWord [q, c] n = .ok [q]) := by
  have hsyl := syllable_of hc
  have hqs : ¬ Syllable q := by
    intro hs; have := hs.1; have := hq.2; omega
  have hcc : ¬ Consonant c := by
    intro hs; have := hs.2; have := hsyl.1; omega
  obtain ⟨x', y', z', i', j', k', hu, hj, e⟩ := unpack_syllable hsyl
  obtain ⟨rfl, rfl, rfl⟩ := isSyllableOf_unique hc ⟨i', j', k', hj, e⟩
  constructor
  · intro hne
    have p1 : emoticonPiece none c (some q) = .ok [] := by
      rw [piece_eq, if_neg (by rintro ⟨_, ⟨_, h, _⟩, _⟩; cases h), if_pos ⟨hsyl, q, rfl, hq⟩]
      simp only [hu, bind, Except.bind]
      rw [if_neg (by simpa using fun h => hne h.symm)]
    have p2 : emoticonPiece (some c) q none = .ok [q] := by
      rw [piece_eq, if_neg (by simp [hqs]), if_neg (by simp [hqs]), if_neg (by simp [hqs])]
    have : emoticonGo none [c, q] = .ok [q] := by
      simp [emoticonGo, p1, p2, bind, Except.bind]
    simp [emoticonNormalize, this, bind, Except.bind, single_consonant isWord q hq n]
  · intro hne
    have p1 : emoticonPiece none q (some c) = .ok [q] := by
      rw [piece_eq, if_neg (by simp [hqs]), if_neg (by simp [hqs]), if_neg (by simp [hqs])]
    have p2 : emoticonPiece (some q) c none = .ok [] := by
      rw [piece_eq, if_neg (by rintro ⟨_, _, ⟨_, h, _⟩⟩; cases h), if_neg (by rintro ⟨_, ⟨_, h, _⟩⟩; cases h),
        if_pos ⟨hsyl, q, rfl, hq⟩]
      simp only [hu, bind, Except.bind]
      rw [if_neg (by simpa using fun h => hne h.symm)]
    have : emoticonGo none [q, c] = .ok [q] := by
      simp [emoticonGo, p1, p2, bind, Except.bind]
    simp [emoticonNormalize, this, bind, Except.bind, single_consonant isWord q hq n]

example : IsSyllableOf '가' 'ㄱ' 'ㅏ' ' ' ∧ Consonant 'ㅋ' ∧ 'ㅋ' ≠ ' ' :=
  ⟨⟨0, 0, 0, by decide, by decide⟩, by decide, by decide⟩

end Props
