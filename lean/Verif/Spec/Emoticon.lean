import Verif.Spec.Jamo
/-! What happens to a syllable next to free-standing letters, as in `ㅋ쿠ㅜ` or `앜ㅋ`. -/
namespace Spec

/-- the neighbour is not a free-standing letter (or there is none) -/
def NoLetter (o : Option Char) : Prop := ∀ q, o = some q → ¬ Consonant q ∧ ¬ Vowel q

/-- the syllable disappears: the letter behind it is a consonant other than its final, or no letter follows and the letter before it is a
    consonant other than its initial -/
def LostAt (prev : Option Char) (c : Char) (next : Option Char) : Prop :=
  ∃ x y z, IsSyllableOf c x y z ∧
    ((∃ q, next = some q ∧ Consonant q ∧ q ≠ z) ∨ (NoLetter next ∧ ∃ p, prev = some p ∧ Consonant p ∧ p ≠ x))

/-- the syllable is replaced by its initial and its vowel: its initial stands before it, and either its vowel stands behind it and it has
    no final, or no letter follows (then a final is dropped) -/
def UnfoldedAt (prev : Option Char) (next : Option Char) (x y z : Char) : Prop :=
  prev = some x ∧ ((next = some y ∧ z = ' ') ∨ NoLetter next)

/-- the final stands behind the syllable once more -/
def SharedAt (next : Option Char) (z : Char) : Prop := next = some z ∧ z ≠ ' '

/-- what is written for the character `c` between its neighbours -/
inductive Fate (prev : Option Char) (c : Char) (next : Option Char) : List Char → Prop where
  | lost : LostAt prev c next → Fate prev c next []
  | unfolded (x y z : Char) : IsSyllableOf c x y z → UnfoldedAt prev next x y z → Fate prev c next [x, y]
  | shared (x y z d : Char) : IsSyllableOf c x y z → SharedAt next z → IsSyllableOf d x y ' ' → Fate prev c next [d, z]
  | kept : ¬ LostAt prev c next → (∀ x y z, IsSyllableOf c x y z → ¬ UnfoldedAt prev next x y z ∧ ¬ SharedAt next z) → Fate prev c next [c]

/-- the text `t` written for the text `s` that stands behind `prev` -/
inductive Rewritten : Option Char → List Char → List Char → Prop where
  | nil (prev : Option Char) : Rewritten prev [] []
  | cons {prev : Option Char} {c : Char} {s out t : List Char} : Fate prev c s.head? out → Rewritten (some c) s t → Rewritten prev (c :: s) (out ++ t)

end Spec
