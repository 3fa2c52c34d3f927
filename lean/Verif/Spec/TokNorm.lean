import Verif.Spec.Jamo
/-!
What `soynlp.tokenizer.normalize` does to one word, said without the code's scanning loops.
-/
namespace Spec

/-- `Unfolded s t`: in `s`, a syllable followed by its own final consonant gives that consonant up to a letter of
    its own (앜ㅋ → 아ㅋㅋ), and an open syllable followed by its own vowel is written as two letters
    (쿠ㅜ → ㅋㅜㅜ). "Followed" is in the original text. Everything else is kept. -/
inductive Unfolded : List Char → List Char → Prop where
  | nil : Unfolded [] []
  | last (c : Char) : Unfolded [c] [c]
  | final {c o x y z : Char} {s t : List Char} : IsSyllableOf c x y z → z ≠ ' ' → IsSyllableOf o x y ' ' →
      Unfolded (z :: s) t → Unfolded (c :: z :: s) (o :: z :: t)
  | vowel {c x y : Char} {s t : List Char} : IsSyllableOf c x y ' ' →
      Unfolded (y :: s) t → Unfolded (c :: y :: s) (x :: y :: t)
  | keep {c d : Char} {s t : List Char} : (∀ x y, d ≠ ' ' → ¬ IsSyllableOf c x y d) → (∀ x, ¬ IsSyllableOf c x d ' ') →
      Unfolded (d :: s) t → Unfolded (c :: d :: s) (c :: t)

/-- `u` written `m` times -/
def copiesOf (m : Nat) (u : List Char) : List Char := (List.replicate m u).flatten

/-- `u` is a group of `k` word characters -/
def Group (isWord : Char → Bool) (k : Nat) (u : List Char) : Prop := u.length = k ∧ ∀ c ∈ u, isWord c = true

/-- `Shortened isWord k n s t`: reading `s` from the left, wherever a group of `k` word characters is written four
    times or more in a row, the whole row (all the copies) is written `n` times in `t`, and reading goes on behind it;
    every other character is kept. -/
inductive Shortened (isWord : Char → Bool) (k n : Nat) : List Char → List Char → Prop where
  | nil : Shortened isWord k n [] []
  | keep {c : Char} {s t : List Char} : (∀ u, Group isWord k u → ¬ copiesOf 4 u <+: c :: s) →
      Shortened isWord k n s t → Shortened isWord k n (c :: s) (c :: t)
  | cut {u s t : List Char} {m : Nat} : Group isWord k u → 4 ≤ m → ¬ u <+: s →
      Shortened isWord k n s t → Shortened isWord k n (copiesOf m u ++ s) (copiesOf n u ++ t)

end Spec
