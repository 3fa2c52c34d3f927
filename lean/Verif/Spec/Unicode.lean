/-!
Hangul as the Unicode standard describes it (chapter 3.12 and the Hangul Compatibility Jamo block), independent
of the tables in the code. Everything is by code point.
-/
namespace Spec

/-- the 19 initial consonants in Unicode order, as compatibility jamo -/
def initialJamo : List Nat :=
  [0x3131, 0x3132, 0x3134, 0x3137, 0x3138, 0x3139, 0x3141, 0x3142, 0x3143, 0x3145, 0x3146, 0x3147, 0x3148,
   0x3149, 0x314A, 0x314B, 0x314C, 0x314D, 0x314E]

/-- the 21 vowels in Unicode order: the contiguous block 0x314F..0x3163 -/
def vowelJamo : List Nat := List.range' 0x314F 21

/-- the 28 finals in Unicode order; `0x20` (blank) stands for "no final" -/
def finalJamo : List Nat :=
  [0x20, 0x3131, 0x3132, 0x3133, 0x3134, 0x3135, 0x3136, 0x3137, 0x3139, 0x313A, 0x313B, 0x313C, 0x313D, 0x313E,
   0x313F, 0x3140, 0x3141, 0x3142, 0x3144, 0x3145, 0x3146, 0x3147, 0x3148, 0x314A, 0x314B, 0x314C, 0x314D, 0x314E]

/-- a precomposed syllable: U+AC00 .. U+D7A3 -/
def Syllable (c : Char) : Prop := 0xAC00 ≤ c.toNat ∧ c.toNat ≤ 0xD7A3
/-- a compatibility consonant: U+3131 .. U+314E -/
def Consonant (c : Char) : Prop := 0x3131 ≤ c.toNat ∧ c.toNat ≤ 0x314E
/-- a compatibility vowel: U+314F .. U+3163 -/
def Vowel (c : Char) : Prop := 0x314F ≤ c.toNat ∧ c.toNat ≤ 0x3163
/-- any character the library calls Korean -/
def Korean (c : Char) : Prop := Syllable c ∨ Consonant c ∨ Vowel c

/-- `x`, `y`, `z` are the i-th initial, j-th vowel and k-th final -/
def JamoAt (x y z : Char) (i j k : Nat) : Prop :=
  initialJamo[i]? = some x.toNat ∧ vowelJamo[j]? = some y.toNat ∧ finalJamo[k]? = some z.toNat

instance (x y z : Char) (i j k : Nat) : Decidable (JamoAt x y z i j k) := inferInstanceAs (Decidable (_ ∧ _ ∧ _))
instance (c : Char) : Decidable (Syllable c) := inferInstanceAs (Decidable (_ ∧ _))
instance (c : Char) : Decidable (Consonant c) := inferInstanceAs (Decidable (_ ∧ _))
instance (c : Char) : Decidable (Vowel c) := inferInstanceAs (Decidable (_ ∧ _))
instance (c : Char) : Decidable (Korean c) := inferInstanceAs (Decidable (_ ∨ _))

/-- Python's whitespace characters, as a list of code points -/
def whitespace : List Nat :=
  [0x09, 0x0A, 0x0B, 0x0C, 0x0D, 0x1C, 0x1D, 0x1E, 0x1F, 0x20, 0x85, 0xA0, 0x1680, 0x2000, 0x2001, 0x2002, 0x2003,
   0x2004, 0x2005, 0x2006, 0x2007, 0x2008, 0x2009, 0x200A, 0x2028, 0x2029, 0x202F, 0x205F, 0x3000]

/-- text whose only whitespace is single inner blanks -/
structure Tidy (s : List Char) : Prop where
  no_lead : s.head? ≠ some ' '
  no_trail : s.getLast? ≠ some ' '
  no_double : ¬ [' ', ' '] <:+: s
  only_blank : ∀ c ∈ s, c.toNat ∈ whitespace → c = ' '

/-- the maximal runs of characters satisfying `p`, in order (`cur` collects the current run) -/
def runsGo (p : Char → Bool) (cur : List Char) : List Char → List (List Char)
  | [] => if cur = [] then [] else [cur]
  | c :: cs =>
    if p c then runsGo p (cur ++ [c]) cs
    else if cur = [] then runsGo p [] cs else cur :: runsGo p [] cs

/-- the maximal runs of characters satisfying `p`, in order -/
def runs (p : Char → Bool) (s : List Char) : List (List Char) := runsGo p [] s

/-- the pieces separated by one blank -/
def blankJoin (ws : List (List Char)) : List Char := (ws.intersperse [' ']).flatten

end Spec
