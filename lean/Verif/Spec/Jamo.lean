import Verif.Spec.Unicode
/-! Spelling a text letter by letter. -/
namespace Spec

/-- `c` is the syllable made of initial `x`, vowel `y` and final `z` (blank: no final) -/
def IsSyllableOf (c x y z : Char) : Prop :=
  ∃ i j k, JamoAt x y z i j k ∧ c.toNat = 0xAC00 + (i * 21 + j) * 28 + k

/-- `ps` are the letters of the character `c`: two or three jamo for a syllable, the character itself otherwise -/
inductive Spells (c : Char) : List Char → Prop where
  | other : ¬ Syllable c → Spells c [c]
  | open (x y : Char) : IsSyllableOf c x y ' ' → Spells c [x, y]
  | closed (x y z : Char) : IsSyllableOf c x y z → z ≠ ' ' → Spells c [x, y, z]

/-- `ps` are the letters of the text, in order -/
inductive SpellsText : List Char → List Char → Prop where
  | nil : SpellsText [] []
  | cons {c : Char} {ps s qs : List Char} : Spells c ps → SpellsText s qs → SpellsText (c :: s) (ps ++ qs)

end Spec
