/-! Contiguous, non-empty pieces of a text. -/
namespace Spec

/-- the pieces `(word, begin, end)` cover positions `i` to `j` of `w` one after the other; none is empty and each
    is the text between its offsets -/
inductive Tiles (w : List Char) : Nat → Nat → List (List Char × Nat × Nat) → Prop where
  | nil (i : Nat) : Tiles w i i []
  | cons {p : List Char} {b e j : Nat} {l : List (List Char × Nat × Nat)} :
      b < e → e ≤ w.length → p = (w.take e).drop b → Tiles w e j l → Tiles w b j ((p, b, e) :: l)

end Spec
