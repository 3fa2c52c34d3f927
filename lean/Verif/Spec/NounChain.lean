import Mathlib.Data.List.Chain
import Verif.Spec.Tiles
/-! What the noun tokenizers are expected to return. -/
namespace Spec

/-- `n` is the longest non-empty noun that `w` starts with -/
structure LongestNoun (isNoun : List Char → Bool) (w n : List Char) : Prop where
  noun : isNoun n = true
  nonempty : n ≠ []
  here : n <+: w
  longest : ∀ m, isNoun m = true → m <+: w → m.length ≤ n.length

/-- read `w` from the left, always taking the longest noun, until no noun starts at the current place -/
inductive NounChain (isNoun : List Char → Bool) : List Char → List (List Char) → Prop where
  | stop {w : List Char} : (∀ n, isNoun n = true → n <+: w → n = []) → NounChain isNoun w []
  | take {n rest : List Char} {ns : List (List Char)} :
      LongestNoun isNoun (n ++ rest) n → NounChain isNoun rest ns → NounChain isNoun (n ++ rest) (n :: ns)

/-- `gs` cuts `ws` into its maximal groups of adjacent elements -/
structure Grouping {α : Type} (adjacent : α → α → Prop) (ws : List α) (gs : List (List α)) : Prop where
  flat : gs.flatten = ws
  nonempty : ∀ g ∈ gs, g ≠ []
  within : ∀ g ∈ gs, g.IsChain adjacent
  between : gs.IsChain (fun g h => ∀ a ∈ g.getLast?, ∀ b ∈ h.head?, ¬ adjacent a b)

end Spec
