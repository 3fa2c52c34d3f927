/-!
Run-length view of a text.
-/
namespace Spec
variable {α : Type}

/-- the text with the given runs: `expand [(a,2),(b,1)] = [a,a,b]` -/
def expand (rl : List (α × Nat)) : List α := rl.flatMap (fun e => List.replicate e.2 e.1)

/-- `rl` lists maximal runs: every run is non-empty and neighbouring runs have different characters.
    Every text is `expand rl` for exactly one such `rl`. -/
def MaximalRuns : List (α × Nat) → Prop
  | [] => True
  | [e] => 0 < e.2
  | e :: f :: rl => 0 < e.2 ∧ e.1 ≠ f.1 ∧ MaximalRuns (f :: rl)

end Spec
