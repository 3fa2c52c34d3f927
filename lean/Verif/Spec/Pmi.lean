import Mathlib.Analysis.SpecialFunctions.Pow.Real
import Mathlib.Algebra.BigOperators.Group.Finset.Basic
/-! Pointwise mutual information of a count matrix `f` with `n` rows and `m` columns. -/
namespace Spec
open Finset

noncomputable def mass (f : Nat → Nat → ℝ) (n m : Nat) : ℝ := ∑ i ∈ range n, ∑ j ∈ range m, f i j
/-- the joint distribution -/
noncomputable def joint (f : Nat → Nat → ℝ) (n m : Nat) (i j : Nat) : ℝ := f i j / mass f n m
/-- its marginals -/
noncomputable def rowMarginal (f : Nat → Nat → ℝ) (n m : Nat) (i : Nat) : ℝ := ∑ j ∈ range m, joint f n m i j
noncomputable def colMarginal (f : Nat → Nat → ℝ) (n m : Nat) (j : Nat) : ℝ := ∑ i ∈ range n, joint f n m i j
/-- the distribution `q` raised to the power `β` and renormalised -/
noncomputable def tempered (β : ℝ) (q : Nat → ℝ) (m : Nat) (j : Nat) : ℝ := q j ^ β / ∑ k ∈ range m, q k ^ β
/-- `log (p(x,y) / (p(x) (q(y) + α)))` -/
noncomputable def pmiValue (f : Nat → Nat → ℝ) (n m : Nat) (q : Nat → ℝ) (α : ℝ) (i j : Nat) : ℝ :=
  Real.log (joint f n m i j / (rowMarginal f n m i * (q j + α)))

end Spec
