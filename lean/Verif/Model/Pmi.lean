import Verif.Py.Basic
import Mathlib.Analysis.SpecialFunctions.Pow.Real
/-!
Model of soynlp/word/_pmi.py. A `scipy.sparse.csr_matrix` is its shape and the list of its stored entries (row, column, value).
Values are real numbers, `np.log`, `np.exp`, `**` the real functions. When `X.sum()` is 0 numpy divides by zero and continues with
`nan`; the model does not describe that case (every theorem assumes a positive sum). Progress printing is not modelled.
scipy facts used: converting a diagonal matrix to CSR drops zero diagonal entries and the sparse product stores no entry for a missing
factor, so the product has no stored zero; `nonzero()` lists the stored entries in the order of `.data`.
-/
namespace Pmi
open Py

/-- a sparse matrix: shape and stored entries (soynlp/word/_pmi.py:14-31) -/
structure Csr where
  rows : Nat
  cols : Nat
  entries : List (Nat × Nat × ℝ)

/-- `X.sum()` (soynlp/word/_pmi.py:67) -/
noncomputable def total (X : Csr) : ℝ := (X.entries.map (fun e => e.2.2)).sum

/-- `X.sum(axis=1)`, one row (soynlp/word/_pmi.py:67) -/
noncomputable def rowSum (X : Csr) (i : Nat) : ℝ := (X.entries.map (fun e => if e.1 = i then e.2.2 else 0)).sum

/-- `X.sum(axis=0)`, one column (soynlp/word/_pmi.py:69) -/
noncomputable def colSum (X : Csr) (j : Nat) : ℝ := (X.entries.map (fun e => if e.2.1 = j then e.2.2 else 0)).sum

/-- `(X.sum(axis=1) / X.sum()).reshape(-1)`, soynlp/word/_pmi.py:67, 124 -/
noncomputable def rowProb (X : Csr) : List ℝ := (List.range X.rows).map (fun i => rowSum X i / total X)

/-- `(X.sum(axis=0) / X.sum()).reshape(-1)`, soynlp/word/_pmi.py:69, 126 -/
noncomputable def colProb (X : Csr) : List ℝ := (List.range X.cols).map (fun j => colSum X j / total X)

open Classical in
/-- soynlp/word/_pmi.py:9-12 (and 137-142) -/
noncomputable def asDiag (px : List ℝ) (alpha : ℝ) : List ℝ := px.map (fun v => if v = 0 then 0 else 1 / (v + alpha))

/-- soynlp/word/_pmi.py:70-72, 131-133: `py ** beta`, normalised, when `beta < 1` -/
noncomputable def smooth (beta : ℝ) (py : List ℝ) : List ℝ :=
  open Classical in
  if beta < 1 then
    let py := py.map (fun v => v ^ beta)
    py.map (fun v => v / py.sum)
  else py

open Classical in
/-- `px_diag.dot(pxy).dot(py_diag)` with `pxy = X / X.sum()`, soynlp/word/_pmi.py:73, 80 (127, 144): entry by entry, zeros not stored.
    Index errors cannot occur: the shapes are checked by the caller. -/
noncomputable def expPmi (X : Csr) (dx dy : List ℝ) : Csr :=
  ⟨X.rows, X.cols, (X.entries.map (fun e => (e.1, e.2.1, dx.getD e.1 0 * (e.2.2 / total X) * dy.getD e.2.1 0))).filter (fun e => decide (e.2.2 ≠ 0))⟩

open Classical in
/-- soynlp/word/_pmi.py:14-31 -/
noncomputable def logarithmAndPpmi (E : Csr) (minExpPmi : ℝ) : Csr :=
  ⟨E.rows, E.cols, (E.entries.filter (fun e => decide (e.2.2 ≥ minExpPmi))).map (fun e => (e.1, e.2.1, Real.log e.2.2))⟩

open Classical in
/-- soynlp/word/_pmi.py:33-86. `py`, when given, is the (1, k) array as the list of its entries; a wrong length fails in the matrix
    product. -/
noncomputable def pmi (X : Csr) (py : Option (List ℝ) := none) (minPmi : ℝ := 0) (alpha : ℝ := 0) (beta : ℝ := 1) :
    PyM (Csr × List ℝ × List ℝ) :=
  if ¬ (0 < beta ∧ beta ≤ 1) then .error .assertion
  else
    let px := rowProb X
    let py := smooth beta (py.getD (colProb X))
    if py.length ≠ X.cols then .error .valueError
    else
      let exp := expPmi X (asDiag px 0) (asDiag py alpha)
      .ok (logarithmAndPpmi exp (if minPmi = 0 then 1 else Real.exp minPmi), px, py)

open Classical in
/-- soynlp/word/_pmi.py:88-170. `py` has shape (1, k) as the documentation asks (the computed one has shape (1, columns)), so the assertion
    of line 129 compares 1 with the number of columns. The computed `py` is a `numpy.matrix`, whose `**` accepts only integer exponents
    (line 132); a given array is raised entrywise. The result is a `dok_matrix` filled entry by entry. -/
noncomputable def pmiMemoryFriendly (X : Csr) (py : Option (List ℝ) := none) (minPmi : ℝ := 0) (alpha : ℝ := 0) (beta : ℝ := 1) :
    PyM (Csr × List ℝ × List ℝ) :=
  if ¬ (0 < beta ∧ beta ≤ 1) then .error .assertion
  else if 1 ≠ X.cols then .error .assertion
  else if py = none ∧ beta < 1 then .error .typeError
  else
    let px := rowProb X
    let py := smooth beta (py.getD (colProb X))
    if py.length ≠ X.cols then .error .valueError
    else
      let exp := expPmi X (asDiag px 0) (asDiag py alpha)
      let minExp := if minPmi = 0 then 1 else Real.exp minPmi
      .ok (⟨X.rows, X.cols, (exp.entries.filter (fun e => decide (e.2.2 > minExp))).map (fun e => (e.1, e.2.1, Real.log e.2.2))⟩, px, py)

end Pmi
