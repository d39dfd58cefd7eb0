import Mathlib.Algebra.BigOperators.Fin
import Mathlib.Data.Real.Basic
import Mathlib.Data.Matrix.Basic
import Mathlib.Algebra.BigOperators.Group.List.Basic

/-! # Specification: numbering of the degrees of freedom and virtual work of an assembled system -/

namespace Ross.Spec

open scoped BigOperators

/-- The directions of motion of a shaft node, in order. -/
def nodeLetters (nd : ℕ) : List String :=
  if nd = 4 then ["x", "y", "alpha", "beta"] else ["x", "y", "z", "alpha", "beta", "theta"]

/-- The directions of motion of a support node, in order. -/
def supportLetters (nd : ℕ) : List String :=
  if nd = 4 then ["x", "y"] else ["x", "y", "z"]

/-- `(letter, node)` is a degree of freedom of a system whose shaft nodes are `0, …, N` and whose
support nodes are `N + 1, …, N + k`. -/
def IsDof (nd N k : ℕ) (key : String × ℕ) : Prop :=
  (key.2 ≤ N ∧ key.1 ∈ nodeLetters nd) ∨
    (N < key.2 ∧ key.2 ≤ N + k ∧ key.1 ∈ supportLetters nd)

/-- Shaft nodes come first, `nd` numbers each; support nodes follow, `nd / 2` numbers each. -/
def slot (nd N : ℕ) (key : String × ℕ) : ℕ :=
  if key.2 ≤ N then nd * key.2 + (nodeLetters nd).idxOf key.1
  else nd * (N + 1) + nd / 2 * (key.2 - N - 1) + (supportLetters nd).idxOf key.1

/-- The number of degrees of freedom of such a system. -/
def size (nd N k : ℕ) : ℕ := nd * (N + 1) + nd / 2 * k

/-- All directions `letters` at node `n`, in order. -/
def dofsAt (letters : List String) (n : ℕ) : List (String × ℕ) := letters.map fun l => (l, n)

/-- The bilinear form `xᵀ A y`; vectors are given on all of `ℕ` and read at the indices of `A`. -/
def bilin {N : ℕ} (A : Matrix (Fin N) (Fin N) ℝ) (x y : ℕ → ℝ) : ℝ :=
  ∑ i : Fin N, ∑ j : Fin N, x i * A i j * y j

/-- The bilinear form of an element matrix whose local index `p` is the global index `dofs[p]`. -/
def elemBilin (dofs : List ℕ) {k : ℕ} (E : Matrix (Fin k) (Fin k) ℝ) (x y : ℕ → ℝ) : ℝ :=
  ∑ p : Fin k, ∑ q : Fin k, x (dofs.getD p 0) * E p q * y (dofs.getD q 0)

end Ross.Spec
