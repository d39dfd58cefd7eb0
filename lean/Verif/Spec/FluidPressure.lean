import Mathlib.Algebra.BigOperators.Intervals
import Mathlib.Data.Real.Basic

/-!
# Conservation of mass on a grid, and systems of linear equations

The grid has `n` points along the axis, at distance `dz`, and `m` points around it, at distance `dth`, of which the
last one is the first one again.  `c1`, `c2`, `c0` describe the flow as in C80, and `P` is the pressure.
-/

namespace Ross.Spec.Fluid

/-- The flow around the axis from column `j` to the next one, which has pressure `p'`. -/
noncomputable def around (c1 c0 : ℕ → ℕ → ℝ) (dth : ℝ) (i j : ℕ) (p p' : ℝ) : ℝ := c1 i j * ((p' - p) / dth) - c0 i j

/-- The flow along the axis from row `i` to the next one, which has pressure `p'`. -/
noncomputable def along (c2 : ℕ → ℕ → ℝ) (dz : ℝ) (i j : ℕ) (p p' : ℝ) : ℝ := c2 i j * ((p' - p) / dz)

/-- What flows out of the cell at row `i` of column `j`, minus what flows in from column `k`, the one before. -/
noncomputable def outflow (c1 c2 c0 : ℕ → ℕ → ℝ) (dz dth : ℝ) (P : ℕ → ℕ → ℝ) (i j k : ℕ) : ℝ :=
  (around c1 c0 dth i j (P i j) (P i (j + 1)) - around c1 c0 dth i k (P i k) (P i (k + 1))) / dth +
    (along c2 dz i j (P i j) (P (i + 1) j) - along c2 dz (i - 1) j (P (i - 1) j) (P i j)) / dz

/-- The pressures are those given at the ends, and the same in the first and the last column. -/
structure Ends (n m : ℕ) (p_in p_out : ℝ) (P : ℕ → ℕ → ℝ) : Prop where
  inlet : ∀ j < m, P 0 j = p_in
  outlet : ∀ j < m, P (n - 1) j = p_out
  around : ∀ i < n, P i (m - 1) = P i 0

/-- In every cell inside, of a column between the first and the last, as much flows out as in. -/
def Balanced (n m : ℕ) (dz dth : ℝ) (c1 c2 c0 P : ℕ → ℕ → ℝ) : Prop :=
  ∀ i, 0 < i → i < n - 1 → ∀ j, 0 < j → j < m - 1 → outflow c1 c2 c0 dz dth P i j (j - 1) = 0

/-- And also in the first column, which comes after the last but one. -/
def BalancedSeam (n m : ℕ) (dz dth : ℝ) (c1 c2 c0 P : ℕ → ℕ → ℝ) : Prop :=
  ∀ i, 0 < i → i < n - 1 → outflow c1 c2 c0 dz dth P i 0 (m - 2) = 0

/-- `x` solves the system of `N` equations. -/
def Solves (N : ℕ) (M : ℕ → ℕ → ℝ) (f x : ℕ → ℝ) : Prop := ∀ k < N, ∑ c ∈ Finset.range N, M k c * x c = f k

/-- A solver of linear systems: it gives the solution where there is exactly one. -/
def SolverOk (solve : ℕ → (ℕ → ℕ → ℝ) → (ℕ → ℝ) → ℕ → ℝ) : Prop :=
  ∀ N M f x, Solves N M f x → (∀ y, Solves N M f y → ∀ k < N, y k = x k) → Solves N M f (solve N M f)

end Ross.Spec.Fluid
