import Mathlib.Data.Matrix.Mul
import Mathlib.Algebra.Module.BigOperators
import Mathlib.Data.Real.Basic

/-! # Specification: Runge-Kutta methods and their order conditions -/

namespace Ross.Spec

open Matrix

/-- One step of size `h` of the Runge-Kutta method with tableau `A`, `b`, `c` for `y' = f t y`. -/
def RKStep {E : Type} [AddCommGroup E] [Module ℝ E] {s : ℕ} (A : Matrix (Fin s) (Fin s) ℝ)
    (b c : Fin s → ℝ) (f : ℝ → E → E) (h t : ℝ) (y y' : E) : Prop :=
  ∃ k : Fin s → E, (∀ i, k i = f (t + c i * h) (y + h • ∑ j, A i j • k j)) ∧
    y' = y + h • ∑ i, b i • k i

/-- The conditions for order four (Butcher): the nodes are the row sums, and one equation for each
rooted tree with at most four vertices. -/
structure OrderFour {s : ℕ} (A : Matrix (Fin s) (Fin s) ℝ) (b c : Fin s → ℝ) : Prop where
  rows : ∀ i, c i = ∑ j, A i j
  t1 : ∑ i, b i = 1
  t2 : b ⬝ᵥ c = 1 / 2
  t31 : b ⬝ᵥ (c * c) = 1 / 3
  t32 : b ⬝ᵥ (A *ᵥ c) = 1 / 6
  t41 : b ⬝ᵥ (c * c * c) = 1 / 4
  t42 : b ⬝ᵥ (c * (A *ᵥ c)) = 1 / 8
  t43 : b ⬝ᵥ (A *ᵥ (c * c)) = 1 / 12
  t44 : b ⬝ᵥ (A *ᵥ (A *ᵥ c)) = 1 / 24

/-- The conditions for order five: also one equation for each rooted tree with five vertices. -/
structure OrderFive {s : ℕ} (A : Matrix (Fin s) (Fin s) ℝ) (b c : Fin s → ℝ) : Prop extends
    OrderFour A b c where
  t51 : b ⬝ᵥ (c * c * c * c) = 1 / 5
  t52 : b ⬝ᵥ (c * c * (A *ᵥ c)) = 1 / 10
  t53 : b ⬝ᵥ (c * (A *ᵥ (c * c))) = 1 / 15
  t54 : b ⬝ᵥ (c * (A *ᵥ (A *ᵥ c))) = 1 / 30
  t55 : b ⬝ᵥ ((A *ᵥ c) * (A *ᵥ c)) = 1 / 20
  t56 : b ⬝ᵥ (A *ᵥ (c * c * c)) = 1 / 20
  t57 : b ⬝ᵥ (A *ᵥ (c * (A *ᵥ c))) = 1 / 40
  t58 : b ⬝ᵥ (A *ᵥ (A *ᵥ (c * c))) = 1 / 60
  t59 : b ⬝ᵥ (A *ᵥ (A *ᵥ (A *ᵥ c))) = 1 / 120

end Ross.Spec
