import Mathlib.Data.Complex.Basic
import Verif.Model.FluidGeometry

/-!
# What is assumed of the root finders
-/

namespace Ross.Spec.Fluid

/-- The value at `z` of the polynomial with coefficients `c`, highest power first. -/
noncomputable def polyval (c : List ℝ) (z : ℂ) : ℂ := c.foldl (fun acc (a : ℝ) => acc * z + (a : ℂ)) 0

/-- `np.roots` gives the roots of a polynomial (those and no others), and `scipy.optimize.root`, started between 0 and 1
on a function with a zero there, ends in such a zero.  In exact arithmetic. -/
structure RootsOk (lib : Ross.Fluid.RootLib) : Prop where
  roots : ∀ a c z, a ≠ 0 → (z ∈ lib.roots (a :: c) ↔ polyval (a :: c) z = 0)
  root : ∀ (f : ℝ → ℝ) i, 0 ≤ i → i ≤ 1 → (∃ x, 0 ≤ x ∧ x ≤ 1 ∧ f x = 0) →
    0 ≤ lib.root f i ∧ lib.root f i ≤ 1 ∧ f (lib.root f i) = 0

end Ross.Spec.Fluid
