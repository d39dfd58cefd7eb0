import Mathlib.Analysis.Complex.Basic
import Mathlib.LinearAlgebra.Matrix.NonsingularInverse

/-! # Specification: motion and eigenmodes of a linear mechanical system -/

namespace Ross.Spec

open Matrix

/-- A real matrix read as a complex one. -/
def cplx {m n : Type} (A : Matrix m n ℝ) : Matrix m n ℂ := A.map fun x => (x : ℂ)

/-- The dynamic stiffness `s² M + s D + K` of the system `M q'' + D q' + K q = F` at the complex
frequency `s`. -/
noncomputable def dynStiff {n : Type} (M D K : Matrix n n ℝ) (s : ℂ) : Matrix n n ℂ :=
  s ^ 2 • cplx M + s • cplx D + cplx K

/-- `v` is a mode with eigenvalue `s` of the system. -/
def IsMode {n : Type} [Fintype n] (M D K : Matrix n n ℝ) (s : ℂ) (v : n → ℂ) : Prop :=
  v ≠ 0 ∧ dynStiff M D K s *ᵥ v = 0

/-- `x` is an eigenvector of the real matrix `A` with complex eigenvalue `s`. -/
def IsEigen {n : Type} [Fintype n] (A : Matrix n n ℝ) (s : ℂ) (x : n → ℂ) : Prop :=
  x ≠ 0 ∧ cplx A *ᵥ x = s • x

end Ross.Spec
