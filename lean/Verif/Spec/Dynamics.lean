import Mathlib.LinearAlgebra.Matrix.Charpoly.Basic
import Mathlib.Algebra.Polynomial.Roots
import Verif.Model.Dynamics
import Verif.Spec.State

/-! # Specification: eigenvalue solvers, conjugate spectra -/

namespace Ross.Spec

open Ross Matrix Polynomial

/-- What is assumed about `scipy.linalg.eig(A)`: the eigenvalues with their multiplicities, each with an
eigenvector. -/
structure EigOk {N : ℕ} (A : Matrix (Fin N ⊕ Fin N) (Fin N ⊕ Fin N) ℝ) (l : List (Pair N)) : Prop where
  values : ((l.map Prod.fst : List ℂ) : Multiset ℂ) = (cplx A).charpoly.roots
  vectors : ∀ p ∈ l, IsEigen A p.1 p.2

/-- What is assumed about the solvers of scipy: `eigs`, unless it fails, returns eigenpairs. -/
structure LapackOk (la : Lapack) : Prop where
  eig : ∀ {N : ℕ} (A : Matrix (Fin N ⊕ Fin N) (Fin N ⊕ Fin N) ℝ), EigOk A (la.eig A)
  eigs : ∀ {N : ℕ} (A : Matrix (Fin N ⊕ Fin N) (Fin N ⊕ Fin N) ℝ) (k : ℕ) (l : List (Pair N)),
    la.eigs A k = some l → ∀ p ∈ l, IsEigen A p.1 p.2

/-- The list contains with each number its complex conjugate, as often. -/
def ConjClosed (l : List ℂ) : Prop := (l.map (starRingEnd ℂ)).Perm l

/-- `P` is the spectral projector of the simple eigenvalue `s` of the real matrix `A`: it keeps the
eigenvectors of `s` and kills those of every other eigenvalue. -/
def IsProjector {n : Type} [Fintype n] (A : Matrix n n ℝ) (s : ℂ) (P : Matrix n n ℂ) : Prop :=
  ∀ μ x, cplx A *ᵥ x = μ • x → (μ = s → P *ᵥ x = x) ∧ (μ ≠ s → P *ᵥ x = 0)

/-- The response at frequency `ω` of a mode with eigenvalue `s` and residue `R` together with its complex
conjugate. -/
noncomputable def modeResponse {n : Type} (ω : ℝ) (s : ℂ) (R : Matrix n n ℂ) : Matrix n n ℂ :=
  (1 / (Complex.I * ω - s)) • R + (1 / (Complex.I * ω - starRingEnd ℂ s)) • R.map (starRingEnd ℂ)

end Ross.Spec
