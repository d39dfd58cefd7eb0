import Verif.Model.TimeResponse
import Verif.Spec.RungeKutta

/-! # Specification: rotors with faults -/

namespace Ross.Spec

open Ross Matrix

/-- The symmetric matrix with the lower triangle of `A`, which is what `scipy.linalg.eigh` reads. -/
def lowerSymm {N : ℕ} (A : Matrix (Fin N) (Fin N) ℝ) : Matrix (Fin N) (Fin N) ℝ :=
  Matrix.of fun i j => if j ≤ i then A i j else A j i

/-- What is relied on of `scipy.linalg.eigh(A, B)` for symmetric positive definite `B` and any `A`: it
succeeds for the symmetric matrix with the lower triangle of `A`, with eigenvectors orthonormal with
respect to `B` and ascending eigenvalues. -/
def EighLower (ei : Eigh) : Prop :=
  ∀ {N : ℕ} (A B : Matrix (Fin N) (Fin N) ℝ), Bᵀ = B → (∀ v ≠ 0, 0 < v ⬝ᵥ (B *ᵥ v)) →
    ∃ w V, ei.eigh A B = some (w, V) ∧ Vᵀ * B * V = 1 ∧ lowerSymm A * V = B * V * diagonal w ∧ Monotone w

/-- The acceleration `Φ a` balances the forces at the position `Φ q` and the velocity `Φ v` as far as the
motions `Φ w` can tell: the residual of the equations of motion does no work on them. -/
def Galerkin {N m : ℕ} (Φ : Matrix (Fin N) (Fin m) ℝ) (M D K : Matrix (Fin N) (Fin N) ℝ) (f : Fin N → ℝ)
    (q v a : Fin m → ℝ) : Prop :=
  ∀ w, (Φ *ᵥ w) ⬝ᵥ (M *ᵥ (Φ *ᵥ a) + D *ᵥ (Φ *ᵥ v) + K *ᵥ (Φ *ᵥ q) - f) = 0

/-- A force of constant size `A` in the plane at the angle `θ`. -/
noncomputable def atAngle (A θ : ℝ) : ℝ × ℝ := (A * Real.cos θ, A * Real.sin θ)

end Ross.Spec
