import Verif.Model.TimeResponse

/-! # Specification: reduction of rotors to few modes -/

namespace Ross.Spec

open Ross Matrix

/-- What is relied on of `scipy.linalg.eigh(A, B)` for symmetric `A` and symmetric positive definite
`B`: it succeeds, with eigenvectors orthonormal with respect to `B` and ascending eigenvalues. -/
def EighOk (ei : Eigh) : Prop :=
  ∀ {N : ℕ} (A B : Matrix (Fin N) (Fin N) ℝ), Aᵀ = A → Bᵀ = B → (∀ v ≠ 0, 0 < v ⬝ᵥ (B *ᵥ v)) →
    ∃ w V, ei.eigh A B = some (w, V) ∧ Vᵀ * B * V = 1 ∧ A * V = B * V * diagonal w ∧ Monotone w

/-- The coefficient zero. -/
def zeroCoeff : Coeff := ⟨[0], some fun _ => 0⟩

/-- The element without cross-coupled stiffness. -/
def decoupled : Elm → Elm
  | .brg (.brg s b) => .brg (.brg s { b with kxy := zeroCoeff, kyx := zeroCoeff })
  | .brg (.brg6 b) => .brg (.brg6 { b with base := { b.base with kxy := zeroCoeff, kyx := zeroCoeff } })
  | e => e

end Ross.Spec
