import Verif.Spec.Work
import Verif.Spec.State

/-! # Specification: forward circular whirl -/

namespace Ross.Spec

open Ross Matrix

/-- Forward circular whirl of the shaft: at every shaft node, `y` lags `x` by a quarter turn and the
rotations follow, `α = j β`. -/
def ForwardWhirl (r : Rotor) (x : ℕ → ℂ) : Prop :=
  ∀ k ≤ shaftEnd r,
    x (slot r.number_dof (shaftEnd r) ("y", k)) =
      -Complex.I * x (slot r.number_dof (shaftEnd r) ("x", k)) ∧
    x (slot r.number_dof (shaftEnd r) ("alpha", k)) =
      Complex.I * x (slot r.number_dof (shaftEnd r) ("beta", k))

end Ross.Spec
