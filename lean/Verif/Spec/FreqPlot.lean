import Verif.Spec.State
import Verif.Model.Readout

/-!
# C107: what a plot of a frequency response should show
-/

namespace Ross.Spec

open Matrix

/-- The steady motion under a unit force at one degree of freedom, for the dynamic stiffness `D`. -/
def UnitResponse {n : Type} [Fintype n] [DecidableEq n] (D : Matrix n n ℂ) (inp : n) (x : n → ℂ) : Prop :=
  D *ᵥ x = Pi.single inp 1

/-- The amplitude that is asked for of a harmonic motion with amplitude `z` and frequency `ω`. -/
noncomputable def rated (ω : ℝ) (z : ℂ) : RespKind → ℂ
  | .displacement => z
  | .velocity => Complex.I * ω * z
  | .acceleration => (Complex.I * ω) ^ 2 * z

/-- `p` is a phase of `z` within the first turn, where a full turn is `turn`. -/
def IsPhase (turn p : ℝ) (z : ℂ) : Prop :=
  0 ≤ p ∧ p < turn ∧ z = ‖z‖ * Complex.exp (Complex.I * (2 * Real.pi * (p / turn) : ℝ))

/-- The letter for a direction of motion. -/
def greek (letter : String) : String :=
  if letter = "alpha" then "α" else if letter = "beta" then "β" else if letter = "theta" then "θ" else letter

end Ross.Spec
