import Mathlib.Analysis.Calculus.Deriv.Basic
import Mathlib.Analysis.SpecialFunctions.Trigonometric.Basic

/-!
# Specification of orbits

A node that vibrates with the complex amplitudes `ru` and `rv` is at `(coord ru τ, coord rv τ)` when the
phase of the vibration is `τ`.
-/

namespace Ross.Spec

/-- A coordinate with complex amplitude `a`, at phase `τ`. -/
noncomputable def coord (a : ℂ) (τ : ℝ) : ℝ := (a * Complex.exp (Complex.I * τ)).re

/-- The distance of the node from its rest position. -/
noncomputable def radius (ru rv : ℂ) (τ : ℝ) : ℝ := Real.sqrt (coord ru τ ^ 2 + coord rv τ ^ 2)

/-- Twice the rate at which the node sweeps area around its rest position. -/
noncomputable def areaRate (ru rv : ℂ) (τ : ℝ) : ℝ :=
  coord ru τ * deriv (coord rv) τ - coord rv τ * deriv (coord ru) τ

/-- The node runs around its rest position in the sense of rotation from `x` to `y`. -/
def Counterclockwise (ru rv : ℂ) : Prop := ∀ τ, 0 < areaRate ru rv τ

/-- The node runs around its rest position against that sense. -/
def Clockwise (ru rv : ℂ) : Prop := ∀ τ, areaRate ru rv τ < 0

/-- The node moves on a line, or not at all. -/
def Line (ru rv : ℂ) : Prop := ∀ τ, areaRate ru rv τ = 0

/-- The displacement that a probe at the angle `θ` sees. -/
noncomputable def probeSignal (ru rv : ℂ) (θ τ : ℝ) : ℝ :=
  Real.cos θ * coord ru τ + Real.sin θ * coord rv τ

/-- `θ` is the direction in which the point `(x, y)` is seen, between zero and a full turn. -/
def Direction (x y θ : ℝ) : Prop :=
  0 ≤ θ ∧ θ < 2 * Real.pi ∧
    x = Real.sqrt (x ^ 2 + y ^ 2) * Real.cos θ ∧ y = Real.sqrt (x ^ 2 + y ^ 2) * Real.sin θ

/-- The `i`-th of the 360 phases at which an orbit is sampled, both ends of the turn included. -/
noncomputable def sample (i : ℕ) : ℝ := 2 * Real.pi * i / 359

end Ross.Spec
