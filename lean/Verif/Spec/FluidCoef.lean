import Mathlib.Analysis.Calculus.Deriv.Basic
import Mathlib.MeasureTheory.Integral.IntervalIntegral.Basic

/-!
# The slow flow of a viscous fluid in the gap between two surfaces

In the gap from `ri` to `re`, `u` is the speed around the axis and `v` the speed along it; `G` is the derivative of the
pressure with respect to the angle or the axial coordinate.
-/

namespace Ross.Spec.Fluid

/-- Speed around the axis: momentum `d/dr (1/r d(r u)/dr) = G / (μ r)`, speed `w` at the rotor and 0 at the stator. -/
structure FlowAround (mu G ri re w : ℝ) (u u' : ℝ → ℝ) : Prop where
  deriv : ∀ r ∈ Set.Icc ri re, HasDerivAt u (u' r) r
  momentum : ∀ r ∈ Set.Icc ri re, HasDerivAt (fun r => u' r + u r / r) (G / (mu * r)) r
  inner : u ri = w
  outer : u re = 0

/-- Speed along the axis: momentum `1/r d/dr (r dv/dr) = G / μ`, and no speed at the surfaces. -/
structure FlowAlong (mu G ri re : ℝ) (v v' : ℝ → ℝ) : Prop where
  deriv : ∀ r ∈ Set.Icc ri re, HasDerivAt v (v' r) r
  momentum : ∀ r ∈ Set.Icc ri re, HasDerivAt (fun r => r * v' r) (r * (G / mu)) r
  inner : v ri = 0
  outer : v re = 0

end Ross.Spec.Fluid
