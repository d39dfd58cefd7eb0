import Mathlib.Analysis.Calculus.Deriv.Basic
import Mathlib.Analysis.SpecialFunctions.Trigonometric.Basic

/-!
# The equations of short and long bearings

The film between a rotor and a stator whose centres are a small distance `e` apart has the thickness `c + e cos t` at the
angle `t` from the largest gap.
-/

namespace Ross.Spec.Fluid

open Real

/-- The thickness of the film. -/
noncomputable def film (c e t : ℝ) : ℝ := c + e * cos t

/-- A bearing that is short: only the flow along the axis carries away what the turning rotor brings, so that
`h³ d²p/dz² = 6 μ ω dh/dt`; and the pressure is 0 at the ends.  `p1` and `p2` are derivatives with respect to `z`, and `h'`
that of the thickness `h`. -/
structure ShortFilm (mu om L : ℝ) (h : ℝ → ℝ) (p p1 p2 : ℝ → ℝ → ℝ) (h' : ℝ → ℝ) : Prop where
  first : ∀ z t, HasDerivAt (fun z => p z t) (p1 z t) z
  second : ∀ z t, HasDerivAt (fun z => p1 z t) (p2 z t) z
  thickness : ∀ t, HasDerivAt h (h' t) t
  equation : ∀ z t, h t ^ 3 * p2 z t = 6 * mu * om * h' t
  start : ∀ t, p 0 t = 0
  finish : ∀ t, p L t = 0

/-- A bearing that is long: only the flow around the axis does, so that `d/dt (h³ dp/dt) = 6 μ ω R² dh/dt`; and the
pressure at the largest gap, where the fluid comes in, is `p_in`. -/
structure LongFilm (mu om R p_in : ℝ) (h p p1 : ℝ → ℝ) (h' : ℝ → ℝ) : Prop where
  first : ∀ t, HasDerivAt p (p1 t) t
  thickness : ∀ t, HasDerivAt h (h' t) t
  equation : ∀ t, HasDerivAt (fun t => h t ^ 3 * p1 t) (6 * mu * om * R ^ 2 * h' t) t
  start : p 0 = p_in
  finish : p (2 * π) = p_in

end Ross.Spec.Fluid
