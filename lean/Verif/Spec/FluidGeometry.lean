import Mathlib.Analysis.SpecialFunctions.Trigonometric.Basic

/-!
# What the geometry of a fluid-film bearing should be
-/

namespace Ross.Spec.Fluid

open Real

/-- The centre of the rotor: at distance `e` from the centre of the stator, turned by the attitude angle `a` from the
line of the load, which points down. -/
noncomputable def centre (e a : ℝ) : ℝ × ℝ := (e * sin a, -e * cos a)

/-- The point `p` lies on the circle of radius `R` around `c`. -/
def OnCircle (c : ℝ × ℝ) (R : ℝ) (p : ℝ × ℝ) : Prop := (p.1 - c.1) ^ 2 + (p.2 - c.2) ^ 2 = R ^ 2

/-- The point `p` is seen from the origin at distance `r` in the direction `g`. -/
def Polar (r g : ℝ) (p : ℝ × ℝ) : Prop := p = (r * cos g, r * sin g)

/-- The depth of the wear in the direction `g`: what a circle with the radius of the stator, moved by
`depth - cr` further than the clearance `cr` in the direction turned by `d` from the downward vertical, cuts
out to first order, and nothing where this is negative. -/
noncomputable def wear (depth cr d g : ℝ) : ℝ := max 0 (depth - cr * (1 - cos (g - (3 * π / 2 + d))))

end Ross.Spec.Fluid
