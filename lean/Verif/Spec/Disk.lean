import Mathlib.Analysis.SpecialFunctions.Integrals.Basic

/-! # Specification: inertia of a homogeneous hollow cylinder

Volume integrals in cylindrical coordinates `(r, θ, z)` about the centre of mass, with volume element
`r dr dθ dz`; written from rigid-body mechanics, without reference to the code. -/

namespace Ross.Spec

open Real intervalIntegral

/-- Integral of a density `f r θ z` over the hollow cylinder of width `w` and diameters `i_d < o_d`. -/
noncomputable def cylinderIntegral (w i_d o_d : ℝ) (f : ℝ → ℝ → ℝ → ℝ) : ℝ :=
  ∫ z in (-(w / 2))..(w / 2), ∫ θ in (0)..(2 * π), ∫ r in (i_d / 2)..(o_d / 2), f r θ z * r

/-- Mass. -/
noncomputable def cylinderMass (ρ w i_d o_d : ℝ) : ℝ := cylinderIntegral w i_d o_d fun _ _ _ => ρ

/-- Moment of inertia about the axis: squared distance to the axis is `r²`. -/
noncomputable def cylinderPolar (ρ w i_d o_d : ℝ) : ℝ :=
  cylinderIntegral w i_d o_d fun r _ _ => ρ * r ^ 2

/-- Moment of inertia about a transverse (x) axis through the centre: squared distance is
`y² + z²` with `y = r sin θ`. -/
noncomputable def cylinderDiametral (ρ w i_d o_d : ℝ) : ℝ :=
  cylinderIntegral w i_d o_d fun r θ z => ρ * ((r * sin θ) ^ 2 + z ^ 2)

end Ross.Spec
