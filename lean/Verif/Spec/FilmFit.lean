import Verif.Model.FluidForces

/-!
# Measuring the coefficients of a film
-/

namespace Ross.Spec.Fluid

open Real Ross.Fluid

/-- The numerical film force of a bearing whose geometry is described and whose pressure is calculated anew, with a
disturbance in the direction `d`. -/
def FilmGives (lib : FlowLib) (F : FluidFlow) (d : String) (fx fy : ℝ) : Prop :=
  ∃ G K, F.geometry_description = .ok G ∧ G.calculate_pressure_matrix_numerical lib.spsolve (some d) = .ok K ∧
    fx = (calculate_oil_film_force lib K (some "numerical")).x ∧ fy = (calculate_oil_film_force lib K (some "numerical")).y

/-- The bearing at the time `t` of an oscillation with amplitude `A`. -/
def atTime (F : FluidFlow) (A t : ℝ) : FluidFlow := { F with xp := A, yp := A, t := t }

end Ross.Spec.Fluid
