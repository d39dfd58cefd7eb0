import Mathlib.Analysis.SpecialFunctions.Trigonometric.Arctan
import Mathlib.Analysis.SpecialFunctions.Trigonometric.Inverse
import Mathlib.Analysis.SpecialFunctions.Complex.Arg
import Mathlib.Analysis.SpecialFunctions.Pow.Real
import Mathlib.Data.List.Sort
import Verif.Model.Basic

/-!
# Model of the geometry of fluid-film bearings (`ross/fluid_flow/fluid_flow_geometry.py`)

Floats are exact real numbers.  `x ** (1 / 2)`, `x ** 1.5` and `np.sqrt(x)` of a negative number, which are `nan`, are
whatever `Real.sqrt` makes of them; likewise the quotient by a float zero.
-/

namespace Ross.Fluid

open Real

/-- `calculate_attitude_angle`, fluid_flow_geometry.py 5-26. -/
noncomputable def calculate_attitude_angle (eccentricity_ratio : ℝ) : ℝ :=
  arctan ((π * √(1 - eccentricity_ratio ^ 2)) / (4 * eccentricity_ratio))

/-- The angle `alpha`, fluid_flow_geometry.py 62-65. -/
noncomputable def internal_alpha (gama attitude_angle : ℝ) : ℝ :=
  if π / 2 + attitude_angle < gama ∧ gama < 3 * π / 2 + attitude_angle then
    |3 * π / 2 - gama + attitude_angle|
  else gama + π / 2 - attitude_angle

/-- `internal_radius_function`, fluid_flow_geometry.py 29-72: the radius and the coordinates `xri`, `yri`. -/
noncomputable def internal_radius_function (gama attitude_angle radius_rotor eccentricity : ℝ) : ℝ × ℝ × ℝ :=
  let alpha := internal_alpha gama attitude_angle
  let radius_internal :=
    √(radius_rotor ^ 2 - (eccentricity * sin alpha) ^ 2) + eccentricity * cos alpha
  (radius_internal, radius_internal * cos gama, radius_internal * sin gama)

/-- The angle `alpha` of an elliptical bearing, fluid_flow_geometry.py 127-134. -/
noncomputable def elliptical_alpha (gama : ℝ) : ℝ :=
  if 0 ≤ gama ∧ gama ≤ π / 2 then π / 2 + gama
  else if π / 2 < gama ∧ gama ≤ π then 3 * π / 2 - gama
  else if π < gama ∧ gama ≤ 3 * π / 2 then gama - π / 2
  else 5 * π / 2 - gama

/-- The radius of an elliptical bearing, fluid_flow_geometry.py 125-138. -/
noncomputable def elliptical_radius (gama radius_stator radius_rotor preload : ℝ) : ℝ :=
  let cr := radius_stator - radius_rotor
  let elip := preload * cr
  let alpha := elliptical_alpha gama
  elip * cos alpha + √(radius_stator ^ 2 - (elip * sin alpha) ^ 2)

/-- The depth `d_theta` of the wear, fluid_flow_geometry.py 143-169. -/
noncomputable def wear_depth (gama radius_stator radius_rotor displacement max_depth : ℝ) : ℝ :=
  if max_depth = 0 then 0
  else
    let cr := radius_stator - radius_rotor
    let theta_s := π / 2 + arccos (max_depth / cr - 1) + displacement
    let theta_f_0 := π / 2 - arccos (max_depth / cr - 1) + displacement
    let theta_f := 2 * π + theta_f_0
    if theta_f ≤ 2 * π then
      if theta_s ≤ gama ∧ gama ≤ theta_f then
        max_depth - cr * (1 + cos (gama - π / 2 - displacement))
      else 0
    else
      if theta_s ≤ gama ∧ gama ≤ 2 * π then
        max_depth - cr * (1 + cos (gama - π / 2 - displacement))
      else if 0 ≤ gama ∧ gama ≤ theta_f_0 then
        let gama2 := gama + 2 * π
        max_depth - cr * (1 + cos (gama2 - π / 2 - displacement))
      else 0

/-- `external_radius_function`, fluid_flow_geometry.py 75-180, with all arguments given except perhaps `max_depth`;
a missing `max_depth` makes the quotient of line 147 raise. -/
noncomputable def external_radius_function (gama radius_stator radius_rotor : ℝ) (shape : String)
    (preload displacement : ℝ) (max_depth : Option ℝ) : Res (ℝ × ℝ × ℝ) :=
  if shape = "eliptical" then
    let radius_external := elliptical_radius gama radius_stator radius_rotor preload
    .ok (radius_external, radius_external * cos gama, radius_external * sin gama)
  else if shape = "wear" then
    match max_depth with
    | none => .error .typeError
    | some md =>
      let radius_external := radius_stator + wear_depth gama radius_stator radius_rotor displacement md
      .ok (radius_external, radius_external * cos gama, radius_external * sin gama)
  else
    .ok (radius_stator, radius_stator * cos gama, radius_stator * sin gama)

/-- `reynolds_number`, fluid_flow_geometry.py 183-211. -/
noncomputable def reynolds_number (density characteristic_speed radial_clearance viscosity : ℝ) : ℝ :=
  (density * characteristic_speed * radial_clearance) / viscosity

/-- `modified_sommerfeld_number`, fluid_flow_geometry.py 214-253. -/
noncomputable def modified_sommerfeld_number (radius_stator omega viscosity length load radial_clearance : ℝ) : ℝ :=
  (radius_stator * 2 * omega * viscosity * length ^ 3) / (8 * load * radial_clearance ^ 2)

/-- `sommerfeld_number`, fluid_flow_geometry.py 256-285. -/
noncomputable def sommerfeld_number (modified_s radius_stator length : ℝ) : ℝ :=
  (modified_s / π) * (radius_stator * 2 / length) ^ 2

/-- The list `coefficients`, fluid_flow_geometry.py 305-311. -/
noncomputable def ratio_coefficients (modified_s : ℝ) : List ℝ :=
  [1, -4, 6 - modified_s ^ 2 * (16 - π ^ 2), -(4 + π ^ 2 * modified_s ^ 2), 1]

/-- The function `f` of fluid_flow_geometry.py 315-326. -/
noncomputable def ratio_polynomial (modified_s x : ℝ) : ℝ :=
  let c := ratio_coefficients modified_s
  c.getD 0 0 * x ^ 4 + c.getD 1 0 * x ^ 3 + c.getD 2 0 * x ^ 2 + c.getD 3 0 * x ^ 1 + c.getD 4 0 * x ^ 0

/-- What is used of numpy and scipy: `np.roots` and `scipy.optimize.root(f, x0, tol=1e-10).x[0]`. -/
structure RootLib where
  roots : List ℝ → List ℂ
  root : (ℝ → ℝ) → ℝ → ℝ

/-- `np.isclose(x, 1e-16)`. -/
noncomputable def close_to_zero (x : ℝ) : Bool := decide (|x - 1e-16| ≤ 1e-8 + 1e-5 * |(1e-16 : ℝ)|)

/-- The real parts of the roots that are nearly real, in order, fluid_flow_geometry.py 312-313. -/
noncomputable def real_roots (lib : RootLib) (coefficients : List ℝ) : List ℝ :=
  (((lib.roots coefficients).filter (fun z => close_to_zero z.im)).map Complex.re).mergeSort (fun a b => decide (a ≤ b))

/-- `calculate_eccentricity_ratio`, fluid_flow_geometry.py 288-332: the first root between 0 and 1 is refined. -/
noncomputable def calculate_eccentricity_ratio (lib : RootLib) (modified_s : ℝ) : Res ℝ :=
  match (real_roots lib (ratio_coefficients modified_s)).find? (fun i => decide (0 ≤ i ∧ i ≤ 1)) with
  | some i => .ok √(lib.root (ratio_polynomial modified_s) i)
  | none => .error .valueError

/-- `calculate_rotor_load`, fluid_flow_geometry.py 335-384. -/
noncomputable def calculate_rotor_load
    (radius_stator omega viscosity length radial_clearance eccentricity_ratio : ℝ) : ℝ :=
  ((π * radius_stator * 2 * omega * viscosity * length ^ 3 * eccentricity_ratio) /
    (8 * radial_clearance ^ 2 * (1 - eccentricity_ratio ^ 2) ^ 2)) *
    √((16 / π ^ 2 - 1) * eccentricity_ratio ^ 2 + 1)

end Ross.Fluid
