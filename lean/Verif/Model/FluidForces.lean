import Mathlib.LinearAlgebra.Matrix.NonsingularInverse
import Mathlib.LinearAlgebra.Matrix.Notation
import Mathlib.Data.Real.Sqrt
import Verif.Model.FluidFlow

/-!
# Model of the forces and coefficients of fluid-film bearings

`ross/fluid_flow/fluid_flow_coefficients.py`, the functions of `fluid_flow_geometry.py` that move the rotor, and
`FluidFlow.__init__`.  Simpson's rule, the sparse solver, the root finders and the least-squares minimiser are
parameters.
-/

namespace Ross.Fluid

open Real FluidFlow

/-- `move_rotor_center_abs`, fluid_flow_geometry.py 422-452.  At the centre the code divides zero by zero and the angle
is `nan`; here it is `π / 2`. -/
noncomputable def move_rotor_center_abs (F : FluidFlow) (x y : ℝ) : FluidFlow :=
  let ecc := √(x ^ 2 + y ^ 2)
  { F with
    xi := x
    yi := y
    eccentricity := ecc
    eccentricity_ratio := ecc / F.radial_clearance
    attitude_angle := arccos |y / ecc| }

/-- `move_rotor_center`, fluid_flow_geometry.py 387-419. -/
noncomputable def move_rotor_center (F : FluidFlow) (dx dy : ℝ) : FluidFlow :=
  let x := F.xi + dx
  let y := F.yi + dy
  let ecc := √(x ^ 2 + y ^ 2)
  { F with
    xi := x
    yi := y
    eccentricity := ecc
    eccentricity_ratio := ecc / F.radial_clearance
    attitude_angle := arccos |y / ecc| }

/-- What is used of numpy and scipy. -/
structure FlowLib extends RootLib where
  /-- `scipy.sparse.linalg.spsolve`. -/
  spsolve : Solver
  /-- `integrate.simpson(y, x=x)` for `n` samples. -/
  simpson : ℕ → (ℕ → ℝ) → (ℕ → ℝ) → ℝ
  /-- `least_squares(residuals, x0, bounds=([0, -1], [1, 0])).x`. -/
  least_squares : (ℝ × ℝ → Res (ℝ × ℝ)) → ℝ × ℝ → Res (ℝ × ℝ)

/-- `np.arctan2(y, x)`. -/
noncomputable def arctan2 (y x : ℝ) : ℝ := Complex.arg ⟨x, y⟩

/-- The radial and tangential force of a short bearing, fluid_flow_coefficients.py 40-60. -/
noncomputable def short_force (F : FluidFlow) : ℝ × ℝ :=
  (0.5 * F.viscosity * (F.radius_rotor / F.radial_clearance) ^ 2 * (F.length ^ 3 / F.radius_rotor) *
      ((2 * F.eccentricity_ratio ^ 2 * F.omega) / (1 - F.eccentricity_ratio ^ 2) ^ 2),
   0.5 * F.viscosity * (F.radius_rotor / F.radial_clearance) ^ 2 * (F.length ^ 3 / F.radius_rotor) *
      ((π * F.eccentricity_ratio * F.omega) / (2 * (1 - F.eccentricity_ratio ^ 2) ^ (3 / 2 : ℝ))))

/-- The radial and tangential force of a long bearing, fluid_flow_coefficients.py 64-91. -/
noncomputable def long_force (F : FluidFlow) : ℝ × ℝ :=
  (6 * F.viscosity * (F.radius_rotor / F.radial_clearance) ^ 2 * F.radius_rotor * F.length *
      ((2 * F.eccentricity_ratio ^ 2 * F.omega) / ((2 + F.eccentricity_ratio ^ 2) * (1 - F.eccentricity_ratio ^ 2))),
   6 * F.viscosity * (F.radius_rotor / F.radial_clearance) ^ 2 * F.radius_rotor * F.length *
      ((π * F.eccentricity_ratio * F.omega) /
        ((2 + F.eccentricity_ratio ^ 2) * (1 - F.eccentricity_ratio ^ 2) ^ (1 / 2 : ℝ))))

/-- `np.arctan2` of the base vector, fluid_flow_coefficients.py 98-103. -/
noncomputable def base_angle (F : FluidFlow) : ℝ := arctan2 (F.yre 0 0 - F.yi) (F.xre 0 0 - F.xi)

/-- `angle_between_vectors`, fluid_flow_coefficients.py 106-116. -/
noncomputable def angle_between (F : FluidFlow) (i j : ℕ) : ℝ :=
  let angle := arctan2 (F.yre i j - F.yi) (F.xre i j - F.xi) - base_angle F
  if angle < 0 then angle + 2 * π else angle

/-- The double integral of lines 117-125 of the pressure times `w` of the angle. -/
noncomputable def film_integral (lib : FlowLib) (F : FluidFlow) (w : ℝ → ℝ) : ℝ :=
  lib.simpson F.nz
    (fun i => lib.simpson F.ntheta (fun j => F.p_mat_numerical i j * w (angle_between F i j)) (F.gama 0)) F.z_list

/-- The radial and tangential force from the numerical pressure, fluid_flow_coefficients.py 93-139. -/
noncomputable def numerical_force (lib : FlowLib) (F : FluidFlow) : ℝ × ℝ :=
  let integral1 := film_integral lib F cos
  let integral2 := film_integral lib F sin
  let angle_corr := π / 2 - base_angle F + F.attitude_angle
  let radial_force_aux := F.radius_rotor * integral1
  let tangential_force_aux := F.radius_rotor * integral2
  (radial_force_aux * cos (angle_corr + π) + tangential_force_aux * cos (angle_corr + π / 2),
   radial_force_aux * cos (angle_corr + π / 2) + tangential_force_aux * cos angle_corr)

/-- The four numbers that `calculate_oil_film_force` returns. -/
structure Forces where
  radial : ℝ
  tangential : ℝ
  x : ℝ
  y : ℝ

/-- The components along x and y, fluid_flow_coefficients.py 141-147. -/
noncomputable def to_xy (attitude_angle : ℝ) (rt : ℝ × ℝ) : Forces :=
  { radial := rt.1
    tangential := rt.2
    x := -rt.1 * sin attitude_angle + rt.2 * cos attitude_angle
    y := rt.1 * cos attitude_angle + rt.2 * sin attitude_angle }

/-- `calculate_oil_film_force`, fluid_flow_coefficients.py 11-147. -/
noncomputable def calculate_oil_film_force (lib : FlowLib) (F : FluidFlow) (force_type : Option String) : Forces :=
  if force_type ≠ some "numerical" ∧ (force_type = some "short" ∨ F.bearing_type = "short_bearing") then
    to_xy F.attitude_angle (short_force F)
  else if force_type ≠ some "numerical" ∧ (force_type = some "long" ∨ F.bearing_type = "long_bearing") then
    to_xy F.attitude_angle (long_force F)
  else to_xy F.attitude_angle (numerical_force lib F)

/-- Geometry, pressure and force after a move, fluid_flow_coefficients.py 202-209 and 222-229. -/
noncomputable def film_after (lib : FlowLib) (F : FluidFlow) (direction : Option String) : Res (FluidFlow × Forces) := do
  let F ← F.geometry_description
  let F ← F.calculate_pressure_matrix_numerical lib.spsolve direction
  .ok (F, calculate_oil_film_force lib F (some "numerical"))

/-- The numbers that one step of the loop of fluid_flow_coefficients.py 189-239 leaves behind. -/
structure Sample where
  dx : ℝ
  xdot : ℝ
  dy : ℝ
  ydot : ℝ
  force_xx : ℝ
  force_yx : ℝ
  force_xy : ℝ
  force_yy : ℝ

/-- One step of the loop, fluid_flow_coefficients.py 190-239. -/
noncomputable def sample_step (lib : FlowLib) (F : FluidFlow) (t : ℝ) : Res (FluidFlow × Sample) := do
  let F := { F with t := t }
  let delta_x := F.xp * sin (F.omegap * F.t)
  let F := move_rotor_center F delta_x 0
  let xdot := F.omegap * F.xp * cos (F.omegap * F.t)
  let (F, fx) ← film_after lib F (some "x")
  let delta_y := F.yp * sin (F.omegap * F.t)
  let F := move_rotor_center F (-delta_x) 0
  let F := move_rotor_center F 0 delta_y
  let ydot := F.omegap * F.yp * cos (F.omegap * F.t)
  let (F, fy) ← film_after lib F (some "y")
  let F := move_rotor_center F 0 (-delta_y)
  let F ← F.geometry_description
  let F ← F.calculate_pressure_matrix_numerical lib.spsolve none
  .ok (F, ⟨delta_x, xdot, delta_y, ydot, fx.x, fx.y, fy.x, fy.y⟩)

/-- The loop over the times, fluid_flow_coefficients.py 189-239. -/
noncomputable def sample_loop (lib : FlowLib) : FluidFlow → List ℝ → Res (FluidFlow × List Sample)
  | F, [] => .ok (F, [])
  | F, t :: ts => do
    let (F, s) ← sample_step lib F t
    let (F, l) ← sample_loop lib F ts
    .ok (F, s :: l)

/-- `np.linspace(0, 2 * np.pi / omegap, 6)`, fluid_flow_coefficients.py 168-169. -/
noncomputable def sample_times (omegap : ℝ) : List ℝ :=
  (List.range 6).map (fun i : ℕ => (i : ℝ) * ((2 * π / omegap) / 5))

/-- `np.dot(np.dot(np.linalg.inv(np.dot(X.T, X)), X.T), F)`, fluid_flow_coefficients.py 241-252. -/
noncomputable def fit (X : Matrix (Fin 6) (Fin 3) ℝ) (F : Fin 6 → ℝ) : Res (Fin 3 → ℝ) :=
  if (X.transpose * X).det = 0 then .error .linAlgError
  else .ok (((X.transpose * X)⁻¹ * X.transpose).mulVec F)

/-- The sample of step `i`. -/
noncomputable def sampleAt (l : List Sample) (i : Fin 6) : Sample := l.getD i ⟨0, 0, 0, 0, 0, 0, 0, 0⟩

/-- Stiffness and damping in the order `xx, xy, yx, yy`. -/
structure Coefs where
  K : List ℝ
  C : List ℝ

/-- The fits of fluid_flow_coefficients.py 234-257. -/
noncomputable def fit_samples (l : List Sample) : Res Coefs := do
  let X1 : Matrix (Fin 6) (Fin 3) ℝ := fun i => ![1, (sampleAt l i).dx, (sampleAt l i).xdot]
  let X2 : Matrix (Fin 6) (Fin 3) ℝ := fun i => ![1, (sampleAt l i).dy, (sampleAt l i).ydot]
  let P1 ← fit X1 (fun i => -(sampleAt l i).force_xx)
  let P2 ← fit X2 (fun i => -(sampleAt l i).force_xy)
  let P3 ← fit X1 (fun i => -(sampleAt l i).force_yx)
  let P4 ← fit X2 (fun i => -(sampleAt l i).force_yy)
  .ok ⟨[P1 1, P2 1, P3 1, P4 1], [P1 2, P2 2, P3 2, P4 2]⟩

/-- `calculate_stiffness_and_damping_coefficients`, fluid_flow_coefficients.py 150-257: the coefficients and the object
as it is left. -/
noncomputable def calculate_stiffness_and_damping_coefficients (lib : FlowLib) (F : FluidFlow) :
    Res (FluidFlow × Coefs) := do
  let F := { F with xp := F.radial_clearance * 0.0001, yp := F.radial_clearance * 0.0001 }
  let (F, l) ← sample_loop lib F (sample_times F.omegap)
  let c ← fit_samples l
  .ok (F, c)

/-- `h0`, fluid_flow_coefficients.py 276-282 and 355-356. -/
noncomputable def short_h0 (F : FluidFlow) : ℝ :=
  1 / ((π ^ 2 * (1 - F.eccentricity_ratio ^ 2) + 16 * F.eccentricity_ratio ^ 2) ^ (3 / 2 : ℝ))

/-- `calculate_short_stiffness_matrix`, fluid_flow_coefficients.py 260-335, for an object with a load (without one the
quotient of line 283 raises). -/
noncomputable def calculate_short_stiffness_matrix (F : FluidFlow) : Res (List ℝ) :=
  match F.load with
  | none => .error .typeError
  | some load =>
    let e := F.eccentricity_ratio
    let h0 := short_h0 F
    let a := load / F.radial_clearance
    let kxx := a * h0 * 4 * (π ^ 2 * (2 - e ^ 2) + 16 * e ^ 2)
    let kxy := a * h0 * π * (π ^ 2 * (1 - e ^ 2) ^ 2 - 16 * e ^ 4) / (e * √(1 - e ^ 2))
    let kyx := -a * h0 * π * (π ^ 2 * (1 - e ^ 2) * (1 + 2 * e ^ 2) + (32 * e ^ 2) * (1 + e ^ 2)) / (e * √(1 - e ^ 2))
    let kyy := a * h0 * 4 * (π ^ 2 * (1 + 2 * e ^ 2) + ((32 * e ^ 2) * (1 + e ^ 2)) / (1 - e ^ 2))
    .ok [kxx, kxy, kyx, kyy]

/-- `calculate_short_damping_matrix`, fluid_flow_coefficients.py 338-369. -/
noncomputable def calculate_short_damping_matrix (F : FluidFlow) : Res (List ℝ) :=
  match F.load with
  | none => .error .typeError
  | some load =>
    let e := F.eccentricity_ratio
    let h0 := short_h0 F
    let a := load / (F.radial_clearance * F.omega)
    let cxx := a * h0 * 2 * π * √(1 - e ^ 2) * (π ^ 2 * (1 + 2 * e ^ 2) - 16 * e ^ 2) / e
    let cxy := -a * h0 * 8 * (π ^ 2 * (1 + 2 * e ^ 2) - 16 * e ^ 2)
    let cyx := cxy
    let cyy := a * h0 * (2 * π * (π ^ 2 * (1 - e ^ 2) ^ 2 + 48 * e ^ 2)) / (e * √(1 - e ^ 2))
    .ok [cxx, cxy, cyx, cyy]

/-- The function `residuals` of fluid_flow_coefficients.py 391-415. -/
noncomputable def residuals (lib : FlowLib) (F : FluidFlow) (load : ℝ) (x : ℝ × ℝ) : Res (ℝ × ℝ) := do
  let F := move_rotor_center_abs F (x.1 * F.radial_clearance) (x.2 * F.radial_clearance)
  let (_, f) ← film_after lib F none
  .ok (f.x, f.y - load)

/-- `find_equilibrium_position`, fluid_flow_coefficients.py 372-445.  The pressure that the last evaluation of
`residuals` leaves in the object is not modelled: the object keeps the pressure of the first position. -/
noncomputable def find_equilibrium_position (lib : FlowLib) (F : FluidFlow) : Res FluidFlow :=
  match F.load with
  | none => .error .exception
  | some load => do
    let x0 : ℝ × ℝ := (0 * F.radial_clearance, -1e-3 * F.radial_clearance)
    let F := move_rotor_center_abs F x0.1 x0.2
    let (F, _) ← film_after lib F none
    let result ← lib.least_squares (residuals lib F load) x0
    let F := move_rotor_center_abs F (result.1 * F.radial_clearance) (result.2 * F.radial_clearance)
    F.geometry_description

/-- The arguments of `FluidFlow.__init__`, fluid_flow.py 218-240. -/
structure FlowArgs where
  nz : ℕ
  ntheta : ℕ
  length : ℝ
  omega : ℝ
  p_in : ℝ
  p_out : ℝ
  radius_rotor : ℝ
  radius_stator : ℝ
  viscosity : ℝ
  density : ℝ
  attitude_angle : Option ℝ := none
  eccentricity : Option ℝ := none
  load : Option ℝ := none
  omegap : Option ℝ := none
  immediately : Bool := true
  bearing_type : Option String := none
  shape_geometry : String := "cylindrical"
  preload : ℝ := 0.4
  displacement : ℝ := 0
  max_depth : Option ℝ := none

/-- `bearing_type`, fluid_flow.py 259-266. -/
noncomputable def bearing_type_of (a : FlowArgs) : String :=
  match a.bearing_type with
  | some s => s
  | none =>
    if a.length / (2 * a.radius_stator) ≤ 1 / 4 then "short_bearing"
    else if a.length / (2 * a.radius_stator) > 4 then "long_bearing"
    else "medium_size"

/-- The attributes set in fluid_flow.py 241-291.  Attributes that are `None` or not yet set are 0. -/
noncomputable def blank (a : FlowArgs) : FluidFlow where
  nz := a.nz
  ntheta := a.ntheta
  length := a.length
  omega := a.omega
  p_in := a.p_in
  p_out := a.p_out
  radius_rotor := a.radius_rotor
  radius_stator := a.radius_stator
  viscosity := a.viscosity
  density := a.density
  bearing_type := bearing_type_of a
  shape_geometry := a.shape_geometry
  preload := a.preload
  displacement := a.displacement
  max_depth := a.max_depth
  eccentricity := a.eccentricity.getD 0
  attitude_angle := a.attitude_angle.getD 0
  eccentricity_ratio := 0
  load := a.load
  omegap := a.omegap.getD a.omega
  t := 0
  xp := 0
  yp := 0
  xi := 0
  yi := 0
  z_list := fun _ => 0
  re := fun _ _ => 0
  ri := fun _ _ => 0
  xre := fun _ _ => 0
  xri := fun _ _ => 0
  yre := fun _ _ => 0
  yri := fun _ _ => 0
  gama := fun _ _ => 0
  p_mat_analytical := fun _ _ => 0
  p_mat_numerical := fun _ _ => 0
  analytical_pressure_matrix_available := false
  numerical_pressure_matrix_available := false

/-- `xi` and `yi`, fluid_flow.py 344-345 and 362-363. -/
noncomputable def set_center (F : FluidFlow) : FluidFlow :=
  { F with
    xi := F.eccentricity * cos (3 * π / 2 + F.attitude_angle)
    yi := F.eccentricity * sin (3 * π / 2 + F.attitude_angle) }

/-- The position of the rotor in a short cylindrical bearing, fluid_flow.py 296-342. -/
noncomputable def short_position (lib : FlowLib) (a : FlowArgs) (F : FluidFlow) : Res FluidFlow :=
  match a.eccentricity, a.load with
  | none, some load => do
    let r ← calculate_eccentricity_ratio lib.toRootLib
      (modified_sommerfeld_number F.radius_stator F.omega F.viscosity F.length load F.radial_clearance)
    .ok { F with
      eccentricity_ratio := r
      eccentricity := r * F.radial_clearance
      attitude_angle := a.attitude_angle.getD (calculate_attitude_angle r) }
  | some _, some load => do
    let r ← calculate_eccentricity_ratio lib.toRootLib
      (modified_sommerfeld_number F.radius_stator F.omega F.viscosity F.length load F.radial_clearance)
    .ok { F with
      eccentricity_ratio := r
      attitude_angle := a.attitude_angle.getD (calculate_attitude_angle r) }
  | some e, none =>
    let r := e / F.radial_clearance
    .ok { F with
      eccentricity_ratio := r
      load := some (calculate_rotor_load F.radius_stator F.omega F.viscosity F.length F.radial_clearance r)
      attitude_angle := a.attitude_angle.getD (calculate_attitude_angle r) }
  | none, none => .error .exception

/-- The position of the rotor in other bearings, fluid_flow.py 349-359. -/
noncomputable def other_position (lib : FlowLib) (a : FlowArgs) (F : FluidFlow) : Res FluidFlow :=
  match a.load with
  | some _ => do
    let F ← find_equilibrium_position lib F
    .ok { F with
      eccentricity := a.eccentricity.getD F.eccentricity
      attitude_angle := a.attitude_angle.getD F.attitude_angle }
  | none =>
    match a.attitude_angle, a.eccentricity with
    | none, _ => .error .exception
    | some _, none => .error .exception
    | some _, some _ => .ok F

/-- Position and geometry, fluid_flow.py 292-363. -/
noncomputable def positioned (lib : FlowLib) (a : FlowArgs) : Res FluidFlow :=
  let F := blank a
  if F.bearing_type = "short_bearing" ∧ F.shape_geometry = "cylindrical" then do
    let F ← short_position lib a F
    (set_center F).geometry_description
  else do
    let F ← other_position lib a F
    let F ← F.geometry_description
    .ok (set_center { F with eccentricity_ratio := F.eccentricity / F.radial_clearance })

/-- `FluidFlow.__init__`, fluid_flow.py 241-371. -/
noncomputable def FlowArgs.init (lib : FlowLib) (a : FlowArgs) : Res FluidFlow :=
  if a.nz = 1 ∨ a.ntheta = 1 then .error .zeroDivisionError
  else do
    let F ← positioned lib a
    let F := { F with
      p_mat_analytical := fun _ _ => 0
      p_mat_numerical := fun _ _ => 0
      analytical_pressure_matrix_available := false
      numerical_pressure_matrix_available := false }
    if a.immediately then F.calculate_pressure_matrix_numerical lib.spsolve none else .ok F

end Ross.Fluid
