import Mathlib.Analysis.SpecialFunctions.Log.Basic
import Verif.Model.FluidGeometry

/-!
# Model of the pressure in fluid-film bearings (`ross/fluid_flow/fluid_flow.py`)

Arrays of shape `(nz, ntheta)` are functions of the two indices; the matrix `M` and the vector `f` of the finite
differences are functions of the indices too, so that an index out of range, which needs fewer than two points in a
direction, is not noticed.  `spsolve` is a parameter.  A call of `sys.exit` is a raised exception.
-/

namespace Ross.Fluid

open Real

/-- The attributes of a `FluidFlow` object that take part in the calculations. -/
structure FluidFlow where
  nz : ℕ
  ntheta : ℕ
  length : ℝ
  omega : ℝ
  p_in : ℝ
  p_out : ℝ
  radius_rotor : ℝ
  radius_stator : ℝ
  viscosity : ℝ
  density : ℝ
  bearing_type : String
  shape_geometry : String
  preload : ℝ
  displacement : ℝ
  max_depth : Option ℝ
  eccentricity : ℝ
  attitude_angle : ℝ
  eccentricity_ratio : ℝ
  load : Option ℝ
  omegap : ℝ
  t : ℝ
  xp : ℝ
  yp : ℝ
  xi : ℝ
  yi : ℝ
  z_list : ℕ → ℝ
  re : ℕ → ℕ → ℝ
  ri : ℕ → ℕ → ℝ
  xre : ℕ → ℕ → ℝ
  xri : ℕ → ℕ → ℝ
  yre : ℕ → ℕ → ℝ
  yri : ℕ → ℕ → ℝ
  gama : ℕ → ℕ → ℝ
  p_mat_analytical : ℕ → ℕ → ℝ
  p_mat_numerical : ℕ → ℕ → ℝ
  analytical_pressure_matrix_available : Bool
  numerical_pressure_matrix_available : Bool

namespace FluidFlow

/-- `dz`, fluid_flow.py 243 and 247. -/
noncomputable def dz (F : FluidFlow) : ℝ := F.length / ((F.nz : ℝ) - 1)

/-- `dtheta`, fluid_flow.py 244, 246 and 248. -/
noncomputable def dtheta (F : FluidFlow) : ℝ := 2 * π / ((F.ntheta : ℝ) - 1)

/-- `ntotal`, fluid_flow.py 249. -/
def ntotal (F : FluidFlow) : ℕ := F.nz * F.ntheta

/-- `characteristic_speed`, fluid_flow.py 257. -/
noncomputable def characteristic_speed (F : FluidFlow) : ℝ := F.omega * F.radius_rotor

/-- `radial_clearance`, fluid_flow.py 258. -/
noncomputable def radial_clearance (F : FluidFlow) : ℝ := F.radius_stator - F.radius_rotor

/-- `start`, fluid_flow.py 462-465. -/
noncomputable def start (F : FluidFlow) : ℝ :=
  if F.shape_geometry = "cylindrical" then π / 2 + F.attitude_angle else 0

/-- The external radius and its coordinates at angle `gama`, fluid_flow.py 473-476. -/
noncomputable def external (F : FluidFlow) (gama : ℝ) : Res (ℝ × ℝ × ℝ) :=
  external_radius_function gama F.radius_stator F.radius_rotor F.shape_geometry F.preload F.displacement F.max_depth

/-- The internal radius and its coordinates at angle `gama`, fluid_flow.py 477-479. -/
noncomputable def internal (F : FluidFlow) (gama : ℝ) : ℝ × ℝ × ℝ :=
  internal_radius_function gama F.attitude_angle F.radius_rotor F.eccentricity

/-- The angle of column `j`, fluid_flow.py 472. -/
noncomputable def angle (F : FluidFlow) (j : ℕ) : ℝ := j * F.dtheta + F.start

/-- What `external_radius_function` returns when it does not raise. -/
noncomputable def externalVal (F : FluidFlow) (gama : ℝ) : ℝ × ℝ × ℝ :=
  match F.external gama with
  | .ok r => r
  | .error _ => (0, 0, 0)

/-- `geometry_description`, fluid_flow.py 454-482.  Whether `external_radius_function` raises does not depend on the
angle, so that it is tried once; the grid is taken to have a point. -/
noncomputable def geometry_description (F : FluidFlow) : Res FluidFlow :=
  match F.external F.start with
  | .error e => .error e
  | .ok _ => .ok { F with
      z_list := fun i => i * F.dz
      gama := fun _ j => F.angle j
      re := fun _ j => (F.externalVal (F.angle j)).1
      xre := fun _ j => (F.externalVal (F.angle j)).2.1
      yre := fun _ j => (F.externalVal (F.angle j)).2.2
      ri := fun _ j => (F.internal (F.angle j)).1
      xri := fun _ j => (F.internal (F.angle j)).2.1
      yri := fun _ j => (F.internal (F.angle j)).2.2 }

/-- One entry of `p_mat_analytical` for a short bearing by method 0, fluid_flow.py 403-410. -/
noncomputable def short_pressure_0 (F : FluidFlow) (i j : ℕ) : ℝ :=
  let p := ((-3 * F.viscosity * F.omega) / F.radial_clearance ^ 2) *
    ((i * F.dz - F.length / 2) ^ 2 - F.length ^ 2 / 4) *
    (F.eccentricity_ratio * sin (j * F.dtheta)) /
    (1 + F.eccentricity_ratio * cos (j * F.dtheta)) ^ 3
  if p < 0 then 0 else p

/-- One entry of `p_mat_analytical` for a short bearing by method 1, fluid_flow.py 415-424. -/
noncomputable def short_pressure_1 (F : FluidFlow) (i j : ℕ) : ℝ :=
  let p := (3 * F.viscosity / (F.radial_clearance ^ 2 * (1 + F.eccentricity_ratio * cos (j * F.dtheta)) ^ 3)) *
    (-F.eccentricity_ratio * F.omega * sin (j * F.dtheta)) *
    ((i * F.dz - F.length / 2) ^ 2 - F.length ^ 2 / 4)
  if p < 0 then 0 else p

/-- One entry of `p_mat_analytical` for a long bearing, fluid_flow.py 429-443. -/
noncomputable def long_pressure (F : FluidFlow) (_i j : ℕ) : ℝ :=
  let p := (6 * F.viscosity * F.omega * (F.radius_rotor / F.radial_clearance) ^ 2 * F.eccentricity_ratio *
      sin (F.dtheta * j) * (2 + F.eccentricity_ratio * cos (F.dtheta * j))) /
    ((2 + F.eccentricity_ratio ^ 2) * (1 + F.eccentricity_ratio * cos (F.dtheta * j)) ^ 2) + F.p_in
  if p < 0 then 0 else p

/-- `calculate_pressure_matrix_analytical`, fluid_flow.py 373-452.  A method that is not listed, or a type that is not
listed with a cylindrical shape, leaves the matrix as it is. -/
noncomputable def calculate_pressure_matrix_analytical (F : FluidFlow) (method : ℤ) (force_type : Option String) :
    Res FluidFlow :=
  if F.bearing_type = "short_bearing" ∨ force_type = some "short" then
    if method = 0 then
      .ok { F with p_mat_analytical := F.short_pressure_0, analytical_pressure_matrix_available := true }
    else if method = 1 then
      .ok { F with p_mat_analytical := F.short_pressure_1, analytical_pressure_matrix_available := true }
    else .ok { F with analytical_pressure_matrix_available := true }
  else if F.bearing_type = "long_bearing" ∨ force_type = some "long" then
    if method = 0 then
      .ok { F with p_mat_analytical := F.long_pressure, analytical_pressure_matrix_available := true }
    else .ok { F with analytical_pressure_matrix_available := true }
  else if F.bearing_type = "medium_size" ∨ F.shape_geometry ≠ "cylindrical" then .error .valueError
  else .ok { F with analytical_pressure_matrix_available := true }

/-- `k`, fluid_flow.py 511-512. -/
noncomputable def coef_k (re ri : ℝ) : ℝ :=
  (re ^ 2 * (log re - 1 / 2) - ri ^ 2 * (log ri - 1 / 2)) / (ri ^ 2 - re ^ 2)

/-- One entry of `c1`, fluid_flow.py 514-519. -/
noncomputable def coef_1 (viscosity re ri : ℝ) : ℝ :=
  (1 / (4 * viscosity)) * ((re ^ 2 * log re - ri ^ 2 * log ri + (re ^ 2 - ri ^ 2) * (coef_k re ri - 1)) -
    2 * re ^ 2 * ((log re + coef_k re ri - 1 / 2) * log (re / ri)))

/-- One entry of `c2`, fluid_flow.py 521-529. -/
noncomputable def coef_2 (viscosity re ri : ℝ) : ℝ :=
  (-ri ^ 2) / (8 * viscosity) *
    ((re ^ 2 - ri ^ 2 - (re ^ 4 - ri ^ 4) / (2 * ri ^ 2)) +
      ((re ^ 2 - ri ^ 2) / (ri ^ 2 * log (re / ri))) * (re ^ 2 * log (re / ri) - (re ^ 2 - ri ^ 2) / 2))

/-- One entry of `c0w` without a disturbance, fluid_flow.py 531-533. -/
noncomputable def coef_0w (w re ri : ℝ) : ℝ :=
  -w * ri * (log (re / ri) * (1 + ri ^ 2 / (re ^ 2 - ri ^ 2)) - 1 / 2)

/-- One entry of `c0w`, fluid_flow.py 531-541. -/
noncomputable def coef_0 (F : FluidFlow) (direction : Option String) (i j : ℕ) : ℝ :=
  let c := coef_0w (F.omega * F.radius_rotor) (F.re i j) (F.ri i j)
  if direction = some "x" then
    c + F.ri i j * (F.omegap * F.xp * cos (F.omegap * F.t)) * sin (F.gama i j)
  else if direction = some "y" then
    c - F.ri i j * (F.omegap * F.yp * cos (F.omegap * F.t)) * cos (F.gama i j)
  else c + 0

/-- The test of fluid_flow.py 544-546. -/
noncomputable def outside (F : FluidFlow) (i j : ℕ) : Bool :=
  decide (|F.xri i j| > |F.xre i j| ∨ |F.yri i j| > |F.yre i j|)

/-- `calculate_coefficients`, fluid_flow.py 484-553.  (The error is raised at the end of the first row with such a
point; the rows after it are not looked at, which makes no difference.) -/
noncomputable def calculate_coefficients (F : FluidFlow) (direction : Option String) :
    Res ((ℕ → ℕ → ℝ) × (ℕ → ℕ → ℝ) × (ℕ → ℕ → ℝ)) :=
  if (List.range F.nz).any (fun i => (List.range F.ntheta).any (fun j => F.outside i j)) then .error .valueError
  else .ok (fun i j => coef_1 F.viscosity (F.re i j) (F.ri i j),
    fun i j => coef_2 F.viscosity (F.re i j) (F.ri i j), fun i j => F.coef_0 direction i j)

/-- The matrix, the independent terms and the counter of the loops. -/
structure Loop where
  M : ℕ → ℕ → ℝ
  f : ℕ → ℝ
  count : ℕ

namespace Loop

/-- `M[r, c] = v`. -/
def setM (s : Loop) (r c : ℕ) (v : ℝ) : Loop :=
  { s with M := Function.update s.M r (Function.update (s.M r) c v) }

/-- `f[r, 0] = v`. -/
def setF (s : Loop) (r : ℕ) (v : ℝ) : Loop := { s with f := Function.update s.f r v }

/-- `count = c`. -/
def setCount (s : Loop) (c : ℕ) : Loop := { s with count := c }

end Loop

/-- The body of the first loop, fluid_flow.py 579-584. -/
def boundary_step (F : FluidFlow) (s : Loop) : Loop :=
  let s := (s.setM s.count s.count 1).setF s.count F.p_in
  let s := s.setCount (s.count + F.nz - 1)
  let s := (s.setM s.count s.count 1).setF s.count F.p_out
  s.setCount (s.count + 1)

/-- The body of the second loop, fluid_flow.py 587-589. -/
def periodic_step (F : FluidFlow) (s : Loop) : Loop :=
  let r := F.ntotal - F.nz + 1 + s.count
  ((s.setM r (1 + s.count) 1).setM r r (-1)).setCount (s.count + 1)

/-- The body of the third loop, fluid_flow.py 593-604. -/
noncomputable def seam_step (F : FluidFlow) (c1 c2 : ℕ → ℕ → ℝ) (s : Loop) (i : ℕ) : Loop :=
  let j := 0
  let a := (1 / F.dtheta ^ 2) * c1 i (F.ntheta - 1)
  let b := (1 / F.dz ^ 2) * c2 (i - 1) j
  let c := -((1 / F.dtheta ^ 2) * (c1 i j + c1 i (F.ntheta - 1)) + (1 / F.dz ^ 2) * (c2 i j + c2 (i - 1) j))
  let d := (1 / F.dz ^ 2) * c2 i j
  let e := (1 / F.dtheta ^ 2) * c1 i j
  (((((s.setM s.count (F.ntotal - 2 * F.nz + s.count) a).setM s.count (s.count - 1) b).setM s.count s.count c).setM
    s.count (s.count + 1) d).setM s.count (s.count + F.nz) e).setCount (s.count + 1)

/-- The body of the fourth loop, fluid_flow.py 608-619. -/
noncomputable def interior_step (F : FluidFlow) (c1 c2 : ℕ → ℕ → ℝ) (j : ℕ) (s : Loop) (i : ℕ) : Loop :=
  let a := (1 / F.dtheta ^ 2) * c1 i (j - 1)
  let b := (1 / F.dz ^ 2) * c2 (i - 1) j
  let c := -((1 / F.dtheta ^ 2) * (c1 i j + c1 i (j - 1)) + (1 / F.dz ^ 2) * (c2 i j + c2 (i - 1) j))
  let d := (1 / F.dz ^ 2) * c2 i j
  let e := (1 / F.dtheta ^ 2) * c1 i j
  (((((s.setM s.count (s.count - F.nz) a).setM s.count (s.count - 1) b).setM s.count s.count c).setM
    s.count (s.count + 1) d).setM s.count (s.count + F.nz) e).setCount (s.count + 1)

/-- The body of the last loop, fluid_flow.py 624-628. -/
noncomputable def source_step (F : FluidFlow) (c0w : ℕ → ℕ → ℝ) (j : ℕ) (s : Loop) (i : ℕ) : Loop :=
  (if j = 0 then s.setF s.count ((c0w i j - c0w i (F.ntheta - 1)) / F.dtheta)
    else s.setF s.count ((c0w i j - c0w i (j - 1)) / F.dtheta)).setCount (s.count + 1)

/-- `range(1, nz - 1)`. -/
def inner (F : FluidFlow) : List ℕ := List.range' 1 (F.nz - 2)

/-- The five loops of `mounting_matrix`, fluid_flow.py 575-629. -/
noncomputable def mounting_loop (F : FluidFlow) (c1 c2 c0w : ℕ → ℕ → ℝ) : Loop :=
  let s : Loop := ⟨fun _ _ => 0, fun _ => 0, 0⟩
  let s := (List.range F.ntheta).foldl (fun s _ => F.boundary_step s) s
  let s := (List.range (F.nz - 2)).foldl (fun s _ => F.periodic_step s) (s.setCount 0)
  let s := F.inner.foldl (F.seam_step c1 c2) (s.setCount 1)
  let s := (List.range' 1 (F.ntheta - 2)).foldl
    (fun s j => let s := F.inner.foldl (F.interior_step c1 c2 j) s; s.setCount (s.count + 2)) (s.setCount (F.nz + 1))
  (List.range (F.ntheta - 1)).foldl
    (fun s j => let s := F.inner.foldl (F.source_step c0w j) s; s.setCount (s.count + 2)) (s.setCount 1)

/-- `mounting_matrix`, fluid_flow.py 555-631. -/
noncomputable def mounting_matrix (F : FluidFlow) (c1 c2 c0w : ℕ → ℕ → ℝ) : (ℕ → ℕ → ℝ) × (ℕ → ℝ) :=
  let s := F.mounting_loop c1 c2 c0w
  (s.M, s.f)

/-- `spsolve` for a matrix of the given size. -/
abbrev Solver := ℕ → (ℕ → ℕ → ℝ) → (ℕ → ℝ) → ℕ → ℝ

/-- `calculate_pressure_matrix_numerical`, fluid_flow.py 658-686 with `resolves_matrix` (633-656). -/
noncomputable def calculate_pressure_matrix_numerical (spsolve : Solver) (F : FluidFlow) (direction : Option String) :
    Res FluidFlow :=
  match F.calculate_coefficients direction with
  | .error e => .error e
  | .ok (c1, c2, c0w) =>
    let Mf := F.mounting_matrix c1 c2 c0w
    let P := spsolve F.ntotal Mf.1 Mf.2
    .ok { F with
      p_mat_numerical := fun i j => max (P (j * F.nz + i)) 0
      numerical_pressure_matrix_available := true }

end FluidFlow

end Ross.Fluid
