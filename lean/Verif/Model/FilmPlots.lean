import Verif.Model.FluidFlow
import Verif.Model.Runs
import Verif.Model.Extrapolation

/-!
# Model of the figures of a fluid film (`ross/fluid_flow/fluid_flow_graphics.py`)

Of a figure the names and points of its curves are modelled, not colours, titles and texts.  The figure begins empty
(`fig=None`).
-/

namespace Ross.FilmPlots

open Ross Ross.Fluid

/-- The index that `i` stands for on an axis of length `n`; negative ones count from the end. -/
def axisAt (n : ℕ) (i : ℤ) : Res ℕ :=
  if 0 ≤ i ∧ i < n then .ok i.toNat
  else if -(n : ℤ) ≤ i ∧ i < 0 then .ok (n + i).toNat
  else .error .indexError

/-- An array of length `n`. -/
def line (n : ℕ) (f : ℕ → ℝ) : List ℝ := (List.range n).map f

/-- `go.Scatter(x, y, name)`. -/
structure Curve where
  name : String
  x : List ℝ
  y : List ℝ

/-- The first check of the figures of pressures (`fluid_flow_graphics.py` 177-184, 336-343, 425-432, 533-540). -/
def unavailable (F : FluidFlow) : Bool :=
  !F.numerical_pressure_matrix_available && !F.analytical_pressure_matrix_available

/-- `plot_pressure_z` (`fluid_flow_graphics.py` 140-231). -/
def plot_pressure_z (F : FluidFlow) (theta : ℤ) : Res (List Curve) :=
  if unavailable F then .error .valueError
  else do
    let a ← if F.numerical_pressure_matrix_available then do
        let j ← axisAt F.ntheta theta
        .ok [⟨"<b>Numerical pressure</b>", line F.nz F.z_list, line F.nz fun i => F.p_mat_numerical i j⟩]
      else .ok []
    let b ← if F.analytical_pressure_matrix_available then do
        let j ← axisAt F.ntheta theta
        .ok [⟨"<b>Analytical pressure</b>", line F.nz F.z_list, line F.nz fun i => F.p_mat_analytical i j⟩]
      else .ok []
    .ok (a ++ b)

/-- `plot_shape` (`fluid_flow_graphics.py` 234-303). -/
def plot_shape (F : FluidFlow) (theta : ℤ) : Res (List Curve) := do
  let j ← axisAt F.ntheta theta
  .ok [⟨"<b>Stator</b>", line F.nz F.z_list, line F.nz fun i => F.re i j⟩,
    ⟨"<b>Rotor</b>", line F.nz F.z_list, line F.nz fun i => F.ri i j⟩]

/-- `plot_pressure_theta` (`fluid_flow_graphics.py` 306-384): the second `if` is an `elif`. -/
def plot_pressure_theta (F : FluidFlow) (z : ℤ) : Res (List Curve) :=
  if unavailable F then .error .valueError
  else if F.numerical_pressure_matrix_available then do
    let i ← axisAt F.nz z
    .ok [⟨"<b>Numerical pressure</b>", line F.ntheta (F.gama i), line F.ntheta (F.p_mat_numerical i)⟩]
  else if F.analytical_pressure_matrix_available then do
    let i ← axisAt F.nz z
    .ok [⟨"<b>Analytical pressure</b>", line F.ntheta (F.gama i), line F.ntheta (F.p_mat_analytical i)⟩]
  else .ok []

/-- One bar of `go.Barpolar`: radius, angle in degrees, and the value shown. -/
structure Bar where
  r : ℝ
  theta : ℝ
  value : ℝ

/-- The matrix taken (`fluid_flow_graphics.py` 433-442). -/
def chosen (F : FluidFlow) (from_numerical : Bool) : ℕ → ℕ → ℝ :=
  if from_numerical then
    if F.numerical_pressure_matrix_available then F.p_mat_numerical else F.p_mat_analytical
  else
    if F.analytical_pressure_matrix_available then F.p_mat_analytical else F.p_mat_numerical

/-- `plot_pressure_theta_cylindrical` (`fluid_flow_graphics.py` 387-508).  `r` has the 50 points that are the default of
`np.linspace`; `ravel` goes through the rows. -/
noncomputable def plot_pressure_theta_cylindrical (F : FluidFlow) (z : ℤ) (from_numerical : Bool) : Res (List Bar) :=
  if unavailable F then .error .valueError
  else do
    let r := linspace F.radius_rotor F.radius_stator 50
    let theta := (linspace 0 (2 * Real.pi + F.dtheta / 2) F.ntheta).map fun t => t * (180 / Real.pi)
    let k ← axisAt F.nz z
    let pressure_along_theta := line F.ntheta (chosen F from_numerical k)
    let min_pressure ← minOf pressure_along_theta
    .ok ((List.range (F.ntheta * 50)).map fun c =>
      let i := c / 50
      let j := c % 50
      let inner_radius := Real.sqrt (F.xri k i * F.xri k i + F.yri k i * F.yri k i)
      open Classical in
      ⟨r.getD j 0, theta.getD i 0,
        if r.getD j 0 < inner_radius then 0 else pressure_along_theta.getD i 0 - min_pressure + 0.01⟩)

/-- `go.Surface(x, y, z)`: arrays of shape `(ntheta, nz)`. -/
structure Surface where
  x : List (List ℝ)
  y : List (List ℝ)
  z : List (List ℝ)

/-- `plot_pressure_surface` (`fluid_flow_graphics.py` 511-577): `none` is a figure without a surface. -/
def plot_pressure_surface (F : FluidFlow) : Res (Option Surface) :=
  if unavailable F then .error .valueError
  else if F.numerical_pressure_matrix_available then do
    let k ← axisAt F.nz 0
    .ok (some
      { x := List.replicate F.ntheta (line F.nz F.z_list)
        y := (line F.ntheta (F.gama k)).map fun t => List.replicate F.nz t
        z := (List.range F.ntheta).map fun i => line F.nz fun j => F.p_mat_numerical j i })
  else .ok none

/-- The figure of `plot_eccentricity`: the points of stator and rotor and the two centres. -/
structure Section where
  stator : List (ℝ × ℝ)
  rotor : List (ℝ × ℝ)
  rotorCentre : ℝ × ℝ
  statorCentre : ℝ × ℝ

/-- `plot_eccentricity` (`fluid_flow_graphics.py` 7-137). -/
noncomputable def plot_eccentricity (F : FluidFlow) (z : ℤ) (scale_factor : ℝ) : Res Section :=
  open Classical in
  if ¬ (0 ≤ scale_factor ∧ scale_factor ≤ 1) then .error .valueError
  else do
    let s := 0.5 * scale_factor + 0.5
    let k ← axisAt F.nz z
    let val_min ← minOf (line F.ntheta fun j =>
      Real.sqrt (F.xre k j ^ 2 + F.yre k j ^ 2) - Real.sqrt ((F.xri k j * s) ^ 2 + (F.yri k j * s) ^ 2))
    let val_ref ← minOf (line F.ntheta fun j =>
      Real.sqrt (F.xre k j ^ 2 + F.yre k j ^ 2) - Real.sqrt (F.xri k j ^ 2 + F.yri k j ^ 2))
    .ok
      { stator := (List.range F.ntheta).map fun j => (F.xre k j, F.yre k j)
        rotor := (List.range F.ntheta).map fun j =>
          (F.xri k j * s + s * (val_min - val_ref) * Real.sin F.attitude_angle,
           F.yri k j * s - s * (val_min - val_ref) * Real.cos F.attitude_angle)
        rotorCentre := (F.xi * s + s * (val_min - val_ref) * Real.sin F.attitude_angle,
          F.yi * s - s * (val_min - val_ref) * Real.cos F.attitude_angle)
        statorCentre := (0, 0) }

end Ross.FilmPlots
