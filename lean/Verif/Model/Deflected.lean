import Verif.Model.Readout
import Verif.Model.Shape

/-!
# Model of deflected shapes at a speed

`results.py` `ForcedResponseResults.plot_deflected_shape_2d` (3306-3346), `plot_deflected_shape_3d` (3397-3478),
`plot_bending_moment` (3552-3560): the data that are drawn, without colors, labels and layout.

The conversion of units is multiplication by a factor; a unit with an amplitude is the quantity it measures
(`none` for one that is not in `default_units`) and its factor.
-/

namespace Ross

/-- `amplitude_units`: the quantity, and the value of one base unit in these units. -/
structure AmpUnits where
  kind : Option RespKind
  factor : ℝ

namespace Rotor

variable (r : Rotor)

/-- `np.isclose(a, speed, atol=1e-6)`, with the default `rtol=1e-5`. -/
def IsClose (a speed : ℝ) : Prop := |a - speed| ≤ 1 / 10 ^ 6 + 1 / 10 ^ 5 * |speed|

open Classical in
/-- `np.where(np.isclose(self.speed_range, speed, atol=1e-6))[0][0]` after the test with `any`
(`results.py` 3219, 3306-3307, 3320, 3397-3398, 3422, 3552-3553). -/
noncomputable def speedIndex (speed_range : List ℝ) (speed : ℝ) : Res ℕ :=
  match speed_range.findIdx? fun a => decide (IsClose a speed) with
  | some i => .ok i
  | none => .error .valueError

/-- `Q_(response[:, idx], base_unit).to(amplitude_units).m` (`results.py` 3309-3321, 3401-3423). -/
noncomputable def responseAt (resp : List (ForcedResp r.ndof)) (speed_range : List ℝ) (speed : ℝ) (u : AmpUnits) :
    Res (List ℂ) := do
  let i ← speedIndex speed_range speed
  match u.kind with
  | none => .error .valueError
  | some k =>
    match resp[i]? with
    | none => .error .indexError
    | some x => .ok (List.ofFn fun j => (u.factor : ℂ) * x.get k j)

/-- The shape that `plot_deflected_shape_2d` and `plot_deflected_shape_3d` draw (`results.py` 3306-3329,
3397-3432). -/
noncomputable def deflected (la : Lapack) (resp : List (ForcedResp r.ndof)) (speed_range : List ℝ) (speed : ℝ)
    (u : AmpUnits) : Res Shape := do
  let v ← r.responseAt resp speed_range speed u
  Shape.init la v (List.range r.nodes_pos.length) r.nodes_pos r.shaft_elements_length r.number_dof

/-- `np.max(shape.major_axis)`, of an array with five entries per element; `np.max` of an empty array is a
`ValueError`. -/
noncomputable def maxMajor (s : Shape) : Res ℝ :=
  match ((List.range (5 * (s.nodes.length - 1))).map s.major_axis).max? with
  | none => .error .valueError
  | some m => .ok m

/-- `Q_(x, "m").to(amplitude_units).m`: a `DimensionalityError` for velocities and accelerations. -/
def toAmp (u : AmpUnits) (x : ℝ) : Res ℝ :=
  match u.kind with
  | some .displacement => .ok (u.factor * x)
  | _ => .error .exception

/-- The marker of an unbalance at node `n` with a phase (`results.py` 3446-3476): its position along the shaft and
its end in `x` and `y`. -/
noncomputable def marker (u : AmpUnits) (lengthFactor : ℝ) (s : Shape) (n : ℕ) (phase : ℝ) : Res (ℝ × ℝ × ℝ) := do
  let m ← maxMajor s
  let x := m / 2 * Real.cos phase
  let y := m / 2 * Real.sin phase
  match s.nodes_pos[n]? with
  | none => .error .indexError
  | some z => do
    let x' ← toAmp u x
    let y' ← toAmp u y
    pure (lengthFactor * z, x', y')

/-- `plot_deflected_shape_3d` (`results.py` 3397-3478): the shape and the markers of the unbalances, given by node,
amplitude and phase; `None.shape` is an `AttributeError`. -/
noncomputable def deflected3d (la : Lapack) (resp : List (ForcedResp r.ndof)) (speed_range : List ℝ) (speed : ℝ)
    (u : AmpUnits) (lengthFactor : ℝ) (unbalance : Option (List (ℕ × ℝ × ℝ))) :
    Res (Shape × List (ℝ × ℝ × ℝ)) := do
  let s ← r.deflected la resp speed_range speed u
  match unbalance with
  | none => .error .attributeError
  | some l => do
    let m ← l.mapM fun x => marker u lengthFactor s x.1 x.2.2
    pure (s, m)

/-- `plot_bending_moment` (`results.py` 3552-3558): `Mx`, `My` and `Mr`; the factor is that of `moment_units`. -/
noncomputable def bendingAt (resp : List (ForcedResp r.ndof)) (speed_range : List ℝ) (speed factor : ℝ) :
    Res (List ℝ × List ℝ × List ℝ) := do
  let i ← speedIndex speed_range speed
  match resp[i]? with
  | none => .error .indexError
  | some x => do
    let M ← r.bendingMoment x.forced_resp
    let Mx := M.1.map (factor * ·)
    let My := M.2.map (factor * ·)
    pure (Mx, My, List.zipWith (fun a b => Real.sqrt (a ^ 2 + b ^ 2)) Mx My)

end Rotor

end Ross
