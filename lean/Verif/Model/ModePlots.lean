import Verif.Model.Runs
import Verif.Model.Shape
import Verif.Model.StPlots

/-!
# Model of the figures of mode shapes

`results.py`: `Orbit.plot_orbit` (333-361), `Shape.plot_orbit` (538-562), `Shape.plot_2d` (564-636), `Shape.plot_3d`
(638-770), `ModalResults.data_mode` (1071-1116), `plot_mode_3d` (1118-1224), `plot_mode_2d` (1226-1319) and
`plot_orbit` (1321-1386), and `UCSResults.plot_mode_2d` and `plot_mode_3d` (4985-5108).

Units are factors; coordinates, names, colors of curves, and what the title says are kept.  The two decimals to which
numbers in titles are rounded, and the rest of the layout, are left out.
-/

namespace Ross.ModePlots

open Ross.Rotor Ross.Stochastic

/-- The colors of an orbit and of a shape (`results.py` 300-302, 451-459). -/
def colorOf : Whirl → String
  | .forward => "blue"
  | .backward => "red"
  | .mixed => "gray"

/-- `self.whirl` as a string. -/
def whirlName : Whirl → String
  | .forward => "Forward"
  | .backward => "Backward"
  | .mixed => "Mixed"

/-- The two traces of `Orbit.plot_orbit`. -/
structure OrbitFig where
  name : String
  color : String
  curve : Curve
  start_name : String
  start : ℝ × ℝ

/-- `Orbit.plot_orbit` (`results.py` 333-361): `xc[:-10]` of 360 points. -/
def orbitFig (o : Orbit) : OrbitFig where
  name := "node " ++ toString o.node ++ "<br>" ++ whirlName o.whirl
  color := colorOf o.whirl
  curve := ⟨(List.range (360 - 10)).map o.x_circle, (List.range (360 - 10)).map o.y_circle⟩
  start_name := "node " ++ toString o.node
  start := (o.x_circle 0, o.y_circle 0)

/-- `Shape.plot_orbit` (`results.py` 538-562). -/
def plotOrbit (s : Shape) (nodes : List ℕ) : List OrbitFig :=
  (s.orbits.filter fun o => decide (o.node ∈ nodes)).map orbitFig

/-- An array of a shape, with its `5 * (len(nodes) - 1)` entries. -/
def arr (s : Shape) (f : ℕ → ℝ) : List ℝ := (List.range (5 * (s.nodes.length - 1))).map f

/-- The traces of `Shape.plot_2d`. -/
structure Fig2 where
  color : String
  line : Curve
  angle : List ℝ
  center : Curve

/-- `Shape.plot_2d` (`results.py` 564-636); `ul`, `up` are the units of length and of phase. -/
def plot2d (s : Shape) (orientation : String) (ul up : ℝ) : Res Fig2 := do
  let values ←
    if orientation = "major" then (pure (arr s s.major_axis) : Res (List ℝ))
    else if orientation = "x" then pure (arr s s.major_x)
    else if orientation = "y" then pure (arr s s.major_y)
    else .error .valueError
  pure
    { color := colorOf s.whirl
      line := ⟨(arr s s.zn).map (ul * ·), values⟩
      angle := (arr s s.major_angle).map (up * ·)
      center := ⟨s.nodes_pos.map (ul * ·), List.replicate s.nodes_pos.length 0⟩ }

/-- The three traces of a node in `Shape.plot_3d`. -/
structure Orbit3 where
  name : String
  color : String
  curve : Curve3
  start : ℝ × ℝ × ℝ
  tip : ℝ × ℝ × ℝ
  major : ℝ
  angle : ℝ

/-- The traces of `Shape.plot_3d`. -/
structure Fig3 where
  orbits : List Orbit3
  line : Curve3
  center : Curve3
  major : Curve3

/-- One turn of the loop over the orbits (`results.py` 656-719). -/
def orbit3 (ul up : ℝ) (o : Orbit) : Orbit3 where
  name := "node " ++ toString o.node
  color := colorOf o.whirl
  curve := ⟨List.replicate (360 - 10) (ul * o.node_pos), (List.range (360 - 10)).map o.x_circle,
    (List.range (360 - 10)).map o.y_circle⟩
  start := (ul * o.node_pos, o.x_circle 0, o.y_circle 0)
  tip := (ul * o.node_pos, o.major_x, o.major_y)
  major := o.major_axis
  angle := up * o.major_angle

/-- `Shape.plot_3d` (`results.py` 638-770); `zn[-1]` of an empty array is an `IndexError`. -/
noncomputable def plot3d (s : Shape) (ul up : ℝ) : Res Fig3 :=
  let zn := arr s s.zn
  match zn.getLast? with
  | none => .error .indexError
  | some z =>
    let cl := linspace (-(z * 0.1)) (z * 1.1) 30
    .ok
      { orbits := s.orbits.map (orbit3 ul up)
        line := ⟨zn.map (ul * ·), arr s s.xn, arr s s.yn⟩
        center := ⟨cl.map (ul * ·), cl.map (· * 0), cl.map (· * 0)⟩
        major := ⟨zn.map (ul * ·), arr s s.major_x, arr s s.major_y⟩ }

/-- What a `ModalResults` object keeps for its figures. -/
structure ModalRes where
  speed : ℝ
  wn : List ℝ
  wd : List ℝ
  damping_ratio : List ℝ
  log_dec : List ℝ
  shapes : List Shape

/-- `l[i]`, negative indices counted from the end. -/
def pyAt {α : Type} (l : List α) (i : ℤ) : Res α :=
  if 0 ≤ i then
    match l[i.toNat]? with
    | some a => .ok a
    | none => .error .indexError
  else if -(l.length : ℤ) ≤ i then
    match l[(l.length + i).toNat]? with
    | some a => .ok a
    | none => .error .indexError
  else .error .indexError

/-- What `data_mode` returns, apart from the arrays of the shape. -/
structure ModeData where
  damping_name : String
  damping_value : ℝ
  wd : ℝ
  wn : ℝ
  speed : ℝ

/-- `ModalResults.data_mode` (`results.py` 1071-1116); `uf` is the unit of frequencies, and the unit of length is not
used. -/
def dataMode (R : ModalRes) (mode : ℤ) (uf : ℝ) (damping_parameter : String) : Res ModeData := do
  let l ← pyAt R.log_dec mode
  let d ←
    if damping_parameter = "damping_ratio" then do
      let z ← pyAt R.damping_ratio mode
      (pure ("Damping ratio", z) : Res (String × ℝ))
    else pure ("Log. Dec.", l)
  let wd ← pyAt R.wd mode
  let wn ← pyAt R.wn mode
  let _ ← pyAt R.shapes mode
  pure ⟨d.1, d.2, uf * wd, uf * wn, uf * R.speed⟩

/-- The title of `plot_mode_2d` and `plot_mode_3d`. -/
structure ModeTitle where
  mode : ℤ
  speed : ℝ
  whirl : String
  frequency_name : String
  frequency : ℝ
  damping_name : String
  damping : ℝ

/-- The dictionary `frequency` and the title (`results.py` 1181-1220, 1291-1316). -/
noncomputable def titleOf (R : ModalRes) (mode : ℤ) (frequency_type : String) (df : ModeData) : Res ModeTitle := do
  let w ← pyAt (ModalResults.whirl_direction R.shapes) mode
  let f ←
    if frequency_type = "wd" then (pure ("ω<sub>d</sub>", df.wd) : Res (String × ℝ))
    else if frequency_type = "wn" then pure ("ω<sub>n</sub>", df.wn)
    else if frequency_type = "speed" then pure ("Speed", df.speed)
    else .error .keyError
  pure ⟨mode, df.speed, whirlName w, f.1, f.2, df.damping_name, df.damping_value⟩

/-- A unit of length: its name and its factor. -/
structure LengthUnit where
  name : String
  factor : ℝ

/-- `plot_mode_3d` (`results.py` 1118-1224): the traces, the title, and the title of the axis along the rotor. -/
noncomputable def plotMode3d (R : ModalRes) (mode : ℤ) (frequency_type : String) (u : LengthUnit) (up uf : ℝ)
    (damping_parameter : String) : Res (Fig3 × ModeTitle × String) := do
  let df ← dataMode R mode uf damping_parameter
  let shape ← pyAt R.shapes mode
  let f ← plot3d shape u.factor up
  let t ← titleOf R mode frequency_type df
  pure (f, t, "Rotor Length (" ++ u.name ++ ")")

/-- `plot_mode_2d` (`results.py` 1226-1319): `shape.plot_2d` is called with the default units. -/
noncomputable def plotMode2d (R : ModalRes) (mode : ℤ) (orientation frequency_type : String) (u : LengthUnit) (uf : ℝ)
    (damping_parameter : String) : Res (Fig2 × ModeTitle × String) := do
  let df ← dataMode R mode uf damping_parameter
  let shape ← pyAt R.shapes mode
  let f ← plot2d shape orientation 1 1
  let t ← titleOf R mode frequency_type df
  pure (f, t, "Rotor Length (" ++ u.name ++ ")")

/-- `ModalResults.plot_orbit` (`results.py` 1321-1386), with the list of nodes. -/
def plotModeOrbit (R : ModalRes) (mode : ℤ) (nodes : List ℕ) : Res (List OrbitFig) := do
  let shape ← pyAt R.shapes mode
  pure (plotOrbit shape nodes)

/-- The choice of a mode in `UCSResults.plot_mode_2d` and `plot_mode_3d` (`results.py` 5025-5032, 5085-5092); `argmin`
of an empty array is a `ValueError`. -/
noncomputable def nearestForward (R : ModalRes) : Res ℕ :=
  let fwd := ((R.wd.zip (ModalResults.whirl_direction R.shapes)).filter fun p => decide (p.2 = .forward)).map Prod.fst
  if fwd = [] then .error .valueError
  else
    let f := fwd.getD (argmin (fun i => |fwd.getD i 0 - R.speed|) fwd.length) 0
    .ok (argmin (fun i => |R.wd.getD i 0 - f|) R.wd.length)

/-- `UCSResults.plot_mode_2d` (`results.py` 4985-5043). -/
noncomputable def ucsMode2d (critical_points_modal : List ModalRes) (critical_mode : ℤ) (frequency_type : String)
    (u : LengthUnit) (uf : ℝ) : Res (Fig2 × ModeTitle × String) := do
  let R ← pyAt critical_points_modal critical_mode
  let idx ← nearestForward R
  plotMode2d R idx "major" frequency_type u uf "log_dec"

/-- `UCSResults.plot_mode_3d` (`results.py` 5045-5108). -/
noncomputable def ucsMode3d (critical_points_modal : List ModalRes) (critical_mode : ℤ) (frequency_type : String)
    (u : LengthUnit) (uf : ℝ) : Res (Fig3 × ModeTitle × String) := do
  let R ← pyAt critical_points_modal critical_mode
  let idx ← nearestForward R
  plotMode3d R idx frequency_type u 1 uf "log_dec"

end Ross.ModePlots
