import Verif.Model.Static

/-!
# Diagrams of the static analysis

`StaticResults.plot_deformation`, `plot_free_body_diagram`, `plot_shearing_force` and `plot_bending_moment`
(`results.py` 3819-4178), with the results as `run_static` hands them over (`rotor_assembly.py` 3273-3297).  Conversion to
the units asked for is multiplication by a number.  Left out: centre lines, the two lines and the arrows that stand for the
distributed weight of the shaft, titles, layout, and the format of the numbers.
-/

namespace Ross

/-- What an arrow stands for: its color and the letters of its text, `results.py` 3994-4000 and 4020-4026. -/
inductive ArrowKind
  | bearing
  | disk
  deriving DecidableEq

/-- An arrow with a text. -/
structure Arrow where
  kind : ArrowKind
  /-- `x` and `ax`. -/
  x : ℝ
  /-- `y`, where it points to. -/
  head : ℝ
  /-- `ay`, where it begins. -/
  tail : ℝ
  /-- The number in the text. -/
  value : ℝ

/-- The free-body diagram: the number in the text for the shaft, and the arrows. -/
structure FreeBody where
  weight : ℝ
  arrows : List Arrow

namespace StaticPlot

/-- `y_start`, `results.py` 3921. -/
noncomputable def y_start : ℝ := 5

/-- `vx.flatten()` and its like, `rotor_assembly.py` 3274-3276. -/
def flatten (l : List (ℝ × ℝ)) : List ℝ := l.flatMap fun p => [p.1, p.2]

/-- The points of a line, when both lists have the same length. -/
noncomputable def curve (x y : List ℝ) (ux uy : ℝ) : List (ℝ × ℝ) := (x.map (· * ux)).zip (y.map (· * uy))

variable (r : Rotor) (st : StaticResults)

/-- The shaft in `plot_deformation`, `results.py` 3865-3872. -/
noncomputable def deformation (uL uD : ℝ) : List (ℝ × ℝ) := curve r.nodes_pos st.displacement_y uL uD

/-- The shaft in `plot_shearing_force`, `results.py` 4092-4096. -/
noncomputable def shearing (uL uF : ℝ) : List (ℝ × ℝ) := curve (flatten st.vx_axis) (flatten st.vx) uL uF

/-- The shaft in `plot_bending_moment`, `results.py` 4157-4161. -/
noncomputable def bending (uL uM : ℝ) : List (ℝ × ℝ) := curve (flatten st.vx_axis) (flatten st.mx) uL uM

open Classical in
/-- The arrow for a reaction, `results.py` 3983-4005; `nodes` are the numbers of the entries of `nodes_pos`. -/
noncomputable def bearingArrow (uL uF : ℝ) (p : ℕ × ℝ) : List Arrow :=
  match r.nodes_pos[p.1]? with
  | some z => [⟨.bearing, z * uL, 0, (if p.2 < 0 then 1 else -1) * 2.5 * y_start, p.2 * uF⟩]
  | none => []

/-- The arrow for a disk, `results.py` 4008-4032. -/
noncomputable def diskArrow (uL uF : ℝ) (p : ℕ × ℝ) : List Arrow :=
  match r.nodes_pos[p.1]? with
  | some z => [⟨.disk, z * uL, 0, 2.5 * y_start, -(p.2 * uF)⟩]
  | none => []

/-- `plot_free_body_diagram`, `results.py` 3917-4045: the loop over the disks is inside that over the bearings. -/
noncomputable def freeBody (uL uF : ℝ) : FreeBody where
  weight := st.w_shaft * uF
  arrows := st.bearing_forces_nodal.flatMap fun p =>
    bearingArrow r uL uF p ++ st.disk_forces_nodal.flatMap (diskArrow r uL uF)

end StaticPlot

end Ross
