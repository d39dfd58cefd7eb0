import Verif.Model.Runs

/-!
# Campbell diagrams drawn

`CampbellResults.plot` and `_plot_with_mode_shape` (`results.py` 1434-1744).  Numbers are real.  Conversion from rad/s to
`frequency_units` is multiplication by a number `u`.  Titles, colours other than that of the damping, and layout are left
out.
-/

namespace Ross

/-- The strings "Forward", "Mixed", "Backward", "Axial" and "Torsional" (`results.py` 1568 and 1575). -/
inductive CampbellLegend
  | forward
  | mixed
  | backward
  | axial
  | torsional
  deriving DecidableEq

namespace CampbellLegend

/-- `whirl_direction`, `results.py` 1566 and 1571. -/
noncomputable def whirl : CampbellLegend → Option ℝ
  | forward => some 0
  | mixed => some (1 / 2)
  | backward => some 1
  | axial => none
  | torsional => none

/-- `mode == legend`. -/
def names : CampbellLegend → ModeType → Bool
  | axial, .axial => true
  | torsional, .torsional => true
  | _, _ => false

/-- `legends`, `results.py` 1568-1575. -/
def all (number_dof : ℕ) : List CampbellLegend :=
  if number_dof = 6 then [forward, mixed, backward, axial, torsional] else [forward, mixed, backward]

end CampbellLegend

/-- What the diagram reads of a `CampbellResults` (`results.py` 1389-1432). -/
structure CampbellData where
  speed_range : List ℝ
  rows : List Rotor.CampbellRow
  /-- `wd.shape[1]`. -/
  num_frequencies : ℕ
  number_dof : ℕ
  /-- `shape.mode_type` of the shapes in the dictionary `modal_results`. -/
  mode_types : List (ℝ × List ModeType)

/-- One frequency at one speed. -/
structure CampbellPoint where
  speed : ℝ
  freq : ℝ
  whirl : ℝ
  damping : ℝ
  type : ModeType

/-- A trace of the figure: crosses, glyphs with their colour, a line, an entry of the legend. -/
inductive CampbellTrace
  | crit (l : List (ℝ × ℝ))
  | glyph (legend : CampbellLegend) (l : List (ℝ × ℝ × ℝ))
  | line (h : ℝ) (l : List (ℝ × ℝ))
  | legend (l : CampbellLegend)

namespace CampbellData

/-- The value that selects `damping_values`, `results.py` 1495-1504. -/
inductive Damping
  | log_dec
  | damping_ratio

/-- `damping_values` of a row, `results.py` 1495-1504. -/
def damping : Damping → Rotor.CampbellRow → List ℝ
  | .log_dec => fun row => row.log_dec
  | .damping_ratio => fun row => row.damping_ratio

/-- `damping_parameter`, `results.py` 1495-1504. -/
def dampingOf (s : String) : Res Damping :=
  if s = "log_dec" then .ok .log_dec else if s = "damping_ratio" then .ok .damping_ratio else .error .valueError

/-- `self.modal_results[j].shapes[i].mode_type`. -/
noncomputable def modeType (d : CampbellData) (j : ℝ) (i : ℕ) : Res ModeType :=
  match d.mode_types.lookup j with
  | none => .error .keyError
  | some l => item l i

/-- `wd[:, i]`. -/
noncomputable def freqs (d : CampbellData) (i : ℕ) : Res (List ℝ) := d.rows.mapM fun row => item row.wd i

/-- `w_i`, `whirl_i`, `damping_values_i` and `mode_shape` at one speed, `results.py` 1579-1585. -/
noncomputable def pointAt (d : CampbellData) (p : Damping) (i : ℕ) (x : ℝ × Rotor.CampbellRow) : Res CampbellPoint := do
  let f ← item x.2.wd i
  let v ← item x.2.whirl_values i
  let z ← item (damping p x.2) i
  let t ← d.modeType x.1 i
  pure ⟨x.1, f, v, z, t⟩

/-- The same at all speeds. -/
noncomputable def column (d : CampbellData) (p : Damping) (i : ℕ) : Res (List CampbellPoint) :=
  (d.speed_range.zip d.rows).mapM (d.pointAt p i)

/-- `range[0] < x < range[1]`, if there is a range. -/
def inside (range : Option (ℝ × ℝ)) (x : ℝ) : Prop :=
  match range with
  | none => True
  | some (a, b) => a < x ∧ x < b

open Classical in
/-- The points that `mask` selects, `results.py` 1586-1605. -/
noncomputable def masked (legends : List CampbellLegend) (frequency_range damping_range : Option (ℝ × ℝ)) (legend : CampbellLegend)
    (l : List CampbellPoint) : List CampbellPoint :=
  if l.any fun p => legend.names p.type then l.filter fun p => legend.names p.type
  else l.filter fun p => decide (legend.whirl = some p.whirl ∧ inside frequency_range p.freq ∧ inside damping_range p.damping ∧
    ¬ legends.any fun m => m.names p.type)

/-- The crossings of one curve with one line, `results.py` 1530-1537. -/
noncomputable def cross (d : CampbellData) (w : List ℝ) (h : ℝ) : Res (List (ℝ × ℝ)) := do
  let x ← Intersection.intersection d.speed_range w d.speed_range (d.speed_range.map fun s => h * s)
  pure (x.1.zip x.2)

/-- The crossings of one curve, `results.py` 1527-1537. -/
noncomputable def crossings (d : CampbellData) (harmonics : List ℝ) (i : ℕ) : Res (List (ℝ × ℝ)) := do
  let w ← d.freqs i
  let l ← harmonics.mapM (d.cross w)
  pure l.flatten

open Classical in
/-- `crit_x` and `crit_y`, `results.py` 1524-1548. -/
noncomputable def critical (d : CampbellData) (harmonics : List ℝ) (frequency_range : Option (ℝ × ℝ)) : Res (List (ℝ × ℝ)) := do
  let l ← (List.range d.num_frequencies).mapM (d.crossings harmonics)
  pure (l.flatten.filter fun p => decide (inside frequency_range p.2))

/-- The trace of critical speeds, `results.py` 1550-1564. -/
noncomputable def critTrace (u : ℝ) (l : List (ℝ × ℝ)) : List CampbellTrace :=
  if l = [] then [] else [.crit (l.map fun p => (u * p.1, u * p.2))]

/-- The trace of one legend and one curve, `results.py` 1607-1625. -/
noncomputable def glyphTrace (u : ℝ) (legend : CampbellLegend) (l : List CampbellPoint) : List CampbellTrace :=
  if l.isEmpty then [] else [.glyph legend (l.map fun p => (u * p.speed, u * p.freq, p.damping))]

/-- The traces of one legend, `results.py` 1577-1625. -/
noncomputable def glyphs (d : CampbellData) (u : ℝ) (frequency_range damping_range : Option (ℝ × ℝ)) (cols : List (List CampbellPoint))
    (legend : CampbellLegend) : List CampbellTrace :=
  cols.flatMap fun l => glyphTrace u legend (masked (CampbellLegend.all d.number_dof) frequency_range damping_range legend l)

/-- The line of a harmonic, `results.py` 1627-1637. -/
noncomputable def lineTrace (d : CampbellData) (u h : ℝ) : CampbellTrace :=
  .line h (d.speed_range.map fun s => (u * s, h * (u * s)))

/-- `CampbellResults.plot`, `results.py` 1495-1677, into a figure with the traces `fig`.  There are ten colours for lines;
the minimum of no speeds and the maximum of no frequencies raise `ValueError`. -/
noncomputable def plot (d : CampbellData) (u : ℝ) (harmonics : List ℝ := [1]) (damping_parameter : String := "log_dec")
    (frequency_range damping_range : Option (ℝ × ℝ) := none) (fig : List CampbellTrace := []) : Res (List CampbellTrace) := do
  let p ← dampingOf damping_parameter
  let crit ← d.critical harmonics frequency_range
  let cols ← (List.range d.num_frequencies).mapM (d.column p)
  if 10 < harmonics.length then .error .indexError
  else if d.speed_range = [] ∨ d.num_frequencies = 0 then .error .valueError
  else .ok (fig ++ critTrace u crit ++ (CampbellLegend.all d.number_dof).flatMap (d.glyphs u frequency_range damping_range cols) ++
    harmonics.map (d.lineTrace u) ++ (CampbellLegend.all d.number_dof).map .legend)

/-- `data[0]["x"]`. -/
def traceX : CampbellTrace → List ℝ
  | .crit l => l.map Prod.fst
  | .glyph _ l => l.map Prod.fst
  | .line _ l => l.map Prod.fst
  | .legend _ => [0]

/-- The speeds at which `_plot_with_mode_shape` runs further modal analyses, `results.py` 1692-1707. -/
noncomputable def extraSpeeds (u : ℝ) (fig : List CampbellTrace) : List ℝ :=
  match fig with
  | [] => []
  | t :: _ => (traceX t).map fun w => w / u

/-- The mode drawn for a click at the frequency `y` of a speed whose modal analysis has the damped frequencies `wd`,
`results.py` 1720-1731. -/
noncomputable def clicked (u : ℝ) (wd : List ℝ) (y : ℝ) : Res ℕ :=
  if wd = [] then .error .valueError else .ok (argmin (fun i => |wd.getD i 0 - y / u|) wd.length)

end CampbellData

end Ross
