import Verif.Model.CampbellPlot
import Verif.Spec.Intersection

/-! # Specification: what is seen of a Campbell diagram -/

namespace Ross.Spec

open Ross

/-- The kind of a mode: axial and torsional modes are such; other modes go by their whirl, which is `0` forward, `1`
backward and `1 / 2` mixed. -/
noncomputable def kind (whirl : ℝ) (t : ModeType) : Option CampbellLegend :=
  open Classical in
  match t with
  | .axial => some .axial
  | .torsional => some .torsional
  | .lateral =>
    if whirl = 0 then some .forward else if whirl = 1 then some .backward else if whirl = 1 / 2 then some .mixed else none

/-- The number is strictly within the range, if one is given. -/
def Within (range : Option (ℝ × ℝ)) (x : ℝ) : Prop := ∀ a b, range = some (a, b) → a < x ∧ x < b

/-- All glyphs drawn with a legend: speed, frequency and damping. -/
def glyphsOf (L : CampbellLegend) (fig : List CampbellTrace) : List (ℝ × ℝ × ℝ) :=
  fig.flatMap fun
    | .glyph L' l => if L' = L then l else []
    | _ => []

/-- All crosses. -/
def crosses (fig : List CampbellTrace) : List (ℝ × ℝ) :=
  fig.flatMap fun
    | .crit l => l
    | _ => []

/-- All lines. -/
def linesOf (fig : List CampbellTrace) : List (ℝ × List (ℝ × ℝ)) :=
  fig.filterMap fun
    | .line h l => some (h, l)
    | _ => none

/-- The frequency number `i` at the speed `w` of a diagram has this damping, whirl and type. -/
structure Computed (d : CampbellData) (z : CampbellData.Damping) (k i : ℕ) (p : CampbellPoint) : Prop where
  speed : d.speed_range[k]? = some p.speed
  row : ∃ row, d.rows[k]? = some row ∧ row.wd[i]? = some p.freq ∧ row.whirl_values[i]? = some p.whirl ∧
    (match z with | .log_dec => row.log_dec | .damping_ratio => row.damping_ratio)[i]? = some p.damping
  type : ∃ l, d.mode_types.lookup p.speed = some l ∧ l[i]? = some p.type

/-- The curves of a diagram: one for each frequency, with a point for each speed. -/
structure Curves (d : CampbellData) (z : CampbellData.Damping) (T : List (List CampbellPoint)) : Prop where
  length : T.length = d.num_frequencies
  points : ∀ l ∈ T, l.length = d.speed_range.length
  computed : ∀ (i : ℕ) l, T[i]? = some l → ∀ (k : ℕ) p, l[k]? = some p → Computed d z k i p

/-- The name of a damping parameter. -/
def dampingName : CampbellData.Damping → String
  | .log_dec => "log_dec"
  | .damping_ratio => "damping_ratio"

/-- The diagram has a row for each speed, whose entries are there, and the shapes of each speed. -/
structure FullDiagram (d : CampbellData) : Prop where
  rows : d.rows.length = d.speed_range.length
  wd : ∀ row ∈ d.rows, row.wd.length = d.num_frequencies
  log_dec : ∀ row ∈ d.rows, row.log_dec.length = d.num_frequencies
  damping_ratio : ∀ row ∈ d.rows, row.damping_ratio.length = d.num_frequencies
  whirl : ∀ row ∈ d.rows, row.whirl_values.length = d.num_frequencies
  types : ∀ w ∈ d.speed_range, ∃ l, d.mode_types.lookup w = some l ∧ d.num_frequencies ≤ l.length

end Ross.Spec
