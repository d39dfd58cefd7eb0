import Verif.Model.Readout
import Verif.Model.StPlots

/-!
# Model of the tables and figures of forced and time responses

`probe.py` 72-86 (`Probe.get_label`) and `results.py`: `ForcedResponseResults.data_magnitude` (2371-2459) and
`data_phase` (2461-2556) with the names of their columns, `plot_magnitude` (2558-2630), `plot_phase` (2632-2709),
`plot_bode` (2711-2792) and `plot_polar_bode` (2794-2903); `TimeResponseResults.data_time_response` (4521-4610) with
its units, `plot_1d` (4612-4678), `plot_2d` (4680-4737) and `plot_3d` (4739-4819).

What is read at a node is `Model/Readout.lean`.  Units are factors; names and coordinates of the curves are kept,
layout is left out, and colors are only looked up.  There is one response for each speed.
-/

namespace Ross.RespPlots

open Ross.Rotor Ross.Stochastic

/-- `Probe.get_label(id)` (`probe.py` 72-86); `deg` writes an angle in degrees without decimals. -/
def getLabel (deg : ℝ → String) (p : Probe) (id : ℕ) : String :=
  "Probe " ++ toString id ++ (" - Node " ++ toString p.node ++ " " ++
    if p.direction = "radial" then
      match p.angle with
      | some a => "(" ++ deg a ++ "°)"
      | none => "(None)"
    else "(axial direction)")

/-- `p.tag or p.get_label(i + 1)` (`results.py` 2426, 2521, 4560): an empty tag is no tag. -/
def probeTag (deg : ℝ → String) (p : Probe) (i : ℕ) : String :=
  match p.tag with
  | none => getLabel deg p (i + 1)
  | some t => if t = "" then getLabel deg p (i + 1) else t

section

variable (r : Rotor) (la : Lapack) (deg : ℝ → String)

/-- The loop over the probes of `data_magnitude` and `data_phase` (`results.py` 2422-2457, 2517-2552): `f` takes the
amplitude or the phase, in its unit. -/
noncomputable def addColumns (resp : List (Fin r.ndof → ℂ)) (f : ℝ × ℝ → ℝ) :
    List (Probe × ℕ) → Dict String (List ℝ) → Res (Dict String (List ℝ))
  | [], d => .ok d
  | (p, i) :: l, d =>
    match r.probeAmplitude la resp p with
    | .error e => .error e
    | .ok none => addColumns resp f l d
    | .ok (some c) => addColumns resp f l (Dict.set d (probeTag deg p i) (c.map f))

/-- `data["frequency"]`, and the columns of the probes (`results.py` 2408-2459, 2503-2556). -/
noncomputable def forcedTable (speed_range : List ℝ) (uf : ℝ) (resp : List (Fin r.ndof → ℂ)) (f : ℝ × ℝ → ℝ)
    (probe : List Probe) : Res (Dict String (List ℝ)) :=
  addColumns r la deg resp f probe.zipIdx (Dict.set [] "frequency" (speed_range.map (uf * ·)))

/-- `data_magnitude` (`results.py` 2371-2459). -/
noncomputable def magnitudeTable (speed_range : List ℝ) (uf ua : ℝ) (resp : List (ForcedResp r.ndof)) (kind : RespKind)
    (probe : List Probe) : Res (Dict String (List ℝ)) :=
  forcedTable r la deg speed_range uf (resp.map fun x => x.get kind) (fun c => ua * c.1) probe

/-- `data_phase` (`results.py` 2461-2556). -/
noncomputable def phaseTable (speed_range : List ℝ) (uf up : ℝ) (resp : List (ForcedResp r.ndof)) (kind : RespKind)
    (probe : List Probe) : Res (Dict String (List ℝ)) :=
  forcedTable r la deg speed_range uf (resp.map fun x => x.get kind) (fun c => up * c.2) probe

/-- `df[column]`. -/
def colOf (t : Dict String (List ℝ)) (k : String) : Res (List ℝ) :=
  match Dict.get? t k with
  | none => .error .keyError
  | some c => .ok c

/-- The loop over `enumerate(df.columns[1:])` (`results.py` 2607-2620, 2688-2701). -/
def tableFigure (t : Dict String (List ℝ)) : Res (List (String × Curve)) :=
  (Dict.keys t).tail.zipIdx.mapM fun q => do
    let x ← colOf t "frequency"
    let y ← colOf t q.1
    hue (some 10) q.2
    pure (q.1, (⟨x, y⟩ : Curve))

/-- `plot_magnitude` (`results.py` 2602-2620). -/
noncomputable def plotMagnitude (speed_range : List ℝ) (uf ua : ℝ) (resp : List (ForcedResp r.ndof)) (kind : RespKind)
    (probe : List Probe) : Res (List (String × Curve)) := do
  let df ← magnitudeTable r la deg speed_range uf ua resp kind probe
  tableFigure df

/-- `plot_phase` (`results.py` 2681-2701). -/
noncomputable def plotPhase (speed_range : List ℝ) (uf up : ℝ) (resp : List (ForcedResp r.ndof)) (kind : RespKind)
    (probe : List Probe) : Res (List (String × Curve)) := do
  let df ← phaseTable r la deg speed_range uf up resp kind probe
  tableFigure df

/-- `plot_bode` (`results.py` 2756-2792): the first and the second row. -/
noncomputable def plotBode (speed_range : List ℝ) (uf ua up : ℝ) (resp : List (ForcedResp r.ndof)) (kind : RespKind)
    (probe : List Probe) : Res (List (String × Curve) × List (String × Curve)) := do
  let fig0 ← plotMagnitude r la deg speed_range uf ua resp kind probe
  let fig1 ← plotPhase r la deg speed_range uf up resp kind probe
  pure (fig0, fig1)

/-- `polar_theta_unit` (`results.py` 2855-2858); without a value its use is an `UnboundLocalError`. -/
def thetaUnit (phase_units : String) : Res String :=
  if phase_units ∈ ["rad", "radian", "radians"] then .ok "radians"
  else if phase_units ∈ ["degree", "degrees", "deg"] then .ok "degrees"
  else .error .nameError

/-- `r`, `theta`, `customdata` and `thetaunit` of `go.Scatterpolar`. -/
structure PolarCurve where
  r : List ℝ
  theta : List ℝ
  frequency : List ℝ
  thetaunit : String

/-- `plot_polar_bode` (`results.py` 2847-2902); `conv` is the factor from radians to a unit.  `polar_theta_unit` is
also used in the layout, after the loop. -/
noncomputable def plotPolarBode (conv : String → ℝ) (speed_range : List ℝ) (uf ua : ℝ) (phase_units : String)
    (resp : List (ForcedResp r.ndof)) (kind : RespKind) (probe : List Probe) : Res (List (String × PolarCurve)) := do
  let df_m ← magnitudeTable r la deg speed_range uf ua resp kind probe
  let df_p ← phaseTable r la deg speed_range uf (conv phase_units) resp kind probe
  let fig ← (Dict.keys df_m).tail.zipIdx.mapM fun q => do
    let a ← colOf df_m q.1
    let t ← colOf df_p q.1
    let f ← colOf df_m "frequency"
    let u ← thetaUnit phase_units
    hue (some 10) q.2
    pure (q.1, (⟨a, t, f, u⟩ : PolarCurve))
  let _ ← thetaUnit phase_units
  pure fig

/-! ### Time responses -/

/-- `data_time_response` (`results.py` 4549-4608): `probe_tag[i]` and `probe_resp[i]` of every probe that is not
skipped, and `time`. -/
noncomputable def timeTable (t : List ℝ) (yout : List (Fin r.ndof → ℝ)) (ud ut : ℝ) (probe : List Probe) :
    Res (List (Option (String × List ℝ)) × List ℝ) := do
  let rows ← probe.zipIdx.mapM fun q => do
    let c ← r.probeResp yout q.1
    pure (c.map fun c => (probeTag deg q.1 q.2, c.map (ud * ·)))
  pure (rows, t.map (ut * ·))

/-- One round of `plot_1d` (`results.py` 4656-4674): `values[0]` of a table without rows is an `IndexError`, and a
missing column a `KeyError` that is caught.  The responses are converted again. -/
noncomputable def timeCurve (ud : ℝ) (time : List ℝ) : Option (String × List ℝ) → Res (Option (String × Curve))
  | none => .ok none
  | some (tag, c) => if time = [] then .error .indexError else .ok (some (tag, ⟨time, c.map (ud * ·)⟩))

/-- `plot_1d` (`results.py` 4649-4676). -/
noncomputable def plot1d (t : List ℝ) (yout : List (Fin r.ndof → ℝ)) (ud ut : ℝ) (probe : List Probe) :
    Res (List (String × Curve)) := do
  let df ← timeTable r deg t yout ud ut probe
  let cs ← df.1.mapM (timeCurve ud df.2)
  pure (cs.filterMap id)

/-- `plot_2d` (`results.py` 4706-4730). -/
noncomputable def plot2d (yout : List (Fin r.ndof → ℝ)) (ud : ℝ) (node : ℕ) : Res Curve := do
  let o ← r.orbit2d yout node
  pure ⟨o.1.map (ud * ·), o.2.map (ud * ·)⟩

/-- A node of `plot_3d` (`results.py` 4768-4790). -/
noncomputable def node3d (yout : List (Fin r.ndof → ℝ)) (ud ul : ℝ) (n : ℕ) : Res Curve3 :=
  match r.nodes_pos[n]? with
  | none => .error .indexError
  | some z => do
    let x ← column yout (r.number_dof * n : ℕ)
    let y ← column yout (r.number_dof * n + 1 : ℕ)
    pure ⟨(List.replicate yout.length z).map (ul * ·), x.map (ud * ·), y.map (ud * ·)⟩

/-- `plot_3d` (`results.py` 4762-4805): the nodes, and the center line. -/
noncomputable def plot3d (yout : List (Fin r.ndof → ℝ)) (ud ul : ℝ) : Res (List Curve3 × Curve3) := do
  let cs ← (List.range r.nodes_pos.length).mapM (node3d r yout ud ul)
  let line := List.replicate r.nodes_pos.length 0
  pure (cs, ⟨r.nodes_pos.map (ul * ·), line, line⟩)

end

end Ross.RespPlots
