import Verif.Model.StRotor
import Verif.Model.FreqPlot
import Verif.Model.Deflected

/-!
# Model of the plots of random results

`stochastic/st_results.py`: `ST_CampbellResults.plot_nat_freq` (211-292) and `plot_log_dec` (323-384),
`ST_FrequencyResponseResults.plot_magnitude` (535-611), `plot_phase` (663-740) and `plot_polar_bode` (795-897),
`ST_TimeResponseResults.plot_1d` (1124-1203), `plot_2d` (1247-1320) and `plot_3d` (1361-1467),
`ST_ForcedResponseResults.plot_magnitude` (1695-1785) and `plot_phase` (1850-1930).

The coordinates of the curves, in the order in which they are added; names, axes and layout are left out, colors are
only looked up.  Units are factors.  The palettes `Dark24` and `Light24` have 24 colors and `tableau_colors` 10.
-/

namespace Ross.Stochastic

open Ross.Rotor

/-- `x` and `y` of `go.Scatter`, or `r` and `theta` of `go.Scatterpolar`. -/
structure Curve where
  x : List ℝ
  y : List ℝ

/-- The curves that are added for one quantity. -/
structure StFigure (γ : Type) where
  mean : γ
  percentiles : List γ
  bands : List γ

/-- `np.sort`. -/
noncomputable def npSort (l : List ℝ) : List ℝ := l.mergeSort (fun a b => decide (a ≤ b))

/-- `np.percentile(a, q, axis)`: `rows` has the samples at every point of the other axis. -/
noncomputable def percentileRows (rows : List (List ℝ)) (q : ℝ) : Res (List ℝ) := rows.mapM (percentile · q)

/-- `np.mean(a, axis)`. -/
noncomputable def meanRows (rows : List (List ℝ)) : List ℝ := rows.map mean

/-- `np.concatenate((p1, p2[::-1]))` for a confidence interval (`st_results.py` 593-599). -/
noncomputable def bandRows (rows : List (List ℝ)) (p : ℝ) : Res (List ℝ) := do
  let p1 ← percentileRows rows (50 + p / 2)
  let p2 ← percentileRows rows (50 - p / 2)
  pure (p1 ++ p2.reverse)

/-- `palette[i]`; `none` when no color is asked for. -/
def hue (palette : Option ℕ) (i : ℕ) : Res Unit :=
  match palette with
  | none => .ok ()
  | some n => if i < n then .ok () else .error .indexError

/-- The loops over `enumerate(np.sort(percentile))`, `enumerate(np.sort(conf_interval))`: the data come before the
color in the call. -/
def forEach {γ : Type} (palette : Option ℕ) (curve : ℝ → Res γ) (ps : List ℝ) : Res (List γ) :=
  ps.zipIdx.mapM fun q => do
    let c ← curve q.1
    hue palette q.2
    pure c

/-- A mean, percentiles and confidence intervals against `x` (`st_results.py` 561-611, 689-740): `f` converts the
ordinates, and `kp`, `kc` are the colors. -/
noncomputable def statFigure (kp kc : Option ℕ) (x : List ℝ) (f : ℝ) (rows : List (List ℝ))
    (percentile conf : List ℝ) : Res (StFigure Curve) := do
  let ps ← forEach kp (fun p => do
    let y ← percentileRows rows p
    pure ⟨x, y.map (f * ·)⟩) (npSort percentile)
  let bs ← forEach kc (fun p => do
    let y ← bandRows rows p
    pure ⟨x ++ x.reverse, y.map (f * ·)⟩) (npSort conf)
  pure ⟨⟨x, (meanRows rows).map (f * ·)⟩, ps, bs⟩

/-- A mean, percentiles and confidence intervals of two coordinates (`st_results.py` 835-884, 1258-1313). -/
noncomputable def statPair (kp kc : Option ℕ) (fx fy : ℝ) (rx ry : List (List ℝ)) (percentile conf : List ℝ) :
    Res (StFigure Curve) := do
  let ps ← forEach kp (fun p => do
    let p1 ← percentileRows rx p
    let p2 ← percentileRows ry p
    pure ⟨p1.map (fx * ·), p2.map (fy * ·)⟩) (npSort percentile)
  let bs ← forEach kc (fun p => do
    let b1 ← bandRows rx p
    let b2 ← bandRows ry p
    pure ⟨b1.map (fx * ·), b2.map (fy * ·)⟩) (npSort conf)
  pure ⟨⟨(meanRows rx).map (fx * ·), (meanRows ry).map (fy * ·)⟩, ps, bs⟩

/-- The samples at every point of the second axis of an array whose first axis is the sample. -/
def axis0 {α : Type} (n : ℕ) (samples : List (List α)) : List (List α) :=
  (List.range n).map fun i => samples.filterMap (·[i]?)

/-! ### Campbell diagrams -/

/-- `ST_CampbellResults`: `wd` and `log_dec` by mode, speed and sample (`st_results.py` 175-178). -/
structure StCampbell where
  speed_range : List ℝ
  wd : List (List (List ℝ))
  log_dec : List (List (List ℝ))

/-- The figure of every mode (`st_results.py` 231-278, 343-380): its color is looked up with the mean. -/
noncomputable def modeFigures (x : List ℝ) (modes : List (List (List ℝ))) (percentile conf : List ℝ) :
    Res (List (StFigure Curve)) :=
  modes.zipIdx.mapM fun m => do
    hue (some 24) m.2
    statFigure none none x 1 m.1 percentile conf

/-- `plot_nat_freq` (`st_results.py` 211-278): the lines of the harmonics, and the figures of the modes. -/
noncomputable def stNatFreq (c : StCampbell) (u : ℝ) (percentile conf harmonics : List ℝ) :
    Res (List Curve × List (StFigure Curve)) := do
  let wd := c.wd.map fun m => m.map fun s => s.map (u * ·)
  let speed_range := c.speed_range.map (u * ·)
  let hs ← forEach (some 24) (fun h => pure ⟨speed_range, speed_range.map (· * h)⟩) harmonics
  let fs ← modeFigures speed_range wd percentile conf
  pure (hs, fs)

/-- `plot_log_dec` (`st_results.py` 323-380). -/
noncomputable def stLogDec (c : StCampbell) (u : ℝ) (percentile conf : List ℝ) : Res (List (StFigure Curve)) :=
  modeFigures (c.speed_range.map (u * ·)) c.log_dec percentile conf

/-! ### Frequency responses -/

/-- `ST_FrequencyResponseResults`: responses by frequency and sample. -/
structure StFreqResp where
  speed_range : List ℝ
  freq_resp : List (List ℂ)
  velc_resp : List (List ℂ)
  accl_resp : List (List ℂ)

/-- The response that has the dimension of `amplitude_units` (`st_results.py` 541-557). -/
def StFreqResp.get (s : StFreqResp) : Option RespKind → Res (List (List ℂ))
  | none => .error .valueError
  | some .displacement => .ok s.freq_resp
  | some .velocity => .ok s.velc_resp
  | some .acceleration => .ok s.accl_resp

/-- `plot_magnitude` (`st_results.py` 535-603). -/
noncomputable def stFreqMagnitude (s : StFreqResp) (u : ℝ) (amp : AmpUnits) (percentile conf : List ℝ) :
    Res (StFigure Curve) := do
  let resp ← s.get amp.kind
  let mag := resp.map fun l => l.map fun z => amp.factor * ‖z‖
  statFigure (some 24) (some 24) (s.speed_range.map (u * ·)) 1 mag percentile conf

/-- `plot_phase` (`st_results.py` 667-731). -/
noncomputable def stFreqPhase (s : StFreqResp) (u : ℝ) (amp : AmpUnits) (ph : PhaseUnits) (percentile conf : List ℝ) :
    Res (StFigure Curve) := do
  let resp ← s.get amp.kind
  let phase := resp.map fun l => l.map fun z => ph.factor * Complex.arg z
  statFigure (some 24) (some 24) (s.speed_range.map (u * ·)) 1 phase percentile conf

/-- A polar diagram: radii and angles, `thetaunit` of the curves and of the axis (true for radians). -/
structure PolarFigure where
  fig : StFigure Curve
  traces_radian : Bool
  axis_radian : Bool

/-- `plot_polar_bode` (`st_results.py` 795-897). -/
noncomputable def stFreqPolar (s : StFreqResp) (amp : AmpUnits) (ph : PhaseUnits) (percentile conf : List ℝ) :
    Res PolarFigure := do
  let resp ← s.get amp.kind
  let mag := resp.map fun l => l.map fun z => amp.factor * ‖z‖
  let phase := resp.map fun l => l.map fun z => ph.factor * Complex.arg z
  let fig ← statPair (some 24) (some 24) 1 1 mag phase percentile conf
  pure ⟨fig, true, ph.radian⟩

/-! ### Time responses -/

variable (r : Rotor)

/-- `probe_resp` of one sample (`st_results.py` 1135-1156). -/
noncomputable def stProbe (y : List (Fin r.ndof → ℝ)) (node : ℕ) (angle : ℝ) : Res (List ℝ) := do
  let x ← column y (r.readDof node 0)
  let y ← column y (r.readDof node 1)
  pure (project angle x y)

/-- `plot_1d` (`st_results.py` 1124-1203): node and angle in radians of the probes; `ut`, `ud` convert times and
displacements.  The instants of the responses are those of `t`. -/
noncomputable def stTime1d (t : List ℝ) (yout : List (List (Fin r.ndof → ℝ))) (ut ud : ℝ) (probe : List (ℕ × ℝ))
    (percentile conf : List ℝ) : Res (List (StFigure Curve)) :=
  probe.mapM fun p => do
    let resp ← yout.mapM fun y => stProbe r y p.1 p.2
    statFigure none (some 24) (t.map (ut * ·)) ud (axis0 t.length resp) percentile conf

/-- `plot_2d` (`st_results.py` 1247-1313), for `n` instants. -/
noncomputable def stTime2d (n : ℕ) (yout : List (List (Fin r.ndof → ℝ))) (ud : ℝ) (node : ℕ)
    (percentile conf : List ℝ) : Res (StFigure Curve) := do
  let x ← yout.mapM fun y => column y (r.readDof node 0)
  let y ← yout.mapM fun y => column y (r.readDof node 1)
  statPair (some 24) (some 24) ud ud (axis0 n x) (axis0 n y) percentile conf

/-- `x`, `y` and `z` of `go.Scatter3d`. -/
structure Curve3 where
  pos : List ℝ
  x : List ℝ
  y : List ℝ

/-- The curves of a node in `plot_3d` (`st_results.py` 1381-1458): two for every confidence interval. -/
structure Figure3 where
  mean : Curve3
  percentiles : List Curve3
  bands : List (Curve3 × Curve3)

/-- A node in `plot_3d` (`st_results.py` 1381-1458); the positions of the second curve of a confidence interval are not
converted (1446). -/
noncomputable def stNode3d (n : ℕ) (yout : List (List (Fin r.ndof → ℝ))) (ud ul : ℝ) (node : ℕ)
    (percentile conf : List ℝ) : Res Figure3 := do
  let x ← yout.mapM fun y => column y ((r.number_dof : ℤ) * node)
  let y ← yout.mapM fun y => column y ((r.number_dof : ℤ) * node + 1)
  let pos ← match r.nodes_pos[node]? with
    | none => .error .indexError
    | some z => .ok (List.replicate n z)
  let rx := axis0 n x
  let ry := axis0 n y
  let ps ← forEach (some 24) (fun p => do
    let p1 ← percentileRows rx p
    let p2 ← percentileRows ry p
    pure (⟨pos.map (ul * ·), p1.map (ud * ·), p2.map (ud * ·)⟩ : Curve3)) (npSort percentile)
  let bs ← forEach (some 24) (fun p => do
    let p1 ← percentileRows rx (50 + p / 2)
    let p2 ← percentileRows rx (50 - p / 2)
    let p3 ← percentileRows ry (50 + p / 2)
    let p4 ← percentileRows ry (50 - p / 2)
    pure ((⟨pos.map (ul * ·), p1.map (ud * ·), p3.map (ud * ·)⟩, ⟨pos, p2.map (ud * ·), p4.map (ud * ·)⟩) :
      Curve3 × Curve3)) (npSort conf)
  pure ⟨⟨pos.map (ul * ·), (meanRows rx).map (ud * ·), (meanRows ry).map (ud * ·)⟩, ps, bs⟩

/-- `plot_3d` (`st_results.py` 1361-1458): the center line, and the curves of the nodes of the shaft. -/
noncomputable def stTime3d (n : ℕ) (yout : List (List (Fin r.ndof → ℝ))) (ud ul : ℝ) (percentile conf : List ℝ) :
    Res (Curve3 × List Figure3) := do
  let line := List.replicate r.nodes_pos.length 0
  let fs ← (List.range r.nodes_pos.length).mapM fun node => stNode3d r n yout ud ul node percentile conf
  pure (⟨r.nodes_pos.map (ul * ·), line, line⟩, fs)

/-! ### Forced responses -/

/-- `_calculate_major_axis_per_node` of every sample (`st_results.py` 1543-1636). -/
noncomputable def stAxes (resp : List (List (ForcedResp r.ndof))) (kind : Option RespKind) (node : ℕ) (angle : ℝ) :
    Res (List (List AxisRow)) :=
  match kind with
  | none => .error .valueError
  | some k => resp.mapM fun s => r.majorAxisPerNode (s.map fun v => v.get k) node (.at angle)

/-- The colors that are left for the probe `i`: `color_p` and `color_i` go on from probe to probe
(`st_results.py` 1713-1714, 1760, 1785). -/
def coloursLeft (i n : ℕ) : Option ℕ := some (24 - i * n)

/-- `plot_magnitude` (`st_results.py` 1695-1785): node and angle in radians of the probes. -/
noncomputable def stForcedMagnitude (freq : List ℝ) (resp : List (List (ForcedResp r.ndof))) (uf : ℝ) (amp : AmpUnits)
    (probe : List (ℕ × ℝ)) (percentile conf : List ℝ) : Res (List (StFigure Curve)) :=
  if amp.kind = none then .error .valueError
  else probe.zipIdx.mapM fun p => do
    let rows ← stAxes r resp amp.kind p.1.1 p.1.2
    hue (some 10) p.2
    statFigure (coloursLeft p.2 percentile.length) (coloursLeft p.2 conf.length) (freq.map (uf * ·)) amp.factor
      (axis0 freq.length (rows.map fun l => l.map fun a => |a.amplitude|)) percentile conf

/-- `plot_phase` (`st_results.py` 1850-1930). -/
noncomputable def stForcedPhase (freq : List ℝ) (resp : List (List (ForcedResp r.ndof))) (uf : ℝ) (amp : AmpUnits)
    (ph : PhaseUnits) (probe : List (ℕ × ℝ)) (percentile conf : List ℝ) : Res (List (StFigure Curve)) :=
  probe.zipIdx.mapM fun p => do
    let rows ← stAxes r resp amp.kind p.1.1 p.1.2
    hue (some 10) p.2
    statFigure (coloursLeft p.2 percentile.length) (coloursLeft p.2 conf.length) (freq.map (uf * ·)) 1
      (axis0 freq.length (rows.map fun l => l.map fun a => ph.factor * a.phase)) percentile conf

end Ross.Stochastic
