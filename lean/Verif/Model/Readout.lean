import Verif.Model.Orbit
import Verif.Model.Probe
import Verif.Model.TimeResponse

/-!
# What the results of forced and time responses report at a node

`results.py` 2408-2560 (`data_magnitude`, `data_phase`), 3005-3106 and
`stochastic/st_results.py` 1543-1636 (`_calculate_major_axis_per_node`), 3200-3257
(`_calculate_bending_moment`), 4521-4610 (`data_time_response`), 4680-4737 (`plot_2d`).  Probes are `Probe`
objects; the deprecated tuples, the labels of the probes and the units of the columns are not modelled.
-/

namespace Ross

/-- `"[length]"`, `"[length] / [time]"`, `"[length] / [time] ** 2"`: the keys of `default_units`
(`results.py` 2365-2369). -/
inductive RespKind
  | displacement
  | velocity
  | acceleration

/-- `getattr(self, self.default_units[unit_type][1])` (`results.py` 2414). -/
def Rotor.ForcedResp.get {N : ℕ} (x : Rotor.ForcedResp N) : RespKind → Fin N → ℂ
  | .displacement => x.forced_resp
  | .velocity => x.velc_resp
  | .acceleration => x.accl_resp

namespace Rotor

variable (r : Rotor)

/-- `fix_dof` (`results.py` 3058, 4585, 4710): `nodes[-1]` is one less than the number of positions, and `//`
rounds down. -/
def fixDof (node : ℕ) : ℤ :=
  if node ∈ r.link_nodes then
    ((node : ℤ) - ((r.nodes_pos.length : ℤ) - 1) - 1) * (r.number_dof : ℤ) / 2
  else 0

/-- `ndof * node + k - fix_dof` (`results.py` 4588-4589, 4601). -/
def readDof (node : ℕ) (k : ℕ) : ℤ := (r.number_dof : ℤ) * node + k - r.fixDof node

/-- `yout[:, k]`; the index is checked even when there are no rows. -/
def column {N : ℕ} {α : Type} (yout : List (Fin N → α)) (k : ℤ) : Res (List α) :=
  match wrap N k with
  | .error e => .error e
  | .ok i => .ok (yout.filterMap fun y => if h : i < N then some (y ⟨i, h⟩) else none)

/-- `operator @ np.vstack((x, y))`, first row (`results.py` 4590-4597). -/
noncomputable def project (angle : ℝ) (x y : List ℝ) : List ℝ :=
  List.zipWith (fun x y => Real.cos angle * x + Real.sin angle * y) x y

/-- One probe of `data_time_response` (`results.py` 4553-4604): `none` when the probe is skipped.
`np.cos(None)` is a `TypeError`. -/
noncomputable def probeResp (yout : List (Fin r.ndof → ℝ)) (p : Probe) : Res (Option (List ℝ)) :=
  if p.direction = "axial" ∧ r.number_dof ≠ 6 then .ok none
  else if p.direction = "axial" then
    match column yout (r.readDof p.node 2) with
    | .error e => .error e
    | .ok z => .ok (some z)
  else
    match p.angle with
    | none => .error .typeError
    | some a =>
      match column yout (r.readDof p.node 0), column yout (r.readDof p.node 1) with
      | .ok x, .ok y => .ok (some (project a x y))
      | .error e, _ => .error e
      | _, .error e => .error e

/-- `data_time_response` (`results.py` 4521-4610): the columns of the probes, and the times. -/
noncomputable def data_time_response (t : List ℝ) (yout : List (Fin r.ndof → ℝ)) (probe : List Probe) :
    Res (List (Option (List ℝ)) × List ℝ) :=
  match probe.mapM (r.probeResp yout) with
  | .error e => .error e
  | .ok l => .ok (l, t)

/-- The curve of `plot_2d` (`results.py` 4710-4722). -/
def orbit2d (yout : List (Fin r.ndof → ℝ)) (node : ℕ) : Res (List ℝ × List ℝ) :=
  match column yout (r.readDof node 0), column yout (r.readDof node 1) with
  | .ok x, .ok y => .ok (x, y)
  | .error e, _ => .error e
  | _, .error e => .error e

/-- `v[k : k + 2]`. -/
def slice2 {N : ℕ} (v : Fin N → ℂ) (k : ℕ) : List ℂ := ((List.ofFn v).drop k).take 2

/-- The orbit of a node at one frequency (`results.py` 2446-2451): `ru_e, rv_e = …` is a `ValueError` unless the
slice has two entries, and `nodes_pos[node]` may be an `IndexError`. -/
noncomputable def nodeOrbitAt (la : Lapack) (v : Fin r.ndof → ℂ) (node : ℕ) : Res Orbit :=
  match slice2 v (r.number_dof * node) with
  | [ru_e, rv_e] =>
    match r.nodes_pos[node]? with
    | none => .error .indexError
    | some z => .ok (Orbit.init la node z ru_e rv_e)
  | _ => .error .valueError

/-- Amplitude and phase of a node at one frequency (`results.py` 2446-2453); `x - None` is a `TypeError`. -/
noncomputable def amplitudeAt (la : Lapack) (p : Probe) (v : Fin r.ndof → ℂ) : Res (ℝ × ℝ) :=
  match r.nodeOrbitAt la v p.node, p.angle with
  | .error e, _ => .error e
  | .ok _, none => .error .typeError
  | .ok o, some a => .ok (o.calculate_amplitude (.at a))

/-- One probe of `data_magnitude` and `data_phase` (`results.py` 2422-2457, 2517-2552): amplitude and phase for
each frequency, `none` when the probe is skipped. -/
noncomputable def probeAmplitude (la : Lapack) (resp : List (Fin r.ndof → ℂ)) (p : Probe) :
    Res (Option (List (ℝ × ℝ))) :=
  if p.direction = "axial" then .ok none
  else
    match resp.mapM (r.amplitudeAt la p) with
    | .error e => .error e
    | .ok l => .ok (some l)

/-- `data_magnitude` (`results.py` 2371-2459) without its column of frequencies. -/
noncomputable def data_magnitude (la : Lapack) (resp : List (ForcedResp r.ndof)) (kind : RespKind)
    (probe : List Probe) : Res (List (Option (List ℝ))) :=
  match probe.mapM (r.probeAmplitude la (resp.map fun x => x.get kind)) with
  | .error e => .error e
  | .ok l => .ok (l.map fun o => o.map fun a => a.map Prod.fst)

/-- `data_phase` (`results.py` 2461-2556) without its column of frequencies. -/
noncomputable def data_phase (la : Lapack) (resp : List (ForcedResp r.ndof)) (kind : RespKind)
    (probe : List Probe) : Res (List (Option (List ℝ))) :=
  match probe.mapM (r.probeAmplitude la (resp.map fun x => x.get kind)) with
  | .error e => .error e
  | .ok l => .ok (l.map fun o => o.map fun a => a.map Prod.snd)

/-- `np.angle(z)`, increased by a full turn when negative (`results.py` 3077-3083). -/
noncomputable def angle2pi (z : ℂ) : ℝ :=
  if Complex.arg z < 0 then Complex.arg z + 2 * Real.pi else Complex.arg z

/-- A column of `major_axis_vector` (`results.py` 3099-3107). -/
structure AxisRow where
  fow : ℂ
  back : ℂ
  axis_angle : ℝ
  amplitude : ℝ
  phase : ℝ

/-- `if axis_angle > np.pi: axis_angle -= np.pi` (`results.py` 3088-3089, 3094-3095). -/
noncomputable def turnBack (a : ℝ) : ℝ := if Real.pi < a then a - Real.pi else a

/-- The body of the loop of `_calculate_major_axis_per_node` (`results.py` 3068-3107) for the responses
`x` and `y`. -/
noncomputable def axisRow (x y : ℂ) (angle : Orbit.Angle) : AxisRow :=
  let rel := Complex.exp (Complex.I * Real.pi / 2)
  let fow := x / 2 + rel * y / 2
  let back := (starRingEnd ℂ) x / 2 + rel * (starRingEnd ℂ) y / 2
  let axis_angle : ℝ := match angle with
    | .major => turnBack ((angle2pi back - angle2pi fow) / 2)
    | .minor => turnBack ((angle2pi back - angle2pi fow + Real.pi) / 2)
    | .at a => a
  let z := fow * Complex.exp (Complex.I * axis_angle) + back * Complex.exp (-Complex.I * axis_angle)
  ⟨fow, back, axis_angle, ‖z‖, Complex.arg z⟩

/-- `_calculate_major_axis_per_node` (`results.py` 3005-3109, `stochastic/st_results.py` 1543-1636 for one
realisation). -/
noncomputable def majorAxisPerNode (resp : List (Fin r.ndof → ℂ)) (node : ℕ) (angle : Orbit.Angle) :
    Res (List AxisRow) :=
  match column resp (r.readDof node 0), column resp (r.readDof node 1) with
  | .ok x, .ok y => .ok (List.zipWith (fun x y => axisRow x y angle) x y)
  | .error e, _ => .error e
  | _, .error e => .error e

/-- `mag * np.cos(-phase)` at an index (`results.py` 3222-3230). -/
noncomputable def magAt (v : Fin r.ndof → ℂ) (k : ℕ) : Res ℝ :=
  if h : k < r.ndof then .ok (‖v ⟨k, h⟩‖ * Real.cos (-Complex.arg (v ⟨k, h⟩))) else .error .indexError

/-- The moments of one element at its two nodes (`results.py` 3234-3255): in `x`, then in `y`. -/
noncomputable def elementMoment (v : Fin r.ndof → ℂ) (e : ShaftEl) : Res ((ℝ × ℝ) × (ℝ × ℝ)) := do
  let nd := r.number_dof
  let nl := nodeOf e
  let nr := nodeOf e + 1
  let L := e.s.L
  let c := -e.s.material.E * e.s.Ie / L ^ 2
  let x1 ← r.magAt v (nd * nl + 0)
  let x2 ← r.magAt v (nd * nr + 0)
  let b1 ← r.magAt v (nd * nl + nd / 2 + 1)
  let b2 ← r.magAt v (nd * nr + nd / 2 + 1)
  let y1 ← r.magAt v (nd * nl + 1)
  let y2 ← r.magAt v (nd * nr + 1)
  let a1 ← r.magAt v (nd * nl + nd / 2 + 0)
  let a2 ← r.magAt v (nd * nr + nd / 2 + 0)
  pure ((c * (-6 * x1 + 6 * x2 + -4 * L * b1 + -2 * L * b2),
         c * (6 * x1 + -6 * x2 + 2 * L * b1 + 4 * L * b2)),
        (c * (-6 * y1 + 6 * y2 + 4 * L * a1 + 2 * L * a2),
         c * (6 * y1 + -6 * y2 + -2 * L * a1 + -4 * L * a2)))

/-- `M[[n_l, n_r]] += m` (`results.py` 3243, 3256); an index outside the array is an `IndexError`. -/
def addAt (M : List ℝ) (nl nr : ℕ) (m : ℝ × ℝ) : Res (List ℝ) :=
  if nl < M.length ∧ nr < M.length then
    .ok (M.mapIdx fun i z => if i = nl then z + m.1 else if i = nr then z + m.2 else z)
  else .error .indexError

/-- One round of the loop over the shaft elements (`results.py` 3233-3256). -/
noncomputable def addMoment (v : Fin r.ndof → ℂ) (M : List ℝ × List ℝ) (e : ShaftEl) : Res (List ℝ × List ℝ) := do
  let m ← r.elementMoment v e
  let Mx ← addAt M.1 (nodeOf e) (nodeOf e + 1) m.1
  let My ← addAt M.2 (nodeOf e) (nodeOf e + 1) m.2
  pure (Mx, My)

/-- `_calculate_bending_moment` (`results.py` 3200-3259), for the response at the speed. -/
noncomputable def bendingMoment (v : Fin r.ndof → ℂ) : Res (List ℝ × List ℝ) :=
  r.shaft.foldlM (r.addMoment v)
    (r.nodes_pos.map (fun _ => 0), r.nodes_pos.map (fun _ => 0))

end Rotor

end Ross
