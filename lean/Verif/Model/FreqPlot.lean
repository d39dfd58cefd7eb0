import Verif.Model.Readout

/-!
# Model of the plots of frequency responses

`results.py` `FrequencyResponseResults.__init__` (1859-1869), `plot_magnitude` (1919-1954), `plot_phase` (2019-2054),
`plot_polar_bode` (2127-2168): the data and the names of the curves, without colors and layout.  Degrees of freedom
are not negative; units are factors.
-/

namespace Ross.Rotor

variable (r : Rotor)

/-- The responses at a speed that have the dimension of the units (`results.py` 1928-1936). -/
def FreqResp.get {N : ℕ} (x : FreqResp N) : RespKind → Matrix (Fin N) (Fin N) ℂ
  | .displacement => x.freq_resp
  | .velocity => x.velc_resp
  | .acceleration => x.accl_resp

/-- `phase_units`: whether it is one of "rad", "radian", "radians", and the value of a radian in these units. -/
structure PhaseUnits where
  radian : Bool
  factor : ℝ

/-- `self.dof_dict` (`results.py` 1866-1869). -/
def dofDict (number_dof : ℕ) : List String :=
  if number_dof = 4 then ["x", "y", "α", "β"] else ["x", "y", "z", "α", "β", "θ"]

/-- Node and direction in the name of a curve (`results.py` 1919-1922). -/
def dofLabel (dof : ℕ) : ℕ × Option String :=
  (dof / r.number_dof, (dofDict r.number_dof)[dof % r.number_dof]?)

/-- `self.freq_resp[inp, out, :]`, `self.velc_resp[inp, out, :]` or `self.accl_resp[inp, out, :]`. -/
def freqEntries (resp : List (FreqResp r.ndof)) (kind : Option RespKind) (inp out : ℕ) : Res (List ℂ) :=
  match kind with
  | none => .error .valueError
  | some k =>
    if h : inp < r.ndof ∧ out < r.ndof then .ok (resp.map fun x => x.get k ⟨inp, h.1⟩ ⟨out, h.2⟩)
    else .error .indexError

/-- `plot_magnitude` (`results.py` 1926-1949). -/
noncomputable def freqMagnitude (resp : List (FreqResp r.ndof)) (kind : Option RespKind) (factor : ℝ) (inp out : ℕ) :
    Res (List ℝ) := do
  let l ← r.freqEntries resp kind inp out
  pure (l.map fun z => factor * ‖z‖)

/-- The phase of a value, as plotted (`results.py` 2027-2043, 2137-2161). -/
noncomputable def shownPhase (u : PhaseUnits) (z : ℂ) : ℝ :=
  let p := u.factor * Complex.arg z
  if p < 0 then (if u.radian then p + 2 * Real.pi else p + 360) else p

/-- `plot_phase` (`results.py` 2026-2043). -/
noncomputable def freqPhase (resp : List (FreqResp r.ndof)) (kind : Option RespKind) (u : PhaseUnits) (inp out : ℕ) :
    Res (List ℝ) := do
  let l ← r.freqEntries resp kind inp out
  pure (l.map (shownPhase u))

/-- `plot_polar_bode` (`results.py` 2134-2168): radius and angle of the points. -/
noncomputable def freqPolar (resp : List (FreqResp r.ndof)) (kind : Option RespKind) (factor : ℝ) (u : PhaseUnits)
    (inp out : ℕ) : Res (List (ℝ × ℝ)) := do
  let l ← r.freqEntries resp kind inp out
  pure (l.map fun z => (factor * ‖z‖, shownPhase u z))

end Ross.Rotor
