import Mathlib.Analysis.SpecialFunctions.Complex.Circle
import Verif.Model.Readout

/-!
# The spectra of the responses of rotors with faults

`faults/abs_fault.py` 31-164 (`plot_dfft`, `_dfft`).  The responses are given as the list of their
samples.  Probes are `Probe` objects; the deprecated tuples, the names of the curves and the layout
of the figure are not modelled.
-/

namespace Ross

namespace Spectrum

/-- `sp.fft.fft(x)[k]`: the documented sum that the fast algorithm computes. -/
noncomputable def fft (x : List ℝ) (k : ℕ) : ℂ :=
  ∑ j : Fin x.length, (x[j] : ℂ) *
    Complex.exp (-(2 * Real.pi * Complex.I * (k : ℂ) * (j : ℂ) / (x.length : ℂ)))

/-- `np.arange(0, stop, step)`. -/
noncomputable def arange0 (stop step : ℝ) : List ℝ :=
  (List.range ⌈stop / step⌉.toNat).map fun i : ℕ => (i : ℝ) * step

/-- `_dfft` (`abs_fault.py` 131-164); the phase that is calculated is not returned.  Of an empty
signal, or with a step of zero, the quotient of line 153 is a `ZeroDivisionError`. -/
noncomputable def dfft (x : List ℝ) (dt : ℝ) : Res (List ℝ × List ℝ) :=
  let b := x.length / 2
  let c := x.length
  if (c : ℝ) * dt = 0 then .error .zeroDivisionError
  else
    let df := 1 / ((c : ℝ) * dt)
    let x_amp := (List.range b).map fun k => ‖fft x k * 2 / (c : ℂ)‖
    let freq := (arange0 (df * b) df).take b
    .ok (x_amp, freq)

open Classical in
/-- `amp[(freq >= lo) & (freq <= hi)]` and `freq[...]` (`abs_fault.py` 109-111). -/
noncomputable def within : Option (ℝ × ℝ) → List ℝ × List ℝ → List ℝ × List ℝ
  | none, s => s
  | some (lo, hi), (amp, freq) =>
    (((amp.zip freq).filter fun p => decide (p.2 ≥ lo) && decide (p.2 ≤ hi)).map Prod.fst,
      freq.filter fun f => decide (f ≥ lo) && decide (f ≤ hi))

variable (r : Rotor)

/-- `self.response[k, init_step:]` (`abs_fault.py` 87-88, 99, 104). -/
def tail {N : ℕ} (resp : List (Fin N → ℝ)) (k : ℤ) : Res (List ℝ) :=
  Rotor.column (resp.drop (2 * resp.length / 3)) k

/-- What a probe sees (`abs_fault.py` 61-104): `none` when it is skipped. -/
noncomputable def seen (resp : List (Fin r.ndof → ℝ)) (p : Probe) : Res (Option (List ℝ)) :=
  if p.direction = "axial" ∧ r.number_dof ≠ 6 then .ok none
  else if p.direction = "axial" then
    match tail resp (r.number_dof * p.node + 2) with
    | .error e => .error e
    | .ok z => .ok (some z)
  else
    match p.angle with
    | none => .error .typeError
    | some a =>
      match tail resp (r.number_dof * p.node), tail resp (r.number_dof * p.node + 1) with
      | .ok x, .ok y => .ok (some (Rotor.project a x y))
      | .error e, _ => .error e
      | _, .error e => .error e

/-- The curve of one probe (`abs_fault.py` 61-124). -/
noncomputable def curve (resp : List (Fin r.ndof → ℝ)) (dt : ℝ) (range_freq : Option (ℝ × ℝ))
    (p : Probe) : Res (Option (List ℝ × List ℝ)) :=
  match seen r resp p with
  | .error e => .error e
  | .ok none => .ok none
  | .ok (some x) =>
    match dfft x dt with
    | .error e => .error e
    | .ok s => .ok (some (within range_freq s))

/-- The curves of `plot_dfft` (`abs_fault.py` 31-129): amplitudes and frequencies. -/
noncomputable def plot_dfft (resp : List (Fin r.ndof → ℝ)) (dt : ℝ) (range_freq : Option (ℝ × ℝ))
    (probe : List Probe) : Res (List (List ℝ × List ℝ)) :=
  match probe.mapM (curve r resp dt range_freq) with
  | .error e => .error e
  | .ok l => .ok (l.filterMap id)

end Spectrum

end Ross
