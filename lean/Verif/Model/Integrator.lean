import Mathlib.Data.Real.Archimedean
import Mathlib.Algebra.Module.Pi
import Verif.Model.Basic

/-! # Model of the Runge-Kutta integrators of the faults (`ross/faults/integrate_solver.py`)

Floating-point numbers are exact reals.  The states have the 24 components of `np.zeros((24, n + 1))`
(59, 92).  The progress messages (65-66, 96-97) are not modelled. -/

namespace Ross

namespace Integrator

/-- A state: twelve modal displacements and twelve modal velocities. -/
abbrev Vec := Fin 24 → ℝ

/-- `int(q)`: towards zero. -/
noncomputable def pyInt (q : ℝ) : ℤ := if 0 ≤ q then ⌊q⌋ else ⌈q⌉

/-- `self.func(T, y, i)`.  The equations of motion of the faults also write attributes of the fault,
which are the state `S`. -/
abbrev Func (S : Type) := ℝ → Vec → ℕ → StateM S Vec

variable {S : Type}

/-- One pass of the loop of `rk4` (`integrate_solver.py` 68-75). -/
noncomputable def rk4Step (h : ℝ) (func : Func S) (x0 : ℝ) (y : Vec) (i : ℕ) : StateM S Vec := do
  let f1 ← func x0 y i
  let k1 := h • f1
  let f2 ← func (x0 + 0.5 * h) (y + (0.5 : ℝ) • k1) i
  let k2 := h • f2
  let f3 ← func (x0 + 0.5 * h) (y + (0.5 : ℝ) • k2) i
  let k3 := h • f3
  let f4 ← func (x0 + h) (y + k3) i
  let k4 := h • f4
  pure (y + (1.0 / 6.0 : ℝ) • (k1 + (2 : ℝ) • k2 + (2 : ℝ) • k3 + k4))

/-- One pass of the loop of `rk45` (`integrate_solver.py` 99-133). -/
noncomputable def rk45Step (h : ℝ) (func : Func S) (x0 : ℝ) (y : Vec) (i : ℕ) : StateM S Vec := do
  let k1 ← func x0 y i
  let yp2 := y + (h / 5) • k1
  let k2 ← func (x0 + h / 5) yp2 i
  let yp3 := y + (3 * h / 40) • k1 + (9 * h / 40) • k2
  let k3 ← func (x0 + 3 * h / 10) yp3 i
  let yp4 := y + (3 * h / 10) • k1 - (9 * h / 10) • k2 + (6 * h / 5) • k3
  let k4 ← func (x0 + 3 * h / 5) yp4 i
  let yp5 := y - (11 * h / 54) • k1 + (5 * h / 2) • k2 - (70 * h / 27) • k3 + (35 * h / 27) • k4
  let k5 ← func (x0 + h) yp5 i
  let yp6 := y + (1631 * h / 55296) • k1 + (175 * h / 512) • k2 + (575 * h / 13824) • k3 +
    (44275 * h / 110592) • k4 + (253 * h / 4096) • k5
  let k6 ← func (x0 + 7 * h / 8) yp6 i
  pure (y + h • ((37 / 378 : ℝ) • k1 + (250 / 621 : ℝ) • k3 + (125 / 594 : ℝ) • k4 +
    (512 / 1771 : ℝ) • k6))

/-- The loop `for i in range(1, n + 1)` of both methods (`integrate_solver.py` 64-79 and 95-137): `left`
passes are still to be made, `i` is the number of the next one.  The columns `result[:, i]` are
returned. -/
noncomputable def loop (step : ℝ → Vec → ℕ → StateM S Vec) (h : ℝ) : ℕ → ℕ → ℝ → Vec → StateM S (List Vec)
  | 0, _, _, _ => pure []
  | left + 1, i, x0, y => do
    let y' ← step x0 y i
    let rest ← loop step h left (i + 1) (x0 + h) y'
    pure (y' :: rest)

open Classical in
/-- The common part of `rk4` and `rk45` (`integrate_solver.py` 50-81 and 83-139).  `np.zeros((24, n + 1))`
refuses a negative size, and `result[:, 0]` needs a column. -/
noncomputable def run (step : ℝ → Vec → ℕ → StateM S Vec) (x0 : ℝ) (y0 : Vec) (x h : ℝ) :
    Res (StateM S (List Vec)) :=
  if h = 0 then .error .zeroDivisionError
  else
    let n := pyInt ((x - x0) / h)
    if n + 1 < 0 then .error .valueError
    else if n + 1 = 0 then .error .indexError
    else .ok do
      let rest ← loop step h n.toNat 1 x0 y0
      pure (y0 :: rest)

/-- `Integrator(x0, y0, x, h, func).rk4()`. -/
noncomputable def rk4 (x0 : ℝ) (y0 : Vec) (x h : ℝ) (func : Func S) : Res (StateM S (List Vec)) :=
  run (rk4Step h func) x0 y0 x h

/-- `Integrator(x0, y0, x, h, func).rk45()`. -/
noncomputable def rk45 (x0 : ℝ) (y0 : Vec) (x h : ℝ) (func : Func S) : Res (StateM S (List Vec)) :=
  run (rk45Step h func) x0 y0 x h

end Integrator

end Ross
