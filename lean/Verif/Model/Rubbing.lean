import Mathlib.Analysis.SpecialFunctions.Complex.Arg
import Verif.Model.Fault

/-! # Model of `ross/faults/rubbing.py`

Floating-point numbers are exact reals; where numpy divides by zero and goes on with NaN or infinity the
model returns `none`. -/

namespace Ross

open Fault

/-- `Rubbing.__init__` (71-107). -/
structure Rubbing where
  args : Args
  deltaRUB : ℝ
  kRUB : ℝ
  cRUB : ℝ
  miRUB : ℝ
  posRUB : ℕ
  torque : Bool := false

namespace Rubbing

open Classical in
/-- `x / y` of two numpy numbers. -/
noncomputable def npDiv (x y : ℝ) : Option ℝ := if y = 0 then none else some (x / y)

variable (b : Rubbing)

/-- `_stiffness_force` (333-352), `d` is `self.radial_displ_node`. -/
noncomputable def stiffness_force (d y : ℝ) : Option ℝ := npDiv (-b.kRUB * (d - b.deltaRUB) * y) |d|

/-- `_damping_force` (354-373), `d` is `self.radial_displ_vel_node`. -/
noncomputable def damping_force (d y : ℝ) : Option ℝ := npDiv (-b.cRUB * d * y) |d|

/-- `_tangential_force` (375-389). -/
noncomputable def tangential_force (F_k F_c : ℝ) : ℝ := b.miRUB * |F_k + F_c|

/-- `_torque_force` (391-407). -/
noncomputable def torque_force (radius d F_f F_fp y : ℝ) : Option ℝ := do
  let q ← npDiv (Real.sqrt (F_f ^ 2 + F_fp ^ 2) * y) |d|
  pure (radius * q)

open Classical in
/-- `_rub` (283-331) and `_combine_forces` (409-430): the force on the whole rotor for the displacements
`y`, the velocities `v` and the rotating speed `ang`. -/
noncomputable def rub {N : ℕ} (radius : ℝ) (y v : Fin N → ℝ) (ang : ℝ) : Option (Fin N → ℝ) :=
  let ii := 6 * b.posRUB
  let d := Real.sqrt (comp y ii ^ 2 + comp y (ii + 1) ^ 2)
  let dv := Real.sqrt (comp v ii ^ 2 + comp v (ii + 1) ^ 2)
  let phi := Complex.arg ⟨comp y ii, comp y (ii + 1)⟩
  if b.deltaRUB ≤ d then do
    let kx ← b.stiffness_force d (comp y ii)
    let ky ← b.stiffness_force d (comp y (ii + 1))
    let cx ← b.damping_force dv (comp v ii)
    let cy ← b.damping_force dv (comp v (ii + 1))
    let Vt := -comp v (ii + 1) * Real.sin phi + comp v ii * Real.cos phi
    let f ← (if 0 < Vt + ang * radius then do
        let fx := -b.tangential_force kx cx
        let fy := b.tangential_force ky cy
        let fz ← if b.torque then torque_force radius d fx fy (comp y ii) else pure 0
        pure (fx, fy, fz)
      else if Vt + ang * radius < 0 then do
        let fx := b.tangential_force kx cx
        let fy := -b.tangential_force ky cy
        let fz ← if b.torque then torque_force radius d fx fy (comp y ii) else pure 0
        pure (fx, fy, fz)
      else pure (0, 0, 0) : Option (ℝ × ℝ × ℝ))
    pure fun i =>
      if i.val = ii then kx + cx + f.1
      else if i.val = ii + 1 then ky + cy + f.2.1
      else if i.val = ii + 5 then f.2.2
      else 0
  else pure 0

/-- `self.radius` (126): the outer diameter of the shaft element whose number is `posRUB`. -/
noncomputable def radius (r : Rotor) : Res ℝ :=
  match r.shaft[b.posRUB]? with
  | none => .error .indexError
  | some e => .ok (e.s.o_d / 2)

/-- `run_rubbing` (`rotor_assembly.py` 2933-2936): the constructor and `run` (109-237).  The state of the
force tells whether a force was not a number; then the response is not a number from there on, `none` here.
`F_k[self.DoF]` raises `IndexError` beyond the last degree of freedom; the model raises it before the first
step is made. -/
noncomputable def run (ei : Eigh) (r : Rotor) : Res (Option (Result r.ndof)) := do
  b.args.check
  checkDisks r b.args
  let radius ← b.radius r
  let res ← Fault.run ei r b.args .rk4 (if r.ndof ≤ 6 * b.posRUB + 5 then .error .indexError
    else .ok (false, fun y v i nan =>
      match b.rub radius y v (b.args.Omega (b.args.time i)) with
      | some F => (F, nan)
      | none => (0, true)))
  pure (if res.2 then none else some res.1)

end Rubbing

end Ross
