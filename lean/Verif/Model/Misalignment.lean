import Mathlib.Analysis.SpecialFunctions.Trigonometric.Arctan
import Verif.Model.Fault

/-! # Model of `ross/faults/misalignment.py`

Floating-point numbers are exact reals.  In `MisalignmentRigid` the divisions by a sum of two diagonal
entries of the stiffness matrix are taken for sums that are not zero. -/

namespace Ross

open Fault

/-- The arguments of `MisalignmentFlex.__init__` (86-125). -/
structure MisalignmentFlex where
  args : Args
  kd : ℝ
  ks : ℝ
  eCOUPx : ℝ
  eCOUPy : ℝ
  misalignment_angle : ℝ
  TD : ℝ
  TL : ℝ
  n1 : ℕ
  mis_type : Option String

/-- `forces[0 + 6 n1] = fx`, and so on for the two nodes of the coupling (424-429, 484-489). -/
def couple {N : ℕ} (n1 : ℕ) (fx fy TD TL : ℝ) : Res (Fin N → ℝ) :=
  let n2 := n1 + 1
  if N ≤ 5 + 6 * n2 then .error .indexError
  else .ok fun i =>
    if i.val = 0 + 6 * n1 then fx
    else if i.val = 1 + 6 * n1 then fy
    else if i.val = 5 + 6 * n1 then TD
    else if i.val = 0 + 6 * n2 then -fx
    else if i.val = 1 + 6 * n2 then -fy
    else if i.val = 5 + 6 * n2 then TL
    else 0

namespace MisalignmentFlex

open Real

variable (m : MisalignmentFlex)

/-- The type that `__init__` chooses (127-134). -/
inductive Kind
  | parallel
  | angular
  | combined

/-- `self._force` (127-134). -/
def kind : Res Kind :=
  match m.mis_type with
  | none => .ok .parallel
  | some "parallel" => .ok .parallel
  | some "angular" => .ok .angular
  | some "combined" => .ok .combined
  | some _ => .error .exception

/-- `self.Cte` (162-164). -/
noncomputable def Cte (radius : ℝ) : ℝ := m.ks * radius * sqrt (2 - 2 * cos m.misalignment_angle)

/-- `np.sqrt(self.eCOUPx**2 + self.eCOUPy**2)`. -/
noncomputable def offset : ℝ := sqrt (m.eCOUPx ^ 2 + m.eCOUPy ^ 2)

/-- `fib` (334). -/
noncomputable def fib : ℝ := arctan (m.eCOUPy / m.eCOUPx)

/-- The first term of the sums of `_parallel`, the extension of the first pin (337-348). -/
noncomputable def pin1 (radius θ : ℝ) : ℝ :=
  sqrt (radius ^ 2 + m.eCOUPx ^ 2 + m.eCOUPy ^ 2 + 2 * radius * m.offset * sin (m.fib + θ)) - radius

/-- The second term (350-360). -/
noncomputable def pin2 (radius θ : ℝ) : ℝ :=
  sqrt (radius ^ 2 + m.eCOUPx ^ 2 + m.eCOUPy ^ 2 + 2 * radius * m.offset * cos (π / 6 + m.fib + θ)) - radius

/-- The third term (362-373). -/
noncomputable def pin3 (radius θ : ℝ) : ℝ :=
  radius - sqrt (radius ^ 2 + m.eCOUPx ^ 2 + m.eCOUPy ^ 2 - 2 * radius * m.offset * sin (π / 3 + m.fib + θ))

/-- `self.mi_y` (336-375). -/
noncomputable def mi_y (radius θ : ℝ) : ℝ :=
  m.pin1 radius θ * cos θ + m.pin2 radius θ * cos (2 * π / 3 + θ) + m.pin3 radius θ * cos (4 * π / 3 + θ)

/-- `self.mi_x` (378-418). -/
noncomputable def mi_x (radius θ : ℝ) : ℝ :=
  m.pin1 radius θ * sin θ + m.pin2 radius θ * sin (2 * π / 3 + θ) + m.pin3 radius θ * sin (4 * π / 3 + θ)

open Classical in
/-- `_parallel` (320-431) at the angular position `θ`. -/
noncomputable def parallel {N : ℕ} (radius θ : ℝ) : Res (Fin N → ℝ) :=
  if m.eCOUPx = 0 then .error .zeroDivisionError
  else couple m.n1 (m.kd * m.mi_x radius θ) (m.kd * m.mi_y radius θ) m.TD m.TL

/-- `Fay` (446-463). -/
noncomputable def Fay (radius θ : ℝ) : ℝ :=
  |m.Cte radius * sin θ * sin m.misalignment_angle| * sin (θ + π) +
  |m.Cte radius * sin (θ + 2 * π / 3) * sin m.misalignment_angle| * sin (θ + π + 2 * π / 3) +
  |m.Cte radius * sin (θ + 4 * π / 3) * sin m.misalignment_angle| * sin (θ + π + 4 * π / 3)

/-- `Fax` (465-482). -/
noncomputable def Fax (radius θ : ℝ) : ℝ :=
  |m.Cte radius * sin θ * sin m.misalignment_angle| * cos (θ + π) +
  |m.Cte radius * sin (θ + 2 * π / 3) * sin m.misalignment_angle| * cos (θ + π + 2 * π / 3) +
  |m.Cte radius * sin (θ + 4 * π / 3) * sin m.misalignment_angle| * cos (θ + π + 4 * π / 3)

/-- `_angular` (433-491). -/
noncomputable def angular {N : ℕ} (radius θ : ℝ) : Res (Fin N → ℝ) :=
  couple m.n1 (m.Fax radius θ) (m.Fay radius θ) m.TD m.TL

/-- `_combined` (493-506). -/
noncomputable def combined {N : ℕ} (radius θ : ℝ) : Res (Fin N → ℝ) := do
  let p ← m.parallel radius θ
  let q ← m.angular radius θ
  pure (p + q)

/-- `self._force(angular_position)` (264). -/
noncomputable def force {N : ℕ} (k : Kind) (radius θ : ℝ) : Res (Fin N → ℝ) :=
  match k with
  | .parallel => m.parallel radius θ
  | .angular => m.angular radius θ
  | .combined => m.combined radius θ

/-- `self.radius` (155): of the element whose number is `n1`; only shaft elements have the attribute. -/
noncomputable def radius (r : Rotor) : Res ℝ :=
  match r.elements[m.n1]? with
  | none => .error .indexError
  | some (.shaft e) => .ok (e.s.odl / 2)
  | some _ => .error .attributeError

/-- `run_misalignment(coupling="flex")`: the constructor and `run` (86-279). -/
noncomputable def run (ei : Eigh) (r : Rotor) : Res (Result r.ndof) := do
  let k ← m.kind
  m.args.check
  checkDisks r m.args
  let radius ← m.radius r
  let res ← Fault.run ei r m.args .rk45 (do
    let forces ← (List.range m.args.samples).mapM fun i =>
      m.force k radius (m.args.angular_position (m.args.time i))
    pure ((), fun _ _ i => pure (forces.getD i 0)))
  pure res.1

end MisalignmentFlex

/-- The arguments of `MisalignmentRigid.__init__` (562-595). -/
structure MisalignmentRigid where
  args : Args
  eCOUP : ℝ
  TD : ℝ
  TL : ℝ
  n1 : ℕ

namespace MisalignmentRigid

open Real

variable (m : MisalignmentRigid)

/-- The stiffness of the coupling (666-684). -/
structure Coupling where
  kcoup_auxt : ℝ
  kCOUP : ℝ
  Kcoup_auxI : ℝ
  Kcoup_auxF : ℝ

/-- The statements that compute it from the stiffness matrix (666-684). -/
noncomputable def coupling {N : ℕ} (K : Matrix (Fin N) (Fin N) ℝ) : Res Coupling :=
  if h : 5 + 6 * (m.n1 + 1) < N then
    let k := fun (p q : ℕ) (hp : p < N) (hq : q < N) => K ⟨p, hp⟩ ⟨q, hq⟩
    let t1 := k (5 + 6 * m.n1) (5 + 6 * m.n1) (by omega) (by omega)
    let t2 := k (5 + 6 * (m.n1 + 1)) (5 + 6 * (m.n1 + 1)) h h
    let x1 := k (6 * m.n1) (6 * m.n1) (by omega) (by omega)
    let x2 := k (6 * (m.n1 + 1)) (6 * (m.n1 + 1)) (by omega) (by omega)
    .ok ⟨1 / (t1 + t2), x1 * x2 / (x1 + x2), t1 / (t1 + t2), t2 / (t1 + t2)⟩
  else .error .indexError

/-- `self.angANG` (774-785): the new value, from the old one. -/
noncomputable def angANG {N : ℕ} (c : Coupling) (θ old : ℝ) (y : Fin N → ℝ) : ℝ :=
  c.Kcoup_auxI * θ + c.Kcoup_auxF * θ + c.kCOUP * c.kcoup_auxt * m.eCOUP *
    (-comp y (0 + 6 * m.n1) * sin old + comp y (0 + 6 * (m.n1 + 1)) * sin old +
      comp y (1 + 6 * m.n1) * cos old - comp y (1 + 6 * (m.n1 + 1)) * cos old)

/-- `k_misalignbeta1.dot(positions[self.DoF])` (823-844). -/
noncomputable def beta1 {N : ℕ} (c : Coupling) (y : Fin N → ℝ) (fir : ℝ) : ℝ :=
  c.kCOUP * c.Kcoup_auxI * m.eCOUP * sin (0 + fir) * comp y (6 * m.n1) +
  -c.kCOUP * c.Kcoup_auxI * m.eCOUP * cos (0 + fir) * comp y (6 * m.n1 + 1) +
  c.kCOUP * c.Kcoup_auxF * m.eCOUP * sin (0 + fir) * comp y (6 * m.n1 + 6) +
  -c.kCOUP * c.Kcoup_auxF * m.eCOUP * cos (0 + fir) * comp y (6 * m.n1 + 7)

/-- `_parallel` (808-867). -/
noncomputable def parallel {N : ℕ} (c : Coupling) (y : Fin N → ℝ) (fir : ℝ) : Fin N → ℝ := fun i =>
  if i.val = 6 * m.n1 then -c.kCOUP * m.eCOUP * cos (0 + fir) + c.kCOUP * m.eCOUP
  else if i.val = 6 * m.n1 + 1 then -c.kCOUP * m.eCOUP * sin (0 + fir)
  else if i.val = 6 * m.n1 + 5 then m.beta1 c y fir + (m.TD - m.TL)
  else if i.val = 6 * m.n1 + 6 then c.kCOUP * m.eCOUP * cos (0 + fir) - c.kCOUP * m.eCOUP
  else if i.val = 6 * m.n1 + 7 then c.kCOUP * m.eCOUP * sin (0 + fir)
  else if i.val = 6 * m.n1 + 11 then -m.beta1 c y fir + -(m.TD - m.TL)
  else 0

/-- The force of one evaluation of the equation of motion (769-789); the state is `self.angANG`. -/
noncomputable def step {N : ℕ} (c : Coupling) (y : Fin N → ℝ) (i : ℕ) : StateM ℝ (Fin N → ℝ) := do
  let old ← get
  let ang := m.angANG c (m.args.angular_position (m.args.time i)) old y
  set ang
  pure (m.parallel c y ang)

/-- `run_misalignment(coupling="rigid")`: the constructor and `run` (562-750). -/
noncomputable def run (ei : Eigh) (r : Rotor) : Res (Result r.ndof) := do
  m.args.check
  checkDisks r m.args
  let res ← Fault.run ei r m.args .rk45 (do
    let K ← r.K m.args.speed
    let c ← m.coupling K
    pure (-π / 180, fun y _ i => m.step c y i))
  pure res.1

end MisalignmentRigid

end Ross
