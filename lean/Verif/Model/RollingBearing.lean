import Mathlib.Analysis.SpecialFunctions.Trigonometric.Basic
import Mathlib.Analysis.SpecialFunctions.Pow.Real
import Verif.Model.Bearing

/-! # Model of the ball, roller and magnetic bearings (`ross/bearing_seal_element.py` 1160-1564) -/

namespace Ross

open Real

/-- The arguments of `BallBearingElement.__init__` and `RollerBearingElement.__init__`
(`bearing_seal_element.py` 1225-1237, 1342-1354); `count` is `n_balls` or `n_rollers`, `size` is
`d_balls` or `l_rollers`. -/
structure RollingArgs where
  n : ℕ
  count : ℝ
  size : ℝ
  fs : ℝ
  alpha : ℝ
  cxx : Option Coef := none
  cyy : Option Coef := none
  tag : Option String := none
  n_link : Option ℕ := none
  scale_factor : ℝ := 1

namespace Rolling

/-- The ratio of the stiffnesses: from the dictionary if the number of rolling elements is one of
its keys, otherwise from the quadratic interpolation, whose construction cannot fail silently
(`bearing_seal_element.py` 1247-1255, 1359-1367). -/
noncomputable def ratioOf (sp : Scipy) (r8 r12 r16 count : ℝ) : Res ℝ :=
  if count = 8 then .ok r8
  else if count = 12 then .ok r12
  else if count = 16 then .ok r16
  else match sp.interp1d 2 [8, 12, 16] [r8, r12, r16] with
    | some f => .ok (f count)
    | none => .error .valueError

/-- What both constructors do once the stiffness `kyy` is known
(`bearing_seal_element.py` 1247-1277, 1359-1389). -/
noncomputable def build (sp : Scipy) (a : RollingArgs) (r8 r12 r16 kyy : ℝ) :
    Res BearingElement := do
  let r ← ratioOf sp r8 r12 r16 a.count
  let kxx := r * kyy
  -- 1257-1260, 1369-1372
  let cxx := a.cxx.getD (.scalar (1.25e-5 * kxx))
  let cyy := a.cyy.getD (.scalar (1.25e-5 * kyy))
  let b ← BearingElement.init sp
    { n := a.n, kxx := .scalar kxx, cxx := cxx, kyy := some (.scalar kyy), kxy := .scalar 0
      kyx := .scalar 0, cyy := some cyy, cxy := .scalar 0, cyx := .scalar 0, frequency := none
      tag := a.tag, n_link := a.n_link, scale_factor := a.scale_factor }
  -- 1278, 1390
  pure { b with color := "#77ACA2" }

/-- `BallBearingElement.__init__` (`bearing_seal_element.py` 1225-1278).  Floating-point powers of
a negative cosine are NaN; the theorems assume that it is positive. -/
noncomputable def ball (sp : Scipy) (a : RollingArgs) : Res BearingElement :=
  build sp a 0.46 0.64 0.73
    (13.0e6 * a.count ^ (2 / 3 : ℝ) * a.size ^ (1 / 3 : ℝ) * a.fs ^ (1 / 3 : ℝ) *
      cos a.alpha ^ (5 / 3 : ℝ))

/-- `RollerBearingElement.__init__` (`bearing_seal_element.py` 1342-1390). -/
noncomputable def roller (sp : Scipy) (a : RollingArgs) : Res BearingElement :=
  build sp a 0.49 0.66 0.74
    (1.0e9 * a.count ^ (0.9 : ℝ) * a.size ^ (0.8 : ℝ) * a.fs ^ (0.1 : ℝ) * cos a.alpha ^ (1.9 : ℝ))

end Rolling

/-- An argument of the magnetic bearing: a number or a list (`np.array(x)`). -/
inductive Param
  | num (x : ℝ)
  | list (l : List ℝ)

/-- The arguments of `MagneticBearingElement.__init__` (`bearing_seal_element.py` 1458-1474). -/
structure MagneticArgs where
  n : ℕ
  g0 : Param
  i0 : Param
  ag : Param
  nw : Param
  alpha : Param
  kp_pid : Param
  kd_pid : Param
  k_amp : Param
  k_sense : Param
  tag : Option String := none
  n_link : Option ℕ := none
  scale_factor : ℝ := 1

namespace Magnetic

/-- The shape of numpy's broadcast of numbers and one-dimensional arrays: `none` for a scalar, the
common length for arrays, where an array of length 1 is stretched; arrays of other unequal lengths
raise `ValueError`. -/
def shape : List Param → Res (Option ℕ)
  | [] => .ok none
  | .num _ :: ps => shape ps
  | .list l :: ps => do
    match ← shape ps with
    | none => .ok (some l.length)
    | some m =>
      if l.length = m ∨ m = 1 then .ok (some l.length)
      else if l.length = 1 then .ok (some m)
      else .error .valueError

/-- Entry `i` of a broadcast argument. -/
def entry (i : ℕ) : Param → ℝ
  | .num x => x
  | .list [x] => x
  | .list l => l.getD i 0

/-- `ks` (`bearing_seal_element.py` 1504-1514). -/
noncomputable def ks (g0 i0 ag nw alpha : ℝ) : ℝ :=
  -4 * i0 ^ 2 * cos alpha * 4 * π * 1e-7 * nw ^ 2 * ag / (4 * g0 ^ 3)

/-- `ki` (`bearing_seal_element.py` 1515-1525). -/
noncomputable def ki (g0 i0 ag nw alpha : ℝ) : ℝ :=
  4 * i0 * cos alpha * 4 * π * 1e-7 * nw ^ 2 * ag / (4 * g0 ^ 2)

variable (a : MagneticArgs)

/-- Entry `i` of `k` (`bearing_seal_element.py` 1526).  Where `ki * k_amp * k_sense` vanishes numpy
gives NaN and this definition gives 0. -/
noncomputable def kAt (i : ℕ) : ℝ :=
  let e := entry i
  let ki := ki (e a.g0) (e a.i0) (e a.ag) (e a.nw) (e a.alpha)
  let ks := ks (e a.g0) (e a.i0) (e a.ag) (e a.nw) (e a.alpha)
  ki * e a.k_amp * e a.k_sense * (e a.kp_pid + ks / (ki * e a.k_amp * e a.k_sense))

/-- Entry `i` of `c` (`bearing_seal_element.py` 1527). -/
noncomputable def cAt (i : ℕ) : ℝ :=
  let e := entry i
  ki (e a.g0) (e a.i0) (e a.ag) (e a.nw) (e a.alpha) * e a.k_amp * e a.kd_pid * e a.k_sense

/-- Lines 1532-1538 and 1540-1546: a scalar is used for both directions, of an array the first two
entries are used (`IndexError` if there are fewer). -/
noncomputable def pick (s : Option ℕ) (f : ℕ → ℝ) : Res (ℝ × ℝ) :=
  match s with
  | none => .ok (f 0, f 0)
  | some m => if m < 2 then .error .indexError else .ok (f 0, f 1)

/-- `MagneticBearingElement.__init__` (`bearing_seal_element.py` 1458-1564).  The check of lines
1490-1502 begins with `if type(x) == float or int`, which is always true, so that it never
raises. -/
noncomputable def init (sp : Scipy) : Res BearingElement := do
  let sk ← shape [a.g0, a.i0, a.ag, a.nw, a.alpha, a.kp_pid, a.k_amp, a.k_sense]
  let sc ← shape [a.g0, a.i0, a.ag, a.nw, a.alpha, a.kd_pid, a.k_amp, a.k_sense]
  let (kxx, kyy) ← pick sk (kAt a)
  let (cxx, cyy) ← pick sc (cAt a)
  BearingElement.init sp
    { n := a.n, kxx := .scalar kxx, cxx := .scalar cxx, kyy := some (.scalar kyy), kxy := .scalar 0
      kyx := .scalar 0, cyy := some (.scalar cyy), cxy := .scalar 0, cyx := .scalar 0
      frequency := none, tag := a.tag, n_link := a.n_link, scale_factor := a.scale_factor }

end Magnetic

end Ross
