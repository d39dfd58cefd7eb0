import Mathlib.Data.Real.Basic
import Mathlib.Data.Matrix.Block
import Mathlib.LinearAlgebra.Matrix.Notation
import Mathlib.Logic.Equiv.Fin.Basic
import Verif.Model.Basic

/-! # Model of `BearingElement` and `BearingElement6DoF` (`ross/bearing_seal_element.py`) -/

namespace Ross

open Matrix

/-- A square numpy array together with its size. -/
abbrev LMat := Σ n : ℕ, Matrix (Fin n) (Fin n) ℝ

/-- The two scipy constructors the code calls; `none` means that the call raises. -/
structure Scipy where
  /-- `interpolate.UnivariateSpline(frequency, coefficient)` -/
  univariateSpline : List ℝ → List ℝ → Option (ℝ → ℝ)
  /-- `interpolate.interp1d(frequency, coefficient, kind=k, fill_value="extrapolate")` -/
  interp1d : ℕ → List ℝ → List ℝ → Option (ℝ → ℝ)

/-- A coefficient argument: a number, or a list/array. -/
inductive Coef
  | scalar (x : ℝ)
  | list (l : List ℝ)

/-- A processed coefficient: the list stored in `self.kxx` and the callable stored in
`self.kxx_interpolated` (`None` when every interpolation failed silently). -/
structure Coeff where
  values : List ℝ
  interp : Option (ℝ → ℝ)

namespace Coeff

/-- Second half of `BearingElement._process_coefficient` (`bearing_seal_element.py` 220-252): build
the interpolating callable for the list of values.  `frequency` is `None` or a one-dimensional array
(a bare float frequency is not modelled). -/
def interpolate (sp : Scipy) (frequency : Option (List ℝ)) (l : List ℝ) : Res Coeff :=
  -- 220
  if 1 < l.length then
    match frequency with
    -- 222-226 raises, then `len(None)` raises inside the handler: 239-243
    | none => .error .valueError
    | some f =>
      match sp.univariateSpline f l with
      | some g => .ok ⟨l, some g⟩
      | none =>
        -- 231-243
        if f.length = 2 ∨ f.length = 3 then
          match sp.interp1d (f.length - 1) f l with
          | some g => .ok ⟨l, some g⟩
          | none => .error .valueError
        else .ok ⟨l, none⟩
  else
    -- 245-250: the line through (0, a) and (1, a), extrapolated
    match l with
    | [] => .error .indexError
    | a :: _ => .ok ⟨l, some fun x => a + (a - a) * x⟩

/-- `BearingElement._process_coefficient` (`bearing_seal_element.py` 210-252): numbers become lists
of the length of the frequency (214-218). -/
def process (sp : Scipy) (frequency : Option (List ℝ)) (c : Coef) : Res Coeff :=
  match c with
  | .scalar x =>
    match frequency with
    | some f => interpolate sp frequency (List.replicate f.length x)
    | none => interpolate sp frequency [x]
  | .list l => interpolate sp frequency l

/-- Calling `self.kxx_interpolated(frequency)`: calling `None` raises `TypeError`. -/
def eval (c : Coeff) (ω : ℝ) : Res ℝ :=
  match c.interp with
  | some g => .ok (g ω)
  | none => .error .typeError

end Coeff

/-- Attributes of a `BearingElement` (`bearing_seal_element.py` 141-208). -/
structure BearingElement where
  n : ℕ
  n_link : Option ℕ
  frequency : Option (List ℝ)
  kxx : Coeff
  kyy : Coeff
  kxy : Coeff
  kyx : Coeff
  cxx : Coeff
  cyy : Coeff
  cxy : Coeff
  cyx : Coeff
  mxx : Coeff
  myy : Coeff
  mxy : Coeff
  myx : Coeff
  tag : Option String
  scale_factor : ℝ
  color : String

/-- The keyword arguments of `BearingElement.__init__` (`bearing_seal_element.py` 120-140) with their
defaults. -/
structure BearingArgs where
  n : ℕ
  kxx : Coef
  cxx : Coef
  mxx : Option Coef := none
  kyy : Option Coef := none
  kxy : Coef := .scalar 0
  kyx : Coef := .scalar 0
  cyy : Option Coef := none
  cxy : Coef := .scalar 0
  cyx : Coef := .scalar 0
  myy : Option Coef := none
  mxy : Coef := .scalar 0
  myx : Coef := .scalar 0
  frequency : Option (List ℝ) := none
  tag : Option String := none
  n_link : Option ℕ := none
  scale_factor : ℝ := 1
  color : String := "#355d7a"

/-- The block layout used for linked bearings
(`np.vstack((np.hstack([K, -K]), np.hstack([-K, K])))`, `bearing_seal_element.py` 540-545, 577-582,
616-621, 2036-2041, 2075-2080, 2115-2120). -/
def linkMat (n_link : Option ℕ) {k : ℕ} (A : Matrix (Fin k) (Fin k) ℝ) : LMat :=
  match n_link with
  | none => ⟨k, A⟩
  | some _ => ⟨k + k, (fromBlocks A (-A) (-A) A).reindex finSumFinEquiv finSumFinEquiv⟩

namespace BearingElement

/-- `BearingElement.__init__` (`bearing_seal_element.py` 141-208). -/
def init (sp : Scipy) (a : BearingArgs) : Res BearingElement := do
  -- 161-164
  let kyy := a.kyy.getD a.kxx
  let cyy := a.cyy.getD a.cxx
  -- 166-174
  let (mxx, myy) := match a.mxx, a.myy with
    | none, none => (Coef.scalar 0, Coef.scalar 0)
    | some x, none => (x, x)
    | none, some y => (Coef.scalar 0, y)
    | some x, some y => (x, y)
  -- 182-186, in the order of `args`
  let kxx ← Coeff.process sp a.frequency a.kxx
  let kyy ← Coeff.process sp a.frequency kyy
  let kxy ← Coeff.process sp a.frequency a.kxy
  let kyx ← Coeff.process sp a.frequency a.kyx
  let cxx ← Coeff.process sp a.frequency a.cxx
  let cyy ← Coeff.process sp a.frequency cyy
  let cxy ← Coeff.process sp a.frequency a.cxy
  let cyx ← Coeff.process sp a.frequency a.cyx
  let mxx ← Coeff.process sp a.frequency mxx
  let myy ← Coeff.process sp a.frequency myy
  let mxy ← Coeff.process sp a.frequency a.mxy
  let myx ← Coeff.process sp a.frequency a.myx
  let lens := [kxx, kyy, kxy, kyx, cxx, cyy, cxy, cyx, mxx, myy, mxy, myx].map (·.values.length)
  -- 188-201
  let ok := match a.frequency with
    | some f => lens.all (· = f.length)
    | none => lens.all (· = 1)
  if ok then
    pure ⟨a.n, a.n_link, a.frequency, kxx, kyy, kxy, kyx, cxx, cyy, cxy, cyx, mxx, myy, mxy, myx,
      a.tag, a.scale_factor, a.color⟩
  else .error .valueError

variable (b : BearingElement)

/-- `BearingElement.M` (`bearing_seal_element.py` 533-547), at one frequency. -/
def M (ω : ℝ) : Res LMat := do
  let mxx ← b.mxx.eval ω
  let myy ← b.myy.eval ω
  let mxy ← b.mxy.eval ω
  let myx ← b.myx.eval ω
  pure (linkMat b.n_link !![mxx, mxy; myx, myy])

/-- `BearingElement.K` (`bearing_seal_element.py` 570-584), at one frequency. -/
def K (ω : ℝ) : Res LMat := do
  let kxx ← b.kxx.eval ω
  let kyy ← b.kyy.eval ω
  let kxy ← b.kxy.eval ω
  let kyx ← b.kyx.eval ω
  pure (linkMat b.n_link !![kxx, kxy; kyx, kyy])

/-- `BearingElement.C` (`bearing_seal_element.py` 609-623), at one frequency. -/
def C (ω : ℝ) : Res LMat := do
  let cxx ← b.cxx.eval ω
  let cyy ← b.cyy.eval ω
  let cxy ← b.cxy.eval ω
  let cyx ← b.cyx.eval ω
  pure (linkMat b.n_link !![cxx, cxy; cyx, cyy])

/-- `BearingElement.G` (`bearing_seal_element.py` 644-646): `np.zeros_like(self.K(0))`. -/
def G : Res LMat := do
  let k ← b.K 0
  pure ⟨k.1, 0⟩

end BearingElement

/-- `BearingElement6DoF`: a bearing plus the axial coefficients (`bearing_seal_element.py`
1730-1883). -/
structure BearingElement6DoF where
  base : BearingElement
  kzz : Coeff
  czz : Coeff
  mzz : Coeff

namespace BearingElement6DoF

/-- `BearingElement6DoF.__init__` (`bearing_seal_element.py` 1795-1883).  The axial coefficients
default to `0.0`; passing `None` for them is not modelled.  The length check of lines 1866-1883 is
applied to the list `[len(v.coefficient) for v in {}.values()]`, i.e. to no coefficient at all, so it
never fails. -/
def init (sp : Scipy) (a : BearingArgs) (kzz czz mzz : Coef := .scalar 0) :
    Res BearingElement6DoF := do
  let base ← BearingElement.init sp a
  let kzz ← Coeff.process sp a.frequency kzz
  let czz ← Coeff.process sp a.frequency czz
  let mzz ← Coeff.process sp a.frequency mzz
  pure ⟨base, kzz, czz, mzz⟩

variable (b : BearingElement6DoF)

/-- `BearingElement6DoF.M` (`bearing_seal_element.py` 2027-2043). -/
def M (ω : ℝ) : Res LMat := do
  let mxx ← b.base.mxx.eval ω
  let myy ← b.base.myy.eval ω
  let mxy ← b.base.mxy.eval ω
  let myx ← b.base.myx.eval ω
  let mzz ← b.mzz.eval ω
  pure (linkMat b.base.n_link !![mxx, mxy, 0; myx, myy, 0; 0, 0, mzz])

/-- `BearingElement6DoF.K` (`bearing_seal_element.py` 2066-2082). -/
def K (ω : ℝ) : Res LMat := do
  let kxx ← b.base.kxx.eval ω
  let kyy ← b.base.kyy.eval ω
  let kxy ← b.base.kxy.eval ω
  let kyx ← b.base.kyx.eval ω
  let kzz ← b.kzz.eval ω
  pure (linkMat b.base.n_link !![kxx, kxy, 0; kyx, kyy, 0; 0, 0, kzz])

/-- `BearingElement6DoF.C` (`bearing_seal_element.py` 2105-2122). -/
def C (ω : ℝ) : Res LMat := do
  let cxx ← b.base.cxx.eval ω
  let cyy ← b.base.cyy.eval ω
  let cxy ← b.base.cxy.eval ω
  let cyx ← b.base.cyx.eval ω
  let czz ← b.czz.eval ω
  pure (linkMat b.base.n_link !![cxx, cxy, 0; cyx, cyy, 0; 0, 0, czz])

/-- `G` is inherited (`bearing_seal_element.py` 644-646). -/
def G : Res LMat := do
  let k ← b.K 0
  pure ⟨k.1, 0⟩

end BearingElement6DoF

end Ross
