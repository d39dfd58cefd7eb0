import Mathlib.Analysis.SpecialFunctions.Trigonometric.Arctan
import Mathlib.Analysis.SpecialFunctions.Pow.Real
import Mathlib.Data.Complex.Basic
import Verif.Model.Bearing

/-! # Model of `CylindricalBearing` (`ross/bearing_seal_element.py` 1567-1727) -/

namespace Ross

open Real

/-- `numpy.polynomial.Polynomial(coefs).roots()`: from the coefficients, lowest power first, to the
complex roots in some order. -/
abbrev PolyRoots := List ℝ → List ℂ

/-- The arguments of `CylindricalBearing.__init__` (`bearing_seal_element.py` 1629-1639), after the
units have been converted; `speed` is then a one-dimensional array.  Of `**kwargs` only the four
arguments of the parent class that are not coefficients are modelled. -/
structure CylindricalArgs where
  n : ℕ
  speed : List ℝ
  weight : ℝ
  bearing_length : ℝ
  journal_diameter : ℝ
  radial_clearance : ℝ
  oil_viscosity : ℝ
  tag : Option String := none
  n_link : Option ℕ := none
  scale_factor : ℝ := 1
  color : String := "#355d7a"

/-- The attributes of a `CylindricalBearing`. -/
structure CylindricalBearing where
  base : BearingElement
  speed : List ℝ
  modified_sommerfeld : List ℝ
  sommerfeld : List ℝ
  root : List ℝ
  eccentricity : List ℝ
  attitude_angle : List ℝ

namespace CylindricalBearing

/-- The order of numpy on complex numbers: by the real part, then by the imaginary part. -/
def clt (a b : ℂ) : Prop := a.re < b.re ∨ a.re = b.re ∧ a.im < b.im

/-- `self.speed` (`bearing_seal_element.py` 1642-1648). -/
noncomputable def speeds (a : CylindricalArgs) : List ℝ :=
  a.speed.map fun spd => if spd = 0 then 0.1 else spd

/-- `Ss`, one number for every given speed (`bearing_seal_element.py` 1656-1662). -/
noncomputable def modifiedSommerfeld (a : CylindricalArgs) : List ℝ :=
  a.speed.map fun spd =>
    a.journal_diameter * spd * a.oil_viscosity * a.bearing_length ^ 3 /
      (8 * a.radial_clearance ^ 2 * a.weight)

/-- The coefficients of the polynomial, lowest power first (`bearing_seal_element.py` 1670-1678). -/
noncomputable def polyCoefs (s : ℝ) : List ℝ :=
  [1, -(4 + π ^ 2 * s ^ 2), 6 - s ^ 2 * (16 - π ^ 2), -4, 1]

open Classical in
/-- The roots that are kept (`bearing_seal_element.py` 1684-1686). -/
noncomputable def keep (roots : List ℂ) : List ℝ :=
  (roots.filter fun z => (clt 0 z ∧ clt z 1) ∧ z.im = 0).map Complex.re

/-- `self.root`: the kept roots of all the polynomials, one after the other
(`bearing_seal_element.py` 1682-1686). -/
noncomputable def rootList (pr : PolyRoots) (Ss : List ℝ) : List ℝ :=
  (Ss.map fun s => keep (pr (polyCoefs s))).flatten

/-- `self.attitude_angle`, for one eccentricity (`bearing_seal_element.py` 1690). -/
noncomputable def attitude (e : ℝ) : ℝ := arctan (π * √(1 - e ^ 2) / 4 * e)

/-- `bearing_seal_element.py` 1708 -/
noncomputable def h0 (e : ℝ) : ℝ := 1 / (π ^ 2 * (1 - e ^ 2) + 16 * e ^ 2) ^ (3 / 2 : ℝ)

/-- `bearing_seal_element.py` 1709 -/
noncomputable def auu (e : ℝ) : ℝ := h0 e * 4 * (π ^ 2 * (2 - e ^ 2) + 16 * e ^ 2)

/-- `bearing_seal_element.py` 1710 -/
noncomputable def auv (e : ℝ) : ℝ :=
  h0 e * π * (π ^ 2 * (1 - e ^ 2) ^ 2 - 16 * e ^ 4) / (e * √(1 - e ^ 2))

/-- `bearing_seal_element.py` 1711 -/
noncomputable def avu (e : ℝ) : ℝ :=
  -h0 e * π * (π ^ 2 * (1 - e ^ 2) * (1 + 2 * e ^ 2) + 32 * e ^ 2 * (1 + e ^ 2)) /
    (e * √(1 - e ^ 2))

/-- `bearing_seal_element.py` 1712 -/
noncomputable def avv (e : ℝ) : ℝ :=
  h0 e * 4 * (π ^ 2 * (1 + 2 * e ^ 2) + 32 * e ^ 2 * (1 + e ^ 2) / (1 - e ^ 2))

/-- `bearing_seal_element.py` 1713 -/
noncomputable def buu (e : ℝ) : ℝ :=
  h0 e * 2 * π * √(1 - e ^ 2) * (π ^ 2 * (1 + 2 * e ^ 2) - 16 * e ^ 2) / e

/-- `bearing_seal_element.py` 1714, both `buv` and `bvu` -/
noncomputable def buv (e : ℝ) : ℝ := -h0 e * 8 * (π ^ 2 * (1 + 2 * e ^ 2) - 16 * e ^ 2)

/-- `bearing_seal_element.py` 1715 -/
noncomputable def bvv (e : ℝ) : ℝ :=
  h0 e * 2 * π * (π ^ 2 * (1 - e ^ 2) ^ 2 + 48 * e ^ 2) / (e * √(1 - e ^ 2))

/-- One of the lists `coefficients_dict["k.."]` (`bearing_seal_element.py` 1705, 1720-1721). -/
noncomputable def stiff (a : CylindricalArgs) (term : ℝ → ℝ) (es : List (ℝ × ℝ)) : Coef :=
  .list (es.map fun p => a.weight / a.radial_clearance * term p.1)

/-- One of the lists `coefficients_dict["c.."]` (`bearing_seal_element.py` 1705, 1722-1725). -/
noncomputable def damp (a : CylindricalArgs) (term : ℝ → ℝ) (es : List (ℝ × ℝ)) : Coef :=
  .list (es.map fun p => a.weight / (a.radial_clearance * p.2) * term p.1)

/-- `CylindricalBearing.__init__` (`bearing_seal_element.py` 1640-1727). -/
noncomputable def init (sp : Scipy) (pr : PolyRoots) (a : CylindricalArgs) :
    Res CylindricalBearing := do
  let speed := speeds a
  let Ss := modifiedSommerfeld a
  -- 1665
  let som := Ss.map fun s => s / π * (a.journal_diameter / a.bearing_length) ^ 2
  let root := rootList pr Ss
  -- 1688
  let ecc := root.map fun x => √x
  -- 1705
  let es := ecc.zip speed
  -- 1717-1727, in the order of `coefficients`
  let base ← BearingElement.init sp
    { n := a.n
      kxx := stiff a auu es
      kxy := stiff a auv es
      kyx := stiff a avu es
      kyy := some (stiff a avv es)
      cxx := damp a buu es
      cxy := damp a buv es
      cyx := damp a buv es
      cyy := some (damp a bvv es)
      frequency := some speed
      tag := a.tag, n_link := a.n_link, scale_factor := a.scale_factor, color := a.color }
  pure ⟨base, speed, Ss, som, root, ecc, ecc.map attitude⟩

end CylindricalBearing

end Ross
