import Mathlib.Analysis.Real.Pi.Bounds
import Mathlib.LinearAlgebra.Matrix.Notation
import Verif.Model.Material

/-!
# Model of `ross/shaft_element.py`

`ShaftElement` (4 dof per node) and `ShaftElement6DoF`.  The attributes that `__init__` derives
from the constructor arguments and stores on the object are modelled as functions of those
arguments.  Coefficients and matrix literals are transcribed one for one; the suffix `₆` marks the
6-dof class.
-/

namespace Ross

open Real

/-- Constructor-visible attributes of a shaft element (`shaft_element.py` 142-195). -/
structure ShaftElement where
  L : ℝ
  idl : ℝ
  odl : ℝ
  idr : ℝ
  odr : ℝ
  material : Material
  n : Option ℕ
  axial_force : ℝ
  torque : ℝ
  shear_effects : Bool
  rotary_inertia : Bool
  gyroscopic : Bool
  shear_method_calc : String
  tag : Option String
  alpha : ℝ
  beta : ℝ

namespace ShaftElement

/-! ### Derived attributes (`shaft_element.py` 188-306) -/

/-- `o_d` (`shaft_element.py` 189). -/
noncomputable def o_d (s : ShaftElement) : ℝ := (s.odl + s.odr) / 2

/-- `i_d` (`shaft_element.py` 190). -/
noncomputable def i_d (s : ShaftElement) : ℝ := (s.idl + s.idr) / 2

/-- `A_l` (`shaft_element.py` 202). -/
noncomputable def A_l (s : ShaftElement) : ℝ := π * (s.odl ^ 2 - s.idl ^ 2) / 4

/-- `A_r` (`shaft_element.py` 203). -/
noncomputable def A_r (s : ShaftElement) : ℝ := π * (s.odr ^ 2 - s.idr ^ 2) / 4

/-- `Ie_l` (`shaft_element.py` 209). -/
noncomputable def Ie_l (s : ShaftElement) : ℝ := π * (s.odl ^ 4 - s.idl ^ 4) / 64

/-- `Ie_r` (`shaft_element.py` 210). -/
noncomputable def Ie_r (s : ShaftElement) : ℝ := π * (s.odr ^ 4 - s.idr ^ 4) / 64

/-- `outer` (`shaft_element.py` 214). -/
noncomputable def outer (s : ShaftElement) : ℝ := s.odl ^ 2 + s.odl * s.odr + s.odr ^ 2

/-- `inner` (`shaft_element.py` 215). -/
noncomputable def inner (s : ShaftElement) : ℝ := s.idl ^ 2 + s.idl * s.idr + s.idr ^ 2

/-- `volume` (`shaft_element.py` 216). -/
noncomputable def volume (s : ShaftElement) : ℝ := π * (s.L / 12) * (s.outer - s.inner)

/-- `m` (`shaft_element.py` 217). -/
noncomputable def m (s : ShaftElement) : ℝ := s.material.rho * s.volume

/-- `roj` (`shaft_element.py` 219). -/
noncomputable def roj (s : ShaftElement) : ℝ := s.odl / 2
/-- `rij` (`shaft_element.py` 220). -/
noncomputable def rij (s : ShaftElement) : ℝ := s.idl / 2
/-- `rok` (`shaft_element.py` 221). -/
noncomputable def rok (s : ShaftElement) : ℝ := s.odr / 2
/-- `rik` (`shaft_element.py` 222). -/
noncomputable def rik (s : ShaftElement) : ℝ := s.idr / 2

/-- `delta_ro` (`shaft_element.py` 225). -/
noncomputable def delta_ro (s : ShaftElement) : ℝ := s.rok - s.roj
/-- `delta_ri` (`shaft_element.py` 226). -/
noncomputable def delta_ri (s : ShaftElement) : ℝ := s.rik - s.rij

/-- `a1` (`shaft_element.py` 227). -/
noncomputable def a1 (s : ShaftElement) : ℝ :=
  2 * π * (s.roj * s.delta_ro - s.rij * s.delta_ri) / s.A_l
/-- `a2` (`shaft_element.py` 228). -/
noncomputable def a2 (s : ShaftElement) : ℝ :=
  π * (s.roj ^ 3 * s.delta_ro - s.rij ^ 3 * s.delta_ri) / s.Ie_l
/-- `b1` (`shaft_element.py` 229). -/
noncomputable def b1 (s : ShaftElement) : ℝ := π * (s.delta_ro ^ 2 - s.delta_ri ^ 2) / s.A_l
/-- `b2` (`shaft_element.py` 230). -/
noncomputable def b2 (s : ShaftElement) : ℝ :=
  3 * π * (s.roj ^ 2 * s.delta_ro ^ 2 - s.rij ^ 2 * s.delta_ri ^ 2) / (2 * s.Ie_l)
/-- `gama` (`shaft_element.py` 231). -/
noncomputable def gama (s : ShaftElement) : ℝ :=
  π * (s.roj * s.delta_ro ^ 3 - s.rij * s.delta_ri ^ 3) / s.Ie_l
/-- `delta` (`shaft_element.py` 232). -/
noncomputable def delta (s : ShaftElement) : ℝ :=
  π * (s.delta_ro ^ 4 - s.delta_ri ^ 4) / (4 * s.Ie_l)

/-- `A` (`shaft_element.py` 243): section area at mid-span. -/
noncomputable def A (s : ShaftElement) : ℝ := s.A_l * (1 + s.a1 * 0.5 + s.b1 * 0.5 ^ 2)

/-- `Ie` (`shaft_element.py` 247): second moment of area at mid-span. -/
noncomputable def Ie (s : ShaftElement) : ℝ :=
  s.Ie_l * (1 + s.a2 * 0.5 + s.b2 * 0.5 ^ 2 + s.gama * 0.5 ^ 3 + s.delta * 0.5 ^ 4)

/-- `c1` (`shaft_element.py` 253). -/
noncomputable def c1 (s : ShaftElement) : ℝ :=
  s.roj ^ 2 + 2 * s.roj * s.rok + 3 * s.rok ^ 2 - s.rij ^ 2 - 2 * s.rij * s.rik - 3 * s.rik ^ 2
/-- `c2` (`shaft_element.py` 254). -/
noncomputable def c2 (s : ShaftElement) : ℝ :=
  (s.roj ^ 2 + s.roj * s.rok + s.rok ^ 2) - (s.rij ^ 2 + s.rij * s.rik + s.rik ^ 2)
/-- `beam_cg` (`shaft_element.py` 255). -/
noncomputable def beam_cg (s : ShaftElement) : ℝ := s.L * s.c1 / (4 * s.c2)

/-- `slenderness_ratio` (`shaft_element.py` 259). -/
noncomputable def slenderness_ratio (s : ShaftElement) : ℝ :=
  (s.material.G_s * s.A * s.L ^ 2) / (s.material.E * s.Ie)

/-- `Im` (`shaft_element.py` 264-268). -/
noncomputable def Im (s : ShaftElement) : ℝ :=
  (π * s.L * (s.m / s.volume) / 10) *
    ((s.roj ^ 4 + s.roj ^ 3 * s.rok + s.roj ^ 2 * s.rok ^ 2 + s.roj * s.rok ^ 3 + s.rok ^ 4) -
     (s.rij ^ 4 + s.rij ^ 3 * s.rik + s.rij ^ 2 * s.rik ^ 2 + s.rij * s.rik ^ 3 + s.rik ^ 4))

/-- `r` (`shaft_element.py` 276). -/
noncomputable def rRatio (s : ShaftElement) : ℝ := ((s.idl + s.idr) / 2) / ((s.odl + s.odr) / 2)
/-- `r2` (`shaft_element.py` 277). -/
noncomputable def r2 (s : ShaftElement) : ℝ := s.rRatio * s.rRatio
/-- `r12` (`shaft_element.py` 278). -/
noncomputable def r12 (s : ShaftElement) : ℝ := (1 + s.r2) ^ 2

/-- Denominator of `kappa`, Hutchinson (`shaft_element.py` 283-285). -/
noncomputable def kappaDenHutchinson (s : ShaftElement) : ℝ :=
  s.r12 * (7 + 12 * s.material.Poisson + 4 * s.material.Poisson ^ 2) +
    4 * s.r2 * (5 + 6 * s.material.Poisson + 2 * s.material.Poisson ^ 2)

/-- Denominator of `kappa`, Cowper (`shaft_element.py` 290-293). -/
noncomputable def kappaDenCowper (s : ShaftElement) : ℝ :=
  s.r12 * (7 + 6 * s.material.Poisson) + s.r2 * (20 + 12 * s.material.Poisson)

/-- `kappa` (`shaft_element.py` 279-298); the unknown-method branch raises in `init`. -/
noncomputable def kappa (s : ShaftElement) : ℝ :=
  if s.shear_method_calc = "hutchinson" then
    6 * s.r12 * ((1 + s.material.Poisson) / s.kappaDenHutchinson)
  else
    6 * s.r12 * ((1 + s.material.Poisson) / s.kappaDenCowper)

/-- `phi` (`shaft_element.py` 249, 301, 305). -/
noncomputable def phi (s : ShaftElement) : ℝ :=
  if s.shear_effects then
    12 * s.material.E * s.Ie / (s.material.G_s * s.kappa * s.A * s.L ^ 2)
  else 0

open Classical in
/-- `ShaftElement.__init__` (`shaft_element.py` 142-306).  A material given by name is looked up
before the call.  Every division whose divisor vanishes raises `ZeroDivisionError`; an unknown
shear method raises `Warning` (296-298), tested only when shear effects are on. -/
noncomputable def init (L idl odl : ℝ) (idr odr : Option ℝ) (material : Option Material)
    (n : Option ℕ) (axial_force torque : ℝ) (shear_effects rotary_inertia gyroscopic : Bool)
    (shear_method_calc : String) (tag : Option String) (alpha beta : ℝ) : Res ShaftElement :=
  match material with
  -- 169-170
  | none => .error .attributeError
  | some mat =>
    -- 164-167: `idr`, `odr` default to the left diameters
    let s : ShaftElement :=
      { L := L, idl := idl, odl := odl, idr := idr.getD idl, odr := odr.getD odl, material := mat,
        n := n, axial_force := axial_force, torque := torque, shear_effects := shear_effects,
        rotary_inertia := rotary_inertia, gyroscopic := gyroscopic,
        shear_method_calc := shear_method_calc, tag := tag, alpha := alpha, beta := beta }
    -- 227-232, 255, 259, 265
    if s.A_l = 0 ∨ s.Ie_l = 0 ∨ s.c2 = 0 ∨ s.material.E * s.Ie = 0 ∨ s.volume = 0 then
      .error .zeroDivisionError
    else if s.shear_effects then
      -- 276
      if (s.odl + s.odr) / 2 = 0 then .error .zeroDivisionError
      -- 279-298
      else if s.shear_method_calc = "hutchinson" then
        if s.kappaDenHutchinson = 0 then .error .zeroDivisionError
        else if s.material.G_s * s.kappa * s.A * s.L ^ 2 = 0 then .error .zeroDivisionError
        else .ok s
      else if s.shear_method_calc = "cowper" then
        if s.kappaDenCowper = 0 then .error .zeroDivisionError
        else if s.material.G_s * s.kappa * s.A * s.L ^ 2 = 0 then .error .zeroDivisionError
        else .ok s
      else .error .warning
    else .ok s

/-- Setter of `n` (`shaft_element.py` 444-466) together with the node attributes it maintains:
`n_l = n`, `n_r = n + 1`. -/
def setN (s : ShaftElement) (v : Option ℕ) : ShaftElement := { s with n := v }

/-- `n_l` (`shaft_element.py` 176, 464). -/
def n_l (s : ShaftElement) : Option ℕ := s.n

/-- `n_r` (`shaft_element.py` 177-179, 465-466). -/
def n_r (s : ShaftElement) : Option ℕ := s.n.map (· + 1)

/-! ### 4-dof matrices -/

/-- `m1` (`shaft_element.py` 532-536). -/
noncomputable def m1 (s : ShaftElement) : ℝ :=
    ((468 + 882 * s.phi + 420 * s.phi ^ 2) + s.a1 * (108 + 210 * s.phi + 105 * s.phi ^ 2) +
      s.b1 * (38 + 78 * s.phi + 42 * s.phi ^ 2))

/-- `m2` (`shaft_element.py` 537-541). -/
noncomputable def m2 (s : ShaftElement) : ℝ :=
    ((66 + 115.5 * s.phi + 52.5 * s.phi ^ 2) + s.a1 * (21 + 40.5 * s.phi + 21 * s.phi ^ 2) +
      s.b1 * (8.5 + 18 * s.phi + 10.5 * s.phi ^ 2))

/-- `m3` (`shaft_element.py` 542-546). -/
noncomputable def m3 (s : ShaftElement) : ℝ :=
    ((162 + 378 * s.phi + 210 * s.phi ^ 2) + s.a1 * (81 + 189 * s.phi + 105 * s.phi ^ 2) + s.b1
      * (46 + 111 * s.phi + 63 * s.phi ^ 2))

/-- `m4` (`shaft_element.py` 547-551). -/
noncomputable def m4 (s : ShaftElement) : ℝ :=
    ((39 + 94.5 * s.phi + 52.5 * s.phi ^ 2) + s.a1 * (18 + 40.5 * s.phi + 21 * s.phi ^ 2) +
      s.b1 * (9.5 + 21 * s.phi + 10.5 * s.phi ^ 2))

/-- `m5` (`shaft_element.py` 552-556). -/
noncomputable def m5 (s : ShaftElement) : ℝ :=
    ((12 + 21 * s.phi + 10.5 * s.phi ^ 2) + s.a1 * (4.5 + 9 * s.phi + 5.25 * s.phi ^ 2) + s.b1
      * (2 + 4.5 * s.phi + 3 * s.phi ^ 2))

/-- `m6` (`shaft_element.py` 557-561). -/
noncomputable def m6 (s : ShaftElement) : ℝ :=
    ((39 + 94.5 * s.phi + 52.5 * s.phi ^ 2) + s.a1 * (21 + 54 * s.phi + 31.5 * s.phi ^ 2) +
      s.b1 * (12.5 + 34.5 * s.phi + 21 * s.phi ^ 2))

/-- `m7` (`shaft_element.py` 562-566). -/
noncomputable def m7 (s : ShaftElement) : ℝ :=
    ((9 + 21 * s.phi + 10.5 * s.phi ^ 2) + s.a1 * (4.5 + 10.5 * s.phi + 5.25 * s.phi ^ 2) +
      s.b1 * (2.5 + 6 * s.phi + 3 * s.phi ^ 2))

/-- `m8` (`shaft_element.py` 567-571). -/
noncomputable def m8 (s : ShaftElement) : ℝ :=
    ((468 + 882 * s.phi + 420 * s.phi ^ 2) + s.a1 * (360 + 672 * s.phi + 315 * s.phi ^ 2) +
      s.b1 * (290 + 540 * s.phi + 252 * s.phi ^ 2))

/-- `m9` (`shaft_element.py` 572-576). -/
noncomputable def m9 (s : ShaftElement) : ℝ :=
    ((66 + 115.5 * s.phi + 52.5 * s.phi ^ 2) + s.a1 * (45 + 75 * s.phi + 31.5 * s.phi ^ 2) +
      s.b1 * (32.5 + 52.5 * s.phi + 21 * s.phi ^ 2))

/-- `m10` (`shaft_element.py` 577-581). -/
noncomputable def m10 (s : ShaftElement) : ℝ :=
    ((12 + 21 * s.phi + 10.5 * s.phi ^ 2) + s.a1 * (7.5 + 12 * s.phi + 5.25 * s.phi ^ 2) + s.b1
      * (5 + 7.5 * s.phi + 3 * s.phi ^ 2))

/-- `m11` (`shaft_element.py` 599). -/
noncomputable def m11 (s : ShaftElement) : ℝ :=
    252 + 126 * s.a2 + 72 * s.b2 + 45 * s.gama + 30 * s.delta

/-- `m12` (`shaft_element.py` 600-606). -/
noncomputable def m12 (s : ShaftElement) : ℝ :=
    (21 - 105 * s.phi + s.a2 * (21 - 42 * s.phi) + s.b2 * (15 - 21 * s.phi) + s.gama * (10.5 -
      12 * s.phi) + s.delta * (7.5 - 7.5 * s.phi))

/-- `m13` (`shaft_element.py` 607-613). -/
noncomputable def m13 (s : ShaftElement) : ℝ :=
    (21 - 105 * s.phi - 63 * s.a2 * s.phi - s.b2 * (6 + 42 * s.phi) - s.gama * (7.5 + 30 *
      s.phi) - s.delta * (7.5 + 22.5 * s.phi))

/-- `m14` (`shaft_element.py` 614-620). -/
noncomputable def m14 (s : ShaftElement) : ℝ :=
    (28 + 35 * s.phi + 70 * s.phi ^ 2 + s.a2 * (7 - 7 * s.phi + 17.5 * s.phi ^ 2) + s.b2 * (4 -
      7 * s.phi + 7 * s.phi ^ 2) + s.gama * (2.75 - 5 * s.phi + 3.5 * s.phi ^ 2) + s.delta * (2
      - 3.5 * s.phi + 2 * s.phi ^ 2))

/-- `m15` (`shaft_element.py` 621-627). -/
noncomputable def m15 (s : ShaftElement) : ℝ :=
    (7 + 35 * s.phi - 35 * s.phi ^ 2 + s.a2 * (3.5 + 17.5 * s.phi - 17.5 * s.phi ^ 2) + s.b2 *
      (3 + 10.5 * s.phi - 10.5 * s.phi ^ 2) + s.gama * (2.75 + 7 * s.phi - 7 * s.phi ^ 2) +
      s.delta * (2.5 + 5 * s.phi - 5 * s.phi ^ 2))

/-- `m16` (`shaft_element.py` 628-634). -/
noncomputable def m16 (s : ShaftElement) : ℝ :=
    (28 + 35 * s.phi + 70 * s.phi ^ 2 + s.a2 * (21 + 42 * s.phi + 52.5 * s.phi ^ 2) + s.b2 *
      (18 + 42 * s.phi + 42 * s.phi ^ 2) + s.gama * (16.25 + 40 * s.phi + 35 * s.phi ^ 2) +
      s.delta * (15 + 37.5 * s.phi + 30 * s.phi ^ 2))

/-- The literal `Mt` (`shaft_element.py` 584-593). -/
noncomputable def Mt (s : ShaftElement) : Matrix (Fin 8) (Fin 8) ℝ :=
  !![       s.m1,           0,               0,      s.L * s.m2,        s.m3,           0,               0,     -s.L * s.m4;
               0,        s.m1,     -s.L * s.m2,               0,           0,        s.m3,      s.L * s.m4,               0;
               0, -s.L * s.m2,  s.L ^ 2 * s.m5,               0,           0, -s.L * s.m6, -s.L ^ 2 * s.m7,               0;
      s.L * s.m2,           0,               0,  s.L ^ 2 * s.m5,  s.L * s.m6,           0,               0, -s.L ^ 2 * s.m7;
            s.m3,           0,               0,      s.L * s.m6,        s.m8,           0,               0,     -s.L * s.m9;
               0,        s.m3,     -s.L * s.m6,               0,           0,        s.m8,      s.L * s.m9,               0;
               0,  s.L * s.m4, -s.L ^ 2 * s.m7,               0,           0,  s.L * s.m9, s.L ^ 2 * s.m10,               0;
     -s.L * s.m4,           0,               0, -s.L ^ 2 * s.m7, -s.L * s.m9,           0,               0, s.L ^ 2 * s.m10]

/-- The literal `Mr` (`shaft_element.py` 636-645). -/
noncomputable def Mr (s : ShaftElement) : Matrix (Fin 8) (Fin 8) ℝ :=
  !![      s.m11,            0,                0,      s.L * s.m12,       -s.m11,           0,                0,      s.L * s.m13;
               0,        s.m11,     -s.L * s.m12,                0,            0,      -s.m11,     -s.L * s.m13,                0;
               0, -s.L * s.m12,  s.L ^ 2 * s.m14,                0,            0, s.L * s.m12, -s.L ^ 2 * s.m15,                0;
     s.L * s.m12,            0,                0,  s.L ^ 2 * s.m14, -s.L * s.m12,           0,                0, -s.L ^ 2 * s.m15;
          -s.m11,            0,                0,     -s.L * s.m12,        s.m11,           0,                0,     -s.L * s.m13;
               0,       -s.m11,      s.L * s.m12,                0,            0,       s.m11,      s.L * s.m13,                0;
               0, -s.L * s.m13, -s.L ^ 2 * s.m15,                0,            0, s.L * s.m13,  s.L ^ 2 * s.m16,                0;
     s.L * s.m13,            0,                0, -s.L ^ 2 * s.m15, -s.L * s.m13,           0,                0,  s.L ^ 2 * s.m16]

/-- `ShaftElement.M` (`shaft_element.py` 500-650): translational part scaled at 598, rotary part
scaled at 647 and added when `rotary_inertia`. -/
noncomputable def M (s : ShaftElement) : Matrix (Fin 8) (Fin 8) ℝ :=
  let M := (s.material.rho * s.A_l * s.L / (1260 * (1 + s.phi) ^ 2)) • s.Mt
  if s.rotary_inertia then M + (s.material.rho * s.Ie_l / (210 * s.L * (1 + s.phi) ^ 2)) • s.Mr
  else M

/-- `k1` (`shaft_element.py` 688). -/
noncomputable def k1 (s : ShaftElement) : ℝ :=
    1260 + 630 * s.a2 + 504 * s.b2 + 441 * s.gama + 396 * s.delta

/-- `k2` (`shaft_element.py` 689-696). -/
noncomputable def k2 (s : ShaftElement) : ℝ :=
    (630 + 210 * s.a2 + 147 * s.b2 + 126 * s.gama + 114 * s.delta - s.phi * (105 * s.a2 + 105 *
      s.b2 + 94.5 * s.gama + 84 * s.delta))

/-- `k3` (`shaft_element.py` 697-704). -/
noncomputable def k3 (s : ShaftElement) : ℝ :=
    (630 + 420 * s.a2 + 357 * s.b2 + 315 * s.gama + 282 * s.delta + s.phi * (105 * s.a2 + 105 *
      s.b2 + 94.5 * s.gama + 84 * s.delta))

/-- `k4` (`shaft_element.py` 705-711). -/
noncomputable def k4 (s : ShaftElement) : ℝ :=
    (420 + 210 * s.phi + 105 * s.phi ^ 2 + s.a2 * (105 + 52.5 * s.phi ^ 2) + s.b2 * (56 - 35 *
      s.phi + 35 * s.phi ^ 2) + s.gama * (42 - 42 * s.phi + 26.25 * s.phi ^ 2) + s.delta * (36
      - 42 * s.phi + 21 * s.phi ^ 2))

/-- `k5` (`shaft_element.py` 712-718). -/
noncomputable def k5 (s : ShaftElement) : ℝ :=
    (210 - 210 * s.phi - 105 * s.phi ^ 2 + s.a2 * (105 - 105 * s.phi - 52.5 * s.phi ^ 2) + s.b2
      * (91 - 70 * s.phi - 35 * s.phi ^ 2) + s.gama * (84 - 52.5 * s.phi - 26.25 * s.phi ^ 2) +
      s.delta * (78 - 42 * s.phi - 21 * s.phi ^ 2))

/-- `k6` (`shaft_element.py` 719-725). -/
noncomputable def k6 (s : ShaftElement) : ℝ :=
    (420 + 210 * s.phi + 105 * s.phi ^ 2 + s.a2 * (315 + 210 * s.phi + 52.5 * s.phi ^ 2) + s.b2
      * (266 + 175 * s.phi + 35 * s.phi ^ 2) + s.gama * (231 + 147 * s.phi + 26.25 * s.phi ^ 2)
      + s.delta * (204 + 126 * s.phi + 21 * s.phi ^ 2))

/-- `k7` (`shaft_element.py` 726). -/
noncomputable def k7 (s : ShaftElement) : ℝ :=
    12 + 6 * s.a1 + 4 * s.b1

/-- `k8` (`shaft_element.py` 727). -/
noncomputable def k8 (s : ShaftElement) : ℝ :=
    6 + 3 * s.a1 + 2 * s.b1

/-- `k9` (`shaft_element.py` 728). -/
noncomputable def k9 (s : ShaftElement) : ℝ :=
    3 + 1.5 * s.a1 + s.b1

/-- `k10` (`shaft_element.py` 755). -/
noncomputable def k10 (s : ShaftElement) : ℝ :=
    36 + 60 * s.phi + 30 * s.phi ^ 2

/-- `k11` (`shaft_element.py` 756). -/
noncomputable def k11 (s : ShaftElement) : ℝ :=
    s.L * 3

/-- `k12` (`shaft_element.py` 757). -/
noncomputable def k12 (s : ShaftElement) : ℝ :=
    s.L ^ 2 * (4 + 5 * s.phi + 2.5 * s.phi ^ 2)

/-- `k13` (`shaft_element.py` 758). -/
noncomputable def k13 (s : ShaftElement) : ℝ :=
    s.L ^ 2 * (1 + 5 * s.phi + 2.5 * s.phi ^ 2)

/-- The literal `K1` (`shaft_element.py` 730-739). -/
noncomputable def K1 (s : ShaftElement) : Matrix (Fin 8) (Fin 8) ℝ :=
  !![      s.k1,           0,              0,     s.L * s.k2,       -s.k1,          0,              0,     s.L * s.k3;
              0,        s.k1,    -s.L * s.k2,              0,           0,      -s.k1,    -s.L * s.k3,              0;
              0, -s.L * s.k2, s.L ^ 2 * s.k4,              0,           0, s.L * s.k2, s.L ^ 2 * s.k5,              0;
     s.L * s.k2,           0,              0, s.L ^ 2 * s.k4, -s.L * s.k2,          0,              0, s.L ^ 2 * s.k5;
          -s.k1,           0,              0,    -s.L * s.k2,        s.k1,          0,              0,    -s.L * s.k3;
              0,       -s.k1,     s.L * s.k2,              0,           0,       s.k1,     s.L * s.k3,              0;
              0, -s.L * s.k3, s.L ^ 2 * s.k5,              0,           0, s.L * s.k3, s.L ^ 2 * s.k6,              0;
     s.L * s.k3,           0,              0, s.L ^ 2 * s.k5, -s.L * s.k3,          0,              0, s.L ^ 2 * s.k6]

/-- The literal `K2` (`shaft_element.py` 741-750). -/
noncomputable def K2 (s : ShaftElement) : Matrix (Fin 8) (Fin 8) ℝ :=
  !![      s.k7,           0,              0,     s.L * s.k8,       -s.k7,          0,              0,     s.L * s.k8;
              0,        s.k7,    -s.L * s.k8,              0,           0,      -s.k7,    -s.L * s.k8,              0;
              0, -s.L * s.k8, s.L ^ 2 * s.k9,              0,           0, s.L * s.k8, s.L ^ 2 * s.k9,              0;
     s.L * s.k8,           0,              0, s.L ^ 2 * s.k9, -s.L * s.k8,          0,              0, s.L ^ 2 * s.k9;
          -s.k7,           0,              0,    -s.L * s.k8,        s.k7,          0,              0,    -s.L * s.k8;
              0,       -s.k7,     s.L * s.k8,              0,           0,       s.k7,     s.L * s.k8,              0;
              0, -s.L * s.k8, s.L ^ 2 * s.k9,              0,           0, s.L * s.k8, s.L ^ 2 * s.k9,              0;
     s.L * s.k8,           0,              0, s.L ^ 2 * s.k9, -s.L * s.k8,          0,              0, s.L ^ 2 * s.k9]

/-- The literal `Kaxial` (`shaft_element.py` 760-769). -/
noncomputable def Kaxial (s : ShaftElement) : Matrix (Fin 8) (Fin 8) ℝ :=
  !![ s.k10,      0,      0,  s.k11, -s.k10,      0,      0,  s.k11;
          0,  s.k10, -s.k11,      0,      0, -s.k10, -s.k11,      0;
          0, -s.k11,  s.k12,      0,      0,  s.k11, -s.k13,      0;
      s.k11,      0,      0,  s.k12, -s.k11,      0,      0, -s.k13;
     -s.k10,      0,      0, -s.k11,  s.k10,      0,      0, -s.k11;
          0, -s.k10,  s.k11,      0,      0,  s.k10,  s.k11,      0;
          0, -s.k11, -s.k13,      0,      0,  s.k11,  s.k12,      0;
      s.k11,      0,      0, -s.k13, -s.k11,      0,      0,  s.k12]

/-- The literal `Ktorque` (`shaft_element.py` 775-784). -/
noncomputable def Ktorque (s : ShaftElement) : Matrix (Fin 8) (Fin 8) ℝ :=
  !![ 0,  0,       1,        0,  0,  0,       -1,       0;
      0,  0,       0,        1,  0,  0,        0,      -1;
      1,  0,       0, -s.L / 2, -1,  0,        0, s.L / 2;
      0,  1, s.L / 2,        0,  0, -1, -s.L / 2,       0;
      0,  0,      -1,        0,  0,  0,        1,       0;
      0,  0,       0,       -1,  0,  0,        0,       1;
     -1,  0,       0, -s.L / 2,  1,  0,        0, s.L / 2;
      0, -1, s.L / 2,        0,  0,  1, -s.L / 2,       0]

/-- `ShaftElement.K` (`shaft_element.py` 652-790). -/
noncomputable def K (s : ShaftElement) : Matrix (Fin 8) (Fin 8) ℝ :=
  (s.material.E * (s.L ^ 3)⁻¹ * ((1 + s.phi) ^ 2)⁻¹) •
      ((s.Ie_l / 105) • s.K1 + (s.Ie * s.phi * s.A_l / s.A) • s.K2)
    + (s.axial_force / (30 * s.L * (1 + s.phi) ^ 2)) • s.Kaxial
    + (s.torque / s.L) • s.Ktorque

/-- `ShaftElement.C` (`shaft_element.py` 792-818). -/
noncomputable def C (s : ShaftElement) : Matrix (Fin 8) (Fin 8) ℝ :=
  s.alpha • s.M + s.beta • s.K

/-- `g1` (`shaft_element.py` 852). -/
noncomputable def g1 (s : ShaftElement) : ℝ :=
    252 + 126 * s.a2 + 72 * s.b2 + 45 * s.gama + 30 * s.delta

/-- `g2` (`shaft_element.py` 853-859). -/
noncomputable def g2 (s : ShaftElement) : ℝ :=
    (21 - 105 * s.phi + s.a2 * (21 - 42 * s.phi) + s.b2 * (15 - 21 * s.phi) + s.gama * (10.5 -
      12 * s.phi) + s.delta * (7.5 - 7.5 * s.phi))

/-- `g3` (`shaft_element.py` 860-866). -/
noncomputable def g3 (s : ShaftElement) : ℝ :=
    (21 - 105 * s.phi - 63 * s.a2 * s.phi - s.b2 * (6 + 42 * s.phi) - s.gama * (7.5 + 30 *
      s.phi) - s.delta * (7.5 + 22.5 * s.phi))

/-- `g4` (`shaft_element.py` 867-873). -/
noncomputable def g4 (s : ShaftElement) : ℝ :=
    (28 + 35 * s.phi + 70 * s.phi ^ 2 + s.a2 * (7 - 7 * s.phi + 17.5 * s.phi ^ 2) + s.b2 * (4 -
      7 * s.phi + 7 * s.phi ^ 2) + s.gama * (2.75 - 5 * s.phi + 3.5 * s.phi ^ 2) + s.delta * (2
      - 3.5 * s.phi + 2 * s.phi ^ 2))

/-- `g5` (`shaft_element.py` 874-880). -/
noncomputable def g5 (s : ShaftElement) : ℝ :=
    (7 + 35 * s.phi - 35 * s.phi ^ 2 + s.a2 * (3.5 + 17.5 * s.phi - 17.5 * s.phi ^ 2) + s.b2 *
      (3 + 10.5 * s.phi - 10.5 * s.phi ^ 2) + s.gama * (2.75 + 7 * s.phi - 7 * s.phi ^ 2) +
      s.delta * (2.5 + 5 * s.phi - 5 * s.phi ^ 2))

/-- `g6` (`shaft_element.py` 881-887). -/
noncomputable def g6 (s : ShaftElement) : ℝ :=
    (28 + 35 * s.phi + 70 * s.phi ^ 2 + s.a2 * (21 + 42 * s.phi + 52.5 * s.phi ^ 2) + s.b2 *
      (18 + 42 * s.phi + 42 * s.phi ^ 2) + s.gama * (16.25 + 40 * s.phi + 35 * s.phi ^ 2) +
      s.delta * (15 + 37.5 * s.phi + 30 * s.phi ^ 2))

/-- The literal `G` (`shaft_element.py` 889-898). -/
noncomputable def Glit (s : ShaftElement) : Matrix (Fin 8) (Fin 8) ℝ :=
  !![         0,       s.g1,     -s.L * s.g2,               0,           0,       -s.g1,     -s.L * s.g3,               0;
          -s.g1,          0,               0,     -s.L * s.g2,        s.g1,           0,               0,     -s.L * s.g3;
     s.L * s.g2,          0,               0,  s.L ^ 2 * s.g4, -s.L * s.g2,           0,               0, -s.L ^ 2 * s.g5;
              0, s.L * s.g2, -s.L ^ 2 * s.g4,               0,           0, -s.L * s.g2,  s.L ^ 2 * s.g5,               0;
              0,      -s.g1,      s.L * s.g2,               0,           0,        s.g1,      s.L * s.g3,               0;
           s.g1,          0,               0,      s.L * s.g2,       -s.g1,           0,               0,      s.L * s.g3;
     s.L * s.g3,          0,               0, -s.L ^ 2 * s.g5, -s.L * s.g3,           0,               0,  s.L ^ 2 * s.g6;
              0, s.L * s.g3,  s.L ^ 2 * s.g5,               0,           0, -s.L * s.g3, -s.L ^ 2 * s.g6,               0]

/-- `ShaftElement.G` (`shaft_element.py` 820-905). -/
noncomputable def G (s : ShaftElement) : Matrix (Fin 8) (Fin 8) ℝ :=
  if s.gyroscopic then
    (s.material.rho * s.Ie_l * 2 / (210 * s.L * (1 + s.phi) ^ 2)) • s.Glit
  else 0

/-! ### 6-dof matrices -/

/-- `m1` (`shaft_element.py` 1404-1408). -/
noncomputable def m1₆ (s : ShaftElement) : ℝ :=
    ((468 + 882 * s.phi + 420 * s.phi ^ 2) + s.a1 * (108 + 210 * s.phi + 105 * s.phi ^ 2) +
      s.b1 * (38 + 78 * s.phi + 42 * s.phi ^ 2))

/-- `m2` (`shaft_element.py` 1409-1413). -/
noncomputable def m2₆ (s : ShaftElement) : ℝ :=
    ((66 + 115.5 * s.phi + 52.5 * s.phi ^ 2) + s.a1 * (21 + 40.5 * s.phi + 21 * s.phi ^ 2) +
      s.b1 * (8.5 + 18 * s.phi + 10.5 * s.phi ^ 2)) * s.L

/-- `m3` (`shaft_element.py` 1414-1418). -/
noncomputable def m3₆ (s : ShaftElement) : ℝ :=
    ((162 + 378 * s.phi + 210 * s.phi ^ 2) + s.a1 * (81 + 189 * s.phi + 105 * s.phi ^ 2) + s.b1
      * (46 + 111 * s.phi + 63 * s.phi ^ 2))

/-- `m4` (`shaft_element.py` 1419-1423). -/
noncomputable def m4₆ (s : ShaftElement) : ℝ :=
    ((39 + 94.5 * s.phi + 52.5 * s.phi ^ 2) + s.a1 * (18 + 40.5 * s.phi + 21 * s.phi ^ 2) +
      s.b1 * (9.5 + 21 * s.phi + 10.5 * s.phi ^ 2)) * s.L

/-- `m5` (`shaft_element.py` 1424-1428). -/
noncomputable def m5₆ (s : ShaftElement) : ℝ :=
    ((12 + 21 * s.phi + 10.5 * s.phi ^ 2) + s.a1 * (4.5 + 9 * s.phi + 5.25 * s.phi ^ 2) + s.b1
      * (2 + 4.5 * s.phi + 3 * s.phi ^ 2)) * s.L ^ 2

/-- `m6` (`shaft_element.py` 1429-1433). -/
noncomputable def m6₆ (s : ShaftElement) : ℝ :=
    ((39 + 94.5 * s.phi + 52.5 * s.phi ^ 2) + s.a1 * (21 + 54 * s.phi + 31.5 * s.phi ^ 2) +
      s.b1 * (12.5 + 34.5 * s.phi + 21 * s.phi ^ 2)) * s.L

/-- `m7` (`shaft_element.py` 1434-1438). -/
noncomputable def m7₆ (s : ShaftElement) : ℝ :=
    ((9 + 21 * s.phi + 10.5 * s.phi ^ 2) + s.a1 * (4.5 + 10.5 * s.phi + 5.25 * s.phi ^ 2) +
      s.b1 * (2.5 + 6 * s.phi + 3 * s.phi ^ 2)) * s.L ^ 2

/-- `m8` (`shaft_element.py` 1439-1443). -/
noncomputable def m8₆ (s : ShaftElement) : ℝ :=
    ((468 + 882 * s.phi + 420 * s.phi ^ 2) + s.a1 * (360 + 672 * s.phi + 315 * s.phi ^ 2) +
      s.b1 * (290 + 540 * s.phi + 252 * s.phi ^ 2))

/-- `m9` (`shaft_element.py` 1444-1448). -/
noncomputable def m9₆ (s : ShaftElement) : ℝ :=
    ((66 + 115.5 * s.phi + 52.5 * s.phi ^ 2) + s.a1 * (45 + 75 * s.phi + 31.5 * s.phi ^ 2) +
      s.b1 * (32.5 + 52.5 * s.phi + 21 * s.phi ^ 2)) * s.L

/-- `m10` (`shaft_element.py` 1449-1453). -/
noncomputable def m10₆ (s : ShaftElement) : ℝ :=
    ((12 + 21 * s.phi + 10.5 * s.phi ^ 2) + s.a1 * (7.5 + 12 * s.phi + 5.25 * s.phi ^ 2) + s.b1
      * (5 + 7.5 * s.phi + 3 * s.phi ^ 2)) * s.L ^ 2

/-- `m11` (`shaft_element.py` 1474). -/
noncomputable def m11₆ (s : ShaftElement) : ℝ :=
    252 + 126 * s.a2 + 72 * s.b2 + 45 * s.gama + 30 * s.delta

/-- `m12` (`shaft_element.py` 1475-1481). -/
noncomputable def m12₆ (s : ShaftElement) : ℝ :=
    (21 - 105 * s.phi + s.a2 * (21 - 42 * s.phi) + s.b2 * (15 - 21 * s.phi) + s.gama * (10.5 -
      12 * s.phi) + s.delta * (7.5 - 7.5 * s.phi)) * s.L

/-- `m13` (`shaft_element.py` 1482-1488). -/
noncomputable def m13₆ (s : ShaftElement) : ℝ :=
    (21 - 105 * s.phi - 63 * s.a2 * s.phi - s.b2 * (6 + 42 * s.phi) - s.gama * (7.5 + 30 *
      s.phi) - s.delta * (7.5 + 22.5 * s.phi)) * s.L

/-- `m14` (`shaft_element.py` 1489-1495). -/
noncomputable def m14₆ (s : ShaftElement) : ℝ :=
    (28 + 35 * s.phi + 70 * s.phi ^ 2 + s.a2 * (7 - 7 * s.phi + 17.5 * s.phi ^ 2) + s.b2 * (4 -
      7 * s.phi + 7 * s.phi ^ 2) + s.gama * (2.75 - 5 * s.phi + 3.5 * s.phi ^ 2) + s.delta * (2
      - 3.5 * s.phi + 2 * s.phi ^ 2)) * s.L ^ 2

/-- `m15` (`shaft_element.py` 1496-1502). -/
noncomputable def m15₆ (s : ShaftElement) : ℝ :=
    (7 + 35 * s.phi - 35 * s.phi ^ 2 + s.a2 * (3.5 + 17.5 * s.phi - 17.5 * s.phi ^ 2) + s.b2 *
      (3 + 10.5 * s.phi - 10.5 * s.phi ^ 2) + s.gama * (2.75 + 7 * s.phi - 7 * s.phi ^ 2) +
      s.delta * (2.5 + 5 * s.phi - 5 * s.phi ^ 2)) * s.L ^ 2

/-- `m16` (`shaft_element.py` 1503-1509). -/
noncomputable def m16₆ (s : ShaftElement) : ℝ :=
    (28 + 35 * s.phi + 70 * s.phi ^ 2 + s.a2 * (21 + 42 * s.phi + 52.5 * s.phi ^ 2) + s.b2 *
      (18 + 42 * s.phi + 42 * s.phi ^ 2) + s.gama * (16.25 + 40 * s.phi + 35 * s.phi ^ 2) +
      s.delta * (15 + 37.5 * s.phi + 30 * s.phi ^ 2)) * s.L ^ 2

/-- The literal `M` (`shaft_element.py` 1456-1469). -/
noncomputable def Mt₆ (s : ShaftElement) : Matrix (Fin 12) (Fin 12) ℝ :=
  !![ s.m1₆,     0, 0,     0,  s.m2₆, 0,  s.m3₆,     0, 0,     0, -s.m4₆, 0;
         0,  s.m1₆, 0, -s.m2₆,     0, 0,     0,  s.m3₆, 0,  s.m4₆,     0, 0;
         0,     0, 0,     0,     0, 0,     0,     0, 0,     0,     0, 0;
         0, -s.m2₆, 0,  s.m5₆,     0, 0,     0, -s.m6₆, 0, -s.m7₆,     0, 0;
      s.m2₆,     0, 0,     0,  s.m5₆, 0,  s.m6₆,     0, 0,     0, -s.m7₆, 0;
         0,     0, 0,     0,     0, 0,     0,     0, 0,     0,     0, 0;
      s.m3₆,     0, 0,     0,  s.m6₆, 0,  s.m8₆,     0, 0,     0, -s.m9₆, 0;
         0,  s.m3₆, 0, -s.m6₆,     0, 0,     0,  s.m8₆, 0,  s.m9₆,     0, 0;
         0,     0, 0,     0,     0, 0,     0,     0, 0,     0,     0, 0;
         0,  s.m4₆, 0, -s.m7₆,     0, 0,     0,  s.m9₆, 0, s.m10₆,     0, 0;
     -s.m4₆,     0, 0,     0, -s.m7₆, 0, -s.m9₆,     0, 0,     0, s.m10₆, 0;
         0,     0, 0,     0,     0, 0,     0,     0, 0,     0,     0, 0]

/-- The literal `Mr` (`shaft_element.py` 1511-1524). -/
noncomputable def Mr₆ (s : ShaftElement) : Matrix (Fin 12) (Fin 12) ℝ :=
  !![ s.m11₆,      0, 0,      0,  s.m12₆, 0, -s.m11₆,      0, 0,      0,  s.m13₆, 0;
          0,  s.m11₆, 0, -s.m12₆,      0, 0,      0, -s.m11₆, 0, -s.m13₆,      0, 0;
          0,      0, 0,      0,      0, 0,      0,      0, 0,      0,      0, 0;
          0, -s.m12₆, 0,  s.m14₆,      0, 0,      0,  s.m12₆, 0, -s.m15₆,      0, 0;
      s.m12₆,      0, 0,      0,  s.m14₆, 0, -s.m12₆,      0, 0,      0, -s.m15₆, 0;
          0,      0, 0,      0,      0, 0,      0,      0, 0,      0,      0, 0;
     -s.m11₆,      0, 0,      0, -s.m12₆, 0,  s.m11₆,      0, 0,      0, -s.m13₆, 0;
          0, -s.m11₆, 0,  s.m12₆,      0, 0,      0,  s.m11₆, 0,  s.m13₆,      0, 0;
          0,      0, 0,      0,      0, 0,      0,      0, 0,      0,      0, 0;
          0, -s.m13₆, 0, -s.m15₆,      0, 0,      0,  s.m13₆, 0,  s.m16₆,      0, 0;
      s.m13₆,      0, 0,      0, -s.m15₆, 0, -s.m13₆,      0, 0,      0,  s.m16₆, 0;
          0,      0, 0,      0,      0, 0,      0,      0, 0,      0,      0, 0]

/-- The literal `Mam` (`shaft_element.py` 1531-1544). -/
noncomputable def Mam₆ (_s : ShaftElement) : Matrix (Fin 12) (Fin 12) ℝ :=
  !![0, 0, 0, 0, 0, 0, 0, 0, 0, 0, 0, 0;
     0, 0, 0, 0, 0, 0, 0, 0, 0, 0, 0, 0;
     0, 0, 2, 0, 0, 0, 0, 0, 1, 0, 0, 0;
     0, 0, 0, 0, 0, 0, 0, 0, 0, 0, 0, 0;
     0, 0, 0, 0, 0, 0, 0, 0, 0, 0, 0, 0;
     0, 0, 0, 0, 0, 0, 0, 0, 0, 0, 0, 0;
     0, 0, 0, 0, 0, 0, 0, 0, 0, 0, 0, 0;
     0, 0, 0, 0, 0, 0, 0, 0, 0, 0, 0, 0;
     0, 0, 1, 0, 0, 0, 0, 0, 2, 0, 0, 0;
     0, 0, 0, 0, 0, 0, 0, 0, 0, 0, 0, 0;
     0, 0, 0, 0, 0, 0, 0, 0, 0, 0, 0, 0;
     0, 0, 0, 0, 0, 0, 0, 0, 0, 0, 0, 0]

/-- The literal `Mts` (`shaft_element.py` 1551-1564). -/
noncomputable def Mts₆ (_s : ShaftElement) : Matrix (Fin 12) (Fin 12) ℝ :=
  !![0, 0, 0, 0, 0, 0, 0, 0, 0, 0, 0, 0;
     0, 0, 0, 0, 0, 0, 0, 0, 0, 0, 0, 0;
     0, 0, 0, 0, 0, 0, 0, 0, 0, 0, 0, 0;
     0, 0, 0, 0, 0, 0, 0, 0, 0, 0, 0, 0;
     0, 0, 0, 0, 0, 0, 0, 0, 0, 0, 0, 0;
     0, 0, 0, 0, 0, 2, 0, 0, 0, 0, 0, 1;
     0, 0, 0, 0, 0, 0, 0, 0, 0, 0, 0, 0;
     0, 0, 0, 0, 0, 0, 0, 0, 0, 0, 0, 0;
     0, 0, 0, 0, 0, 0, 0, 0, 0, 0, 0, 0;
     0, 0, 0, 0, 0, 0, 0, 0, 0, 0, 0, 0;
     0, 0, 0, 0, 0, 0, 0, 0, 0, 0, 0, 0;
     0, 0, 0, 0, 0, 1, 0, 0, 0, 0, 0, 2]

/-- `Ae` (`shaft_element.py` 1529, 1713). -/
noncomputable def Ae₆ (s : ShaftElement) : ℝ := (s.A_l + s.A_r) / 2

/-- `Je` (`shaft_element.py` 1549, 1733). -/
noncomputable def Je₆ (s : ShaftElement) : ℝ := 2 * (s.Ie_l + s.Ie_r) / 2

/-- `ShaftElement6DoF.M` (`shaft_element.py` 1381-1568). -/
noncomputable def M₆ (s : ShaftElement) : Matrix (Fin 12) (Fin 12) ℝ :=
  let M := (s.material.rho * s.A_l * s.L / (1260 * (1 + s.phi) ^ 2)) • s.Mt₆
  let M := if s.rotary_inertia then
      M + (s.material.rho * s.Ie_l / (210 * s.L * (1 + s.phi) ^ 2)) • s.Mr₆
    else M
  M + (s.material.rho * s.Ae₆ * s.L / 6) • s.Mam₆ + (s.material.rho * s.Je₆ * s.L / 6) • s.Mts₆

/-- `k1` (`shaft_element.py` 1595). -/
noncomputable def k1₆ (s : ShaftElement) : ℝ :=
    1260 + 630 * s.a2 + 504 * s.b2 + 441 * s.gama + 396 * s.delta

/-- `k2` (`shaft_element.py` 1596-1603). -/
noncomputable def k2₆ (s : ShaftElement) : ℝ :=
    (630 + 210 * s.a2 + 147 * s.b2 + 126 * s.gama + 114 * s.delta - s.phi * (105 * s.a2 + 105 *
      s.b2 + 94.5 * s.gama + 84 * s.delta)) * s.L

/-- `k3` (`shaft_element.py` 1604-1611). -/
noncomputable def k3₆ (s : ShaftElement) : ℝ :=
    (630 + 420 * s.a2 + 357 * s.b2 + 315 * s.gama + 282 * s.delta + s.phi * (105 * s.a2 + 105 *
      s.b2 + 94.5 * s.gama + 84 * s.delta)) * s.L

/-- `k4` (`shaft_element.py` 1612-1618). -/
noncomputable def k4₆ (s : ShaftElement) : ℝ :=
    (420 + 210 * s.phi + 105 * s.phi ^ 2 + s.a2 * (105 + 52.5 * s.phi ^ 2) + s.b2 * (56 - 35 *
      s.phi + 35 * s.phi ^ 2) + s.gama * (42 - 42 * s.phi + 26.25 * s.phi ^ 2) + s.delta * (36
      - 42 * s.phi + 21 * s.phi ^ 2)) * s.L ^ 2

/-- `k5` (`shaft_element.py` 1619-1625). -/
noncomputable def k5₆ (s : ShaftElement) : ℝ :=
    (210 - 210 * s.phi - 105 * s.phi ^ 2 + s.a2 * (105 - 105 * s.phi - 52.5 * s.phi ^ 2) + s.b2
      * (91 - 70 * s.phi - 35 * s.phi ^ 2) + s.gama * (84 - 52.5 * s.phi - 26.25 * s.phi ^ 2) +
      s.delta * (78 - 42 * s.phi - 21 * s.phi ^ 2)) * s.L ^ 2

/-- `k6` (`shaft_element.py` 1626-1632). -/
noncomputable def k6₆ (s : ShaftElement) : ℝ :=
    (420 + 210 * s.phi + 105 * s.phi ^ 2 + s.a2 * (315 + 210 * s.phi + 52.5 * s.phi ^ 2) + s.b2
      * (266 + 175 * s.phi + 35 * s.phi ^ 2) + s.gama * (231 + 147 * s.phi + 26.25 * s.phi ^ 2)
      + s.delta * (204 + 126 * s.phi + 21 * s.phi ^ 2)) * s.L ^ 2

/-- `k7` (`shaft_element.py` 1633). -/
noncomputable def k7₆ (s : ShaftElement) : ℝ :=
    12 + 6 * s.a1 + 4 * s.b1

/-- `k8` (`shaft_element.py` 1634). -/
noncomputable def k8₆ (s : ShaftElement) : ℝ :=
    (6 + 3 * s.a1 + 2 * s.b1) * s.L

/-- `k9` (`shaft_element.py` 1635). -/
noncomputable def k9₆ (s : ShaftElement) : ℝ :=
    (3 + 1.5 * s.a1 + s.b1) * s.L ^ 2

/-- `k10` (`shaft_element.py` 1671). -/
noncomputable def k10₆ (s : ShaftElement) : ℝ :=
    36 + 60 * s.phi + 30 * s.phi ^ 2

/-- `k11` (`shaft_element.py` 1672). -/
noncomputable def k11₆ (s : ShaftElement) : ℝ :=
    3 * s.L

/-- `k12` (`shaft_element.py` 1673). -/
noncomputable def k12₆ (s : ShaftElement) : ℝ :=
    (4 + 5 * s.phi + 2.5 * s.phi ^ 2) * s.L ^ 2

/-- `k13` (`shaft_element.py` 1674). -/
noncomputable def k13₆ (s : ShaftElement) : ℝ :=
    (1 + 5 * s.phi + 2.5 * s.phi ^ 2) * s.L ^ 2

/-- The literal `K1` (`shaft_element.py` 1637-1650). -/
noncomputable def K1₆ (s : ShaftElement) : Matrix (Fin 12) (Fin 12) ℝ :=
  !![ s.k1₆,     0, 0,     0,  s.k2₆, 0, -s.k1₆,     0, 0,     0,  s.k3₆, 0;
         0,  s.k1₆, 0, -s.k2₆,     0, 0,     0, -s.k1₆, 0, -s.k3₆,     0, 0;
         0,     0, 0,     0,     0, 0,     0,     0, 0,     0,     0, 0;
         0, -s.k2₆, 0,  s.k4₆,     0, 0,     0,  s.k2₆, 0,  s.k5₆,     0, 0;
      s.k2₆,     0, 0,     0,  s.k4₆, 0, -s.k2₆,     0, 0,     0,  s.k5₆, 0;
         0,     0, 0,     0,     0, 0,     0,     0, 0,     0,     0, 0;
     -s.k1₆,     0, 0,     0, -s.k2₆, 0,  s.k1₆,     0, 0,     0, -s.k3₆, 0;
         0, -s.k1₆, 0,  s.k2₆,     0, 0,     0,  s.k1₆, 0,  s.k3₆,     0, 0;
         0,     0, 0,     0,     0, 0,     0,     0, 0,     0,     0, 0;
         0, -s.k3₆, 0,  s.k5₆,     0, 0,     0,  s.k3₆, 0,  s.k6₆,     0, 0;
      s.k3₆,     0, 0,     0,  s.k5₆, 0, -s.k3₆,     0, 0,     0,  s.k6₆, 0;
         0,     0, 0,     0,     0, 0,     0,     0, 0,     0,     0, 0]

/-- The literal `K2` (`shaft_element.py` 1652-1665). -/
noncomputable def K2₆ (s : ShaftElement) : Matrix (Fin 12) (Fin 12) ℝ :=
  !![ s.k7₆,     0, 0,     0,  s.k8₆, 0, -s.k7₆,     0, 0,     0,  s.k8₆, 0;
         0,  s.k7₆, 0, -s.k8₆,     0, 0,     0, -s.k7₆, 0, -s.k8₆,     0, 0;
         0,     0, 0,     0,     0, 0,     0,     0, 0,     0,     0, 0;
         0, -s.k8₆, 0,  s.k9₆,     0, 0,     0,  s.k8₆, 0,  s.k9₆,     0, 0;
      s.k8₆,     0, 0,     0,  s.k9₆, 0, -s.k8₆,     0, 0,     0,  s.k9₆, 0;
         0,     0, 0,     0,     0, 0,     0,     0, 0,     0,     0, 0;
     -s.k7₆,     0, 0,     0, -s.k8₆, 0,  s.k7₆,     0, 0,     0, -s.k8₆, 0;
         0, -s.k7₆, 0,  s.k8₆,     0, 0,     0,  s.k7₆, 0,  s.k8₆,     0, 0;
         0,     0, 0,     0,     0, 0,     0,     0, 0,     0,     0, 0;
         0, -s.k8₆, 0,  s.k9₆,     0, 0,     0,  s.k8₆, 0,  s.k9₆,     0, 0;
      s.k8₆,     0, 0,     0,  s.k9₆, 0, -s.k8₆,     0, 0,     0,  s.k9₆, 0;
         0,     0, 0,     0,     0, 0,     0,     0, 0,     0,     0, 0]

/-- The literal `Kaf` (`shaft_element.py` 1676-1689). -/
noncomputable def Kaf₆ (s : ShaftElement) : Matrix (Fin 12) (Fin 12) ℝ :=
  !![ s.k10₆,      0, 0,      0,  s.k11₆, 0, -s.k10₆,      0, 0,      0,  s.k11₆, 0;
          0,  s.k10₆, 0, -s.k11₆,      0, 0,      0, -s.k10₆, 0, -s.k11₆,      0, 0;
          0,      0, 0,      0,      0, 0,      0,      0, 0,      0,      0, 0;
          0, -s.k11₆, 0,  s.k12₆,      0, 0,      0,  s.k11₆, 0, -s.k13₆,      0, 0;
      s.k11₆,      0, 0,      0,  s.k12₆, 0, -s.k11₆,      0, 0,      0, -s.k13₆, 0;
          0,      0, 0,      0,      0, 0,      0,      0, 0,      0,      0, 0;
     -s.k10₆,      0, 0,      0, -s.k11₆, 0,  s.k10₆,      0, 0,      0, -s.k11₆, 0;
          0, -s.k10₆, 0,  s.k11₆,      0, 0,      0,  s.k10₆, 0,  s.k11₆,      0, 0;
          0,      0, 0,      0,      0, 0,      0,      0, 0,      0,      0, 0;
          0, -s.k11₆, 0, -s.k13₆,      0, 0,      0,  s.k11₆, 0,  s.k12₆,      0, 0;
      s.k11₆,      0, 0,      0, -s.k13₆, 0, -s.k11₆,      0, 0,      0,  s.k12₆, 0;
          0,      0, 0,      0,      0, 0,      0,      0, 0,      0,      0, 0]

/-- The literal `Ktq` (`shaft_element.py` 1695-1708). -/
noncomputable def Ktq₆ (s : ShaftElement) : Matrix (Fin 12) (Fin 12) ℝ :=
  !![ 0,  0, 0,       1,        0, 0,  0,  0, 0,       -1,       0, 0;
      0,  0, 0,       0,        1, 0,  0,  0, 0,        0,      -1, 0;
      0,  0, 0,       0,        0, 0,  0,  0, 0,        0,       0, 0;
      1,  0, 0,       0, -s.L / 2, 0, -1,  0, 0,        0, s.L / 2, 0;
      0,  1, 0, s.L / 2,        0, 0,  0, -1, 0, -s.L / 2,       0, 0;
      0,  0, 0,       0,        0, 0,  0,  0, 0,        0,       0, 0;
      0,  0, 0,      -1,        0, 0,  0,  0, 0,        1,       0, 0;
      0,  0, 0,       0,       -1, 0,  0,  0, 0,        0,       1, 0;
      0,  0, 0,       0,        0, 0,  0,  0, 0,        0,       0, 0;
     -1,  0, 0,       0, -s.L / 2, 0,  1,  0, 0,        0, s.L / 2, 0;
      0, -1, 0, s.L / 2,        0, 0,  0,  1, 0, -s.L / 2,       0, 0;
      0,  0, 0,       0,        0, 0,  0,  0, 0,        0,       0, 0]

/-- The literal `Kam` (`shaft_element.py` 1715-1728). -/
noncomputable def Kam₆ (_s : ShaftElement) : Matrix (Fin 12) (Fin 12) ℝ :=
  !![0, 0,  0, 0, 0, 0, 0, 0,  0, 0, 0, 0;
     0, 0,  0, 0, 0, 0, 0, 0,  0, 0, 0, 0;
     0, 0,  1, 0, 0, 0, 0, 0, -1, 0, 0, 0;
     0, 0,  0, 0, 0, 0, 0, 0,  0, 0, 0, 0;
     0, 0,  0, 0, 0, 0, 0, 0,  0, 0, 0, 0;
     0, 0,  0, 0, 0, 0, 0, 0,  0, 0, 0, 0;
     0, 0,  0, 0, 0, 0, 0, 0,  0, 0, 0, 0;
     0, 0,  0, 0, 0, 0, 0, 0,  0, 0, 0, 0;
     0, 0, -1, 0, 0, 0, 0, 0,  1, 0, 0, 0;
     0, 0,  0, 0, 0, 0, 0, 0,  0, 0, 0, 0;
     0, 0,  0, 0, 0, 0, 0, 0,  0, 0, 0, 0;
     0, 0,  0, 0, 0, 0, 0, 0,  0, 0, 0, 0]

/-- The literal `Kts` (`shaft_element.py` 1735-1748). -/
noncomputable def Kts₆ (_s : ShaftElement) : Matrix (Fin 12) (Fin 12) ℝ :=
  !![0, 0, 0, 0, 0,  0, 0, 0, 0, 0, 0,  0;
     0, 0, 0, 0, 0,  0, 0, 0, 0, 0, 0,  0;
     0, 0, 0, 0, 0,  0, 0, 0, 0, 0, 0,  0;
     0, 0, 0, 0, 0,  0, 0, 0, 0, 0, 0,  0;
     0, 0, 0, 0, 0,  0, 0, 0, 0, 0, 0,  0;
     0, 0, 0, 0, 0,  1, 0, 0, 0, 0, 0, -1;
     0, 0, 0, 0, 0,  0, 0, 0, 0, 0, 0,  0;
     0, 0, 0, 0, 0,  0, 0, 0, 0, 0, 0,  0;
     0, 0, 0, 0, 0,  0, 0, 0, 0, 0, 0,  0;
     0, 0, 0, 0, 0,  0, 0, 0, 0, 0, 0,  0;
     0, 0, 0, 0, 0,  0, 0, 0, 0, 0, 0,  0;
     0, 0, 0, 0, 0, -1, 0, 0, 0, 0, 0,  1]

/-- `ShaftElement6DoF.K` (`shaft_element.py` 1570-1752). -/
noncomputable def K₆ (s : ShaftElement) : Matrix (Fin 12) (Fin 12) ℝ :=
  (s.material.E * (s.L ^ 3)⁻¹ * ((1 + s.phi) ^ 2)⁻¹) •
      ((s.Ie_l / 105) • s.K1₆ + (s.Ie * s.phi * s.A_l / s.A) • s.K2₆)
    + (s.axial_force / (30 * s.L * (1 + s.phi) ^ 2)) • s.Kaf₆
    + (s.torque / s.L) • s.Ktq₆
    + (s.material.E * s.Ae₆ / s.L) • s.Kam₆
    + (s.material.G_s * s.Je₆ / s.L) • s.Kts₆

/-- The literal `Kst` (`shaft_element.py` 1777-1790). -/
noncomputable def KstLit₆ (s : ShaftElement) : Matrix (Fin 12) (Fin 12) ℝ :=
  !![0,      -36, 0,     3 * s.L, 0, 0, 0,      36, 0,     3 * s.L, 0, 0;
     0,        0, 0,           0, 0, 0, 0,       0, 0,           0, 0, 0;
     0,        0, 0,           0, 0, 0, 0,       0, 0,           0, 0, 0;
     0,        0, 0,           0, 0, 0, 0,       0, 0,           0, 0, 0;
     0, -3 * s.L, 0, 4 * s.L ^ 2, 0, 0, 0, 3 * s.L, 0,    -s.L ^ 2, 0, 0;
     0,        0, 0,           0, 0, 0, 0,       0, 0,           0, 0, 0;
     0,       36, 0,    -3 * s.L, 0, 0, 0,     -36, 0,    -3 * s.L, 0, 0;
     0,        0, 0,           0, 0, 0, 0,       0, 0,           0, 0, 0;
     0,        0, 0,           0, 0, 0, 0,       0, 0,           0, 0, 0;
     0,        0, 0,           0, 0, 0, 0,       0, 0,           0, 0, 0;
     0, -3 * s.L, 0,    -s.L ^ 2, 0, 0, 0, 3 * s.L, 0, 4 * s.L ^ 2, 0, 0;
     0,        0, 0,           0, 0, 0, 0,       0, 0,           0, 0, 0]

/-- `ShaftElement6DoF.Kst` (`shaft_element.py` 1754-1793). -/
noncomputable def Kst₆ (s : ShaftElement) : Matrix (Fin 12) (Fin 12) ℝ :=
  (s.material.rho * ((s.Ie_l + s.Ie_r) / 2) / (15 * s.L)) • s.KstLit₆

/-- `ShaftElement6DoF.C` (`shaft_element.py` 1795-1813). -/
noncomputable def C₆ (s : ShaftElement) : Matrix (Fin 12) (Fin 12) ℝ :=
  s.alpha • s.M₆ + s.beta • s.K₆

/-- `g1` (`shaft_element.py` 1843). -/
noncomputable def g1₆ (s : ShaftElement) : ℝ :=
    252 + 126 * s.a2 + 72 * s.b2 + 45 * s.gama + 30 * s.delta

/-- `g2` (`shaft_element.py` 1844-1851). -/
noncomputable def g2₆ (s : ShaftElement) : ℝ :=
    (21 - 105 * s.phi + s.a2 * (21 - 42 * s.phi) + s.b2 * (15 - 21 * s.phi) + s.gama * (10.5 -
      12 * s.phi) + s.delta * (7.5 - 7.5 * s.phi)) * s.L

/-- `g3` (`shaft_element.py` 1852-1859). -/
noncomputable def g3₆ (s : ShaftElement) : ℝ :=
    (21 - 105 * s.phi - 63 * s.a2 * s.phi - s.b2 * (6 + 42 * s.phi) - s.gama * (7.5 + 30 *
      s.phi) - s.delta * (7.5 + 22.5 * s.phi)) * s.L

/-- `g4` (`shaft_element.py` 1860-1868). -/
noncomputable def g4₆ (s : ShaftElement) : ℝ :=
    (28 + 35 * s.phi + 70 * s.phi ^ 2 + s.a2 * (7 - 7 * s.phi + 17.5 * s.phi ^ 2) + s.b2 * (4 -
      7 * s.phi + 7 * s.phi ^ 2) + s.gama * (2.75 - 5 * s.phi + 3.5 * s.phi ^ 2) + s.delta * (2
      - 3.5 * s.phi + 2 * s.phi ^ 2)) * s.L ^ 2

/-- `g5` (`shaft_element.py` 1869-1877). -/
noncomputable def g5₆ (s : ShaftElement) : ℝ :=
    (7 + 35 * s.phi - 35 * s.phi ^ 2 + s.a2 * (3.5 + 17.5 * s.phi - 17.5 * s.phi ^ 2) + s.b2 *
      (3 + 10.5 * s.phi - 10.5 * s.phi ^ 2) + s.gama * (2.75 + 7 * s.phi - 7 * s.phi * 2) +
      s.delta * (2.5 + 5 * s.phi - 5 * s.phi ^ 2)) * s.L ^ 2

/-- `g6` (`shaft_element.py` 1878-1886). -/
noncomputable def g6₆ (s : ShaftElement) : ℝ :=
    (28 + 35 * s.phi + 70 * s.phi ^ 2 + s.a2 * (21 + 42 * s.phi + 52.5 * s.phi ^ 2) + s.b2 *
      (18 + 42 * s.phi + 42 * s.phi ^ 2) + s.gama * (16.25 + 40 * s.phi + 35 * s.phi ^ 2) +
      s.delta * (15 + 37.5 * s.phi + 30 * s.phi ^ 2)) * s.L ^ 2

/-- The literal `G` (`shaft_element.py` 1888-1901). -/
noncomputable def Glit₆ (s : ShaftElement) : Matrix (Fin 12) (Fin 12) ℝ :=
  !![    0,  s.g1₆, 0, -s.g2₆,     0, 0,     0, -s.g1₆, 0, -s.g3₆,     0, 0;
     -s.g1₆,     0, 0,     0, -s.g2₆, 0,  s.g1₆,     0, 0,     0, -s.g3₆, 0;
         0,     0, 0,     0,     0, 0,     0,     0, 0,     0,     0, 0;
      s.g2₆,     0, 0,     0,  s.g4₆, 0, -s.g2₆,     0, 0,     0, -s.g5₆, 0;
         0,  s.g2₆, 0, -s.g4₆,     0, 0,     0, -s.g2₆, 0,  s.g5₆,     0, 0;
         0,     0, 0,     0,     0, 0,     0,     0, 0,     0,     0, 0;
         0, -s.g1₆, 0,  s.g2₆,     0, 0,     0,  s.g1₆, 0,  s.g3₆,     0, 0;
      s.g1₆,     0, 0,     0,  s.g2₆, 0, -s.g1₆,     0, 0,     0,  s.g3₆, 0;
         0,     0, 0,     0,     0, 0,     0,     0, 0,     0,     0, 0;
      s.g3₆,     0, 0,     0, -s.g5₆, 0, -s.g3₆,     0, 0,     0,  s.g6₆, 0;
         0,  s.g3₆, 0,  s.g5₆,     0, 0,     0, -s.g3₆, 0, -s.g6₆,     0, 0;
         0,     0, 0,     0,     0, 0,     0,     0, 0,     0,     0, 0]

/-- `ShaftElement6DoF.G` (`shaft_element.py` 1815-1907). -/
noncomputable def G₆ (s : ShaftElement) : Matrix (Fin 12) (Fin 12) ℝ :=
  if s.gyroscopic then
    (s.material.rho * s.Ie_l * 2 / (210 * s.L * (1 + s.phi) ^ 2)) • s.Glit₆
  else 0

end ShaftElement

end Ross
