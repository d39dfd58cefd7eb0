import Verif.Model.Persist
import Verif.Model.Cylindrical

/-!
# Model of saving and loading magnetic, cylindrical and fluid-film bearings

They inherit `BearingElement.save` (`ross/bearing_seal_element.py` 444-487) and `Element.load`
(`ross/element.py` 57-95), with the signatures of their own constructors.
-/

namespace Ross

namespace Persist

/-- The parameters of `MagneticBearingElement.__init__` (`bearing_seal_element.py` 1458-1473),
`kwargs` left out. -/
def magneticParams : List String :=
  ["n", "g0", "i0", "ag", "nw", "alpha", "kp_pid", "kd_pid", "k_amp", "k_sense", "tag", "n_link",
    "scale_factor"]

/-- The parameters of `CylindricalBearing.__init__` (`bearing_seal_element.py` 1629-1639), `kwargs`
left out. -/
def cylindricalParams : List String :=
  ["n", "speed", "weight", "bearing_length", "journal_diameter", "radial_clearance", "oil_viscosity"]

/-- The parameters of `BearingFluidFlow.__init__` (`bearing_seal_element.py` 972-991). -/
def fluidFlowParams : List String :=
  ["n", "nz", "ntheta", "length", "omega", "p_in", "p_out", "radius_rotor", "radius_stator", "visc",
    "rho", "eccentricity", "load", "tag", "n_link", "scale_factor", "color"]

/-- An argument of the magnetic bearing as a value. -/
def ofParam : Param → Val
  | .num x => .num x
  | .list l => .arr l

/-- A number or a list. -/
def asParam : Val → Res Param
  | .num x => .ok (.num x)
  | .arr l => .ok (.list l)
  | _ => .error .typeError

/-- Attributes of a magnetic bearing: those of a bearing and the nine numbers of lines 1475-1483. -/
def magneticAttrs (a : MagneticArgs) (b : BearingElement) : Table :=
  brgAttrs b ++
    [("g0", ofParam a.g0), ("i0", ofParam a.i0), ("ag", ofParam a.ag), ("nw", ofParam a.nw),
     ("alpha", ofParam a.alpha), ("kp_pid", ofParam a.kp_pid), ("kd_pid", ofParam a.kd_pid),
     ("k_amp", ofParam a.k_amp), ("k_sense", ofParam a.k_sense)]

/-- Attributes of a cylindrical bearing: those of a bearing and those of lines 1641-1655. -/
def cylindricalAttrs (a : CylindricalArgs) (b : CylindricalBearing) : Table :=
  brgAttrs b.base ++
    [("speed", .arr b.speed), ("weight", .num a.weight), ("bearing_length", .num a.bearing_length),
     ("journal_diameter", .num a.journal_diameter), ("radial_clearance", .num a.radial_clearance),
     ("oil_viscosity", .num a.oil_viscosity)]

/-- The file that saving to a new file leaves, given the name of the class, the tag and the data
(`bearing_seal_element.py` 484-487). -/
def newFile (cls : String) (tag : Option String) (t : Table) : TomlFile :=
  Toml.dump [(cls ++ "_" ++ tag.getD "None", t)]

/-- `MagneticBearingElement.save` on a new file (`bearing_seal_element.py` 444-487). -/
def saveMagnetic (a : MagneticArgs) (b : BearingElement) : Res TomlFile := do
  let t ← collect .keyError (magneticAttrs a b) (magneticParams ++ coefNames)
  pure (newFile "MagneticBearingElement" b.tag t)

/-- `CylindricalBearing.save` on a new file. -/
def saveCylindrical (a : CylindricalArgs) (b : CylindricalBearing) : Res TomlFile := do
  let t ← collect .keyError (cylindricalAttrs a b) (cylindricalParams ++ coefNames)
  pure (newFile "CylindricalBearing" b.base.tag t)

/-- `BearingFluidFlow.save` on a new file: the attributes are those of a bearing
(`bearing_seal_element.py` 992-1032). -/
def saveFluidFlow (b : BearingElement) : Res TomlFile := do
  let t ← collect .keyError (brgAttrs b) (fluidFlowParams ++ coefNames)
  pure (newFile "BearingFluidFlow" b.tag t)

/-- `MagneticBearingElement(**data)` (`bearing_seal_element.py` 1458-1564); the keywords that are
not parameters go into `kwargs`, which is not used.  With the element the arguments that it keeps. -/
noncomputable def callMagnetic (sp : Scipy) (t : Table) : Res (MagneticArgs × BearingElement) := do
  let n ← req asInt t "n"
  let g0 ← req asParam t "g0"
  let i0 ← req asParam t "i0"
  let ag ← req asParam t "ag"
  let nw ← req asParam t "nw"
  let alpha ← req asParam t "alpha"
  let kp_pid ← req asParam t "kp_pid"
  let kd_pid ← req asParam t "kd_pid"
  let k_amp ← req asParam t "k_amp"
  let k_sense ← req asParam t "k_sense"
  let tag ← opt asStr t "tag"
  let n_link ← opt asInt t "n_link"
  let scale_factor ← dflt asNum t "scale_factor" 1
  let a : MagneticArgs :=
    ⟨n, g0, i0, ag, nw, alpha, kp_pid, kd_pid, k_amp, k_sense, tag, n_link, scale_factor⟩
  let b ← Magnetic.init a sp
  pure (a, b)

/-- The names of the arguments that line 1727 of `bearing_seal_element.py` gives to the constructor
of the parent class besides `**kwargs`. -/
def cylindricalGiven : List String :=
  ["n", "frequency", "kxx", "kxy", "kyx", "kyy", "cxx", "cxy", "cyx", "cyy"]

/-- `**coefficients_dict, **kwargs` in the call of line 1727: a name that is given twice raises
`TypeError`; `kwargs` are the keywords of `t` that are not parameters. -/
def cylindricalTwice (t : Table) : Res Unit :=
  if t.keys.any fun k => decide (k ∉ cylindricalParams ∧ k ∈ cylindricalGiven) then
    .error .typeError
  else .ok ()

/-- `CylindricalBearing(**data)` (`bearing_seal_element.py` 1629-1727), for data with all the
parameters. -/
noncomputable def callCylindrical (sp : Scipy) (pr : PolyRoots) (t : Table) :
    Res (CylindricalArgs × CylindricalBearing) := do
  let n ← req asInt t "n"
  let speed ← req asArr t "speed"
  let weight ← req asNum t "weight"
  let bearing_length ← req asNum t "bearing_length"
  let journal_diameter ← req asNum t "journal_diameter"
  let radial_clearance ← req asNum t "radial_clearance"
  let oil_viscosity ← req asNum t "oil_viscosity"
  cylindricalTwice t
  let tag ← opt asStr t "tag"
  let n_link ← opt asInt t "n_link"
  let scale_factor ← dflt asNum t "scale_factor" 1
  let color ← dflt asStr t "color" "#355d7a"
  let a : CylindricalArgs :=
    ⟨n, speed, weight, bearing_length, journal_diameter, radial_clearance, oil_viscosity, tag, n_link,
      scale_factor, color⟩
  let b ← CylindricalBearing.init sp pr a
  pure (a, b)

/-- `MagneticBearingElement.load(file)` (`element.py` 90-95). -/
noncomputable def loadMagnetic (sp : Scipy) (file : TomlFile) :
    Res (MagneticArgs × BearingElement) :=
  match file.values with
  | [] => .error .indexError
  | t :: _ => callMagnetic sp t

/-- `CylindricalBearing.load(file)` (`element.py` 90-95). -/
noncomputable def loadCylindrical (sp : Scipy) (pr : PolyRoots) (file : TomlFile) :
    Res (CylindricalArgs × CylindricalBearing) :=
  match file.values with
  | [] => .error .indexError
  | t :: _ => callCylindrical sp pr t

end Persist

end Ross
