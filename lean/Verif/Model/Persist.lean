import Verif.Model.Rotor
import Verif.Model.RollingBearing

/-!
# Model of saving and loading elements and rotors

`ross/element.py` 21-95, `ross/shaft_element.py` 403-431, `ross/bearing_seal_element.py` 444-487 and
`ross/rotor_assembly.py` 3016-3097, with the signatures and the attributes of the classes.

The package `toml` is modelled by what it does to dictionaries: a value `None` is not written, every
other value comes back as it was (`Toml.dump` is writing a file and reading it back).  The values that
are written are Python numbers, strings, booleans, lists of numbers and dictionaries; numpy scalars,
which the package writes as strings, are not modelled.
-/

namespace Ross

/-- A Python value that can be an attribute of an element or an entry of a file. -/
inductive Val
  | null
  | num (x : ℝ)
  | int (n : ℕ)
  | str (s : String)
  | bool (b : Bool)
  | arr (l : List ℝ)
  /-- A `Material` object. -/
  | mat (m : Material)
  | tab (t : List (String × Val))

/-- A dictionary of values. -/
abbrev Table := Dict String Val

/-- The content of a file: one table per element. -/
abbrev TomlFile := Dict String Table

namespace Val

/-- `x`, or `None`. -/
def ofNum? : Option ℝ → Val
  | some x => .num x
  | none => .null

/-- `n`, or `None`. -/
def ofInt? : Option ℕ → Val
  | some n => .int n
  | none => .null

/-- `s`, or `None`. -/
def ofStr? : Option String → Val
  | some s => .str s
  | none => .null

/-- A list of numbers, or `None`. -/
def ofArr? : Option (List ℝ) → Val
  | some l => .arr l
  | none => .null

/-- `v is None`. -/
def isNull : Val → Bool
  | null => true
  | _ => false

end Val

namespace Toml

/-- A value written and read back; files have at most one level of tables inside the tables of the
elements.  An object that is none of the known types is written as its text. -/
def value : Val → Val
  | .tab t => .tab (t.filter fun kv => !kv.2.isNull)
  | .mat m => .str m.name
  | v => v

/-- A table written and read back: entries with the value `None` are not written. -/
def table (t : Table) : Table :=
  (t.filter fun kv => !kv.2.isNull).map fun kv => (kv.1, value kv.2)

/-- `toml.dump(data, f)` followed by `toml.load(file)`. -/
def dump (f : TomlFile) : TomlFile := f.map fun kv => (kv.1, table kv.2)

end Toml

/-! ### Signatures and attributes of the classes -/

namespace Persist

/-- The parameters of `ShaftElement.__init__` (`shaft_element.py` 142-160); the 6-dof class inherits
it. -/
def shaftParams : List String :=
  ["L", "idl", "odl", "idr", "odr", "material", "n", "axial_force", "torque", "shear_effects",
    "rotary_inertia", "gyroscopic", "shear_method_calc", "tag", "alpha", "beta"]

/-- The parameters of `DiskElement.__init__` (`disk_element.py` 59); the 6-dof class inherits it. -/
def diskParams : List String := ["n", "m", "Id", "Ip", "tag", "scale_factor", "color"]

/-- The parameters of `PointMass.__init__` (`point_mass.py` 56). -/
def pmParams : List String := ["n", "m", "mx", "my", "tag", "color"]

/-- The parameters of `PointMass6DoF.__init__` (`point_mass.py` 369-371). -/
def pm6Params : List String := ["n", "m", "mx", "my", "mz", "tag", "color"]

/-- The parameters of `BearingElement.__init__` (`bearing_seal_element.py` 120-140), `kwargs`
left out. -/
def brgParams : List String :=
  ["n", "kxx", "cxx", "mxx", "kyy", "kxy", "kyx", "cyy", "cxy", "cyx", "myy", "mxy", "myx",
    "frequency", "tag", "n_link", "scale_factor", "color"]

/-- The parameters of `SealElement.__init__` (`bearing_seal_element.py` 1115-1137), `kwargs` left
out. -/
def sealParams : List String :=
  ["n", "kxx", "cxx", "mxx", "kyy", "kxy", "kyx", "cyy", "cxy", "cyx", "myy", "mxy", "myx",
    "frequency", "seal_leakage", "tag", "n_link", "scale_factor", "color"]

/-- The parameters of `BearingElement6DoF.__init__` (`bearing_seal_element.py` 1795-1818). -/
def brg6Params : List String :=
  ["n", "kxx", "cxx", "mxx", "kyy", "cyy", "myy", "kxy", "kyx", "kzz", "cxy", "cyx", "czz", "mxy",
    "myx", "mzz", "frequency", "tag", "n_link", "scale_factor", "color"]

/-- The parameters of `BallBearingElement.__init__` (`bearing_seal_element.py` 1225-1237). -/
def ballParams : List String :=
  ["n", "n_balls", "d_balls", "fs", "alpha", "cxx", "cyy", "tag", "n_link", "scale_factor"]

/-- The parameters of `RollerBearingElement.__init__` (`bearing_seal_element.py` 1342-1354). -/
def rollerParams : List String :=
  ["n", "n_rollers", "l_rollers", "fs", "alpha", "cxx", "cyy", "tag", "n_link", "scale_factor"]

/-- The coefficients that `BearingElement.save` adds (`bearing_seal_element.py` 452-465). -/
def coefNames : List String :=
  ["kxx", "kyy", "kxy", "kyx", "cxx", "cyy", "cxy", "cyx", "mxx", "myy", "mxy", "myx"]

/-- Attributes of a shaft element (`shaft_element.py` 169-197), those that `save` reads. -/
def shaftAttrs (s : ShaftElement) : Table :=
  [("L", .num s.L), ("idl", .num s.idl), ("odl", .num s.odl), ("idr", .num s.idr),
   ("odr", .num s.odr), ("material", .mat s.material), ("n", .ofInt? s.n),
   ("axial_force", .num s.axial_force), ("torque", .num s.torque),
   ("shear_effects", .bool s.shear_effects), ("rotary_inertia", .bool s.rotary_inertia),
   ("gyroscopic", .bool s.gyroscopic), ("shear_method_calc", .str s.shear_method_calc),
   ("tag", .ofStr? s.tag), ("alpha", .num s.alpha), ("beta", .num s.beta)]

/-- Attributes of a disk (`disk_element.py` 60-70). -/
def diskAttrs (d : DiskElement) : Table :=
  [("n", .int d.n), ("m", .num d.m), ("Id", .num d.Id), ("Ip", .num d.Ip), ("tag", .ofStr? d.tag),
   ("color", .str d.color), ("scale_factor", .num d.scale_factor)]

/-- Attributes of a point mass (`point_mass.py` 57-69). -/
def pmAttrs (p : PointMass) : Table :=
  [("n", .ofInt? p.n), ("m", .ofNum? p.m), ("mx", .num p.mx), ("my", .num p.my),
   ("tag", .ofStr? p.tag), ("color", .str p.color)]

/-- Attributes of a 6-dof point mass (`point_mass.py` 372-385): there is no attribute `m`. -/
def pm6Attrs (p : PointMass6DoF) : Table :=
  [("n", .ofInt? p.n), ("mx", .num p.mx), ("my", .num p.my), ("mz", .num p.mz),
   ("tag", .ofStr? p.tag), ("color", .str p.color)]

/-- Attributes of a bearing (`bearing_seal_element.py` 141-208); arrays are turned into lists when
they are saved (470-482). -/
def brgAttrs (b : BearingElement) : Table :=
  [("frequency", .ofArr? b.frequency), ("kxx", .arr b.kxx.values), ("kyy", .arr b.kyy.values),
   ("kxy", .arr b.kxy.values), ("kyx", .arr b.kyx.values), ("cxx", .arr b.cxx.values),
   ("cyy", .arr b.cyy.values), ("cxy", .arr b.cxy.values), ("cyx", .arr b.cyx.values),
   ("mxx", .arr b.mxx.values), ("myy", .arr b.myy.values), ("mxy", .arr b.mxy.values),
   ("myx", .arr b.myx.values), ("n", .int b.n), ("n_link", .ofInt? b.n_link),
   ("tag", .ofStr? b.tag), ("color", .str b.color), ("scale_factor", .num b.scale_factor)]

/-- Attributes of a seal (`bearing_seal_element.py` 1138-1161): those of a bearing and
`seal_leakage`, whose value is not modelled (taken to be `None`). -/
def sealAttrs (b : BearingElement) : Table := brgAttrs b ++ [("seal_leakage", .null)]

/-- Attributes of a 6-dof bearing (`bearing_seal_element.py` 1819-1864). -/
def brg6Attrs (b : BearingElement6DoF) : Table :=
  brgAttrs b.base ++
    [("kzz", .arr b.kzz.values), ("czz", .arr b.czz.values), ("mzz", .arr b.mzz.values)]

/-! ### Saving -/

/-- `{arg: getattr(self, arg) for arg in args}` (`element.py` 44-46): `err` is raised for a missing
attribute.  The keys of a dictionary are unique, so that a name that occurs twice is stored once. -/
def collect (err : PyErr) (attrs : Table) (params : List String) : Res Table :=
  params.foldlM (fun (t : Table) p =>
    match attrs.get? p with
    | some v => .ok (t.set p v)
    | none => .error err) []

/-- The table of a material (`shaft_element.py` 410-416). -/
def materialTable (m : Material) : Table :=
  [("name", .str m.name), ("rho", .num m.rho), ("E", .num m.E), ("G_s", .num m.G_s),
   ("color", .str m.color)]

/-- The data that `ShaftElement.save` writes (`shaft_element.py` 403-416). -/
def shaftData (s : ShaftElement) : Res Table := do
  let t ← collect .attributeError (shaftAttrs s) shaftParams
  pure (t.set "material" (.tab (materialTable s.material)))

/-- The data that `Element.save` writes for the class of the element (`element.py` 43-46), for
bearings `BearingElement.save` (`bearing_seal_element.py` 450-482), which reads `self.__dict__`. -/
def data : Elm → Res Table
  | .shaft e => shaftData e.s
  | .disk e => collect .attributeError (diskAttrs e.d) diskParams
  | .brg (.brg false b) => collect .keyError (brgAttrs b) (brgParams ++ coefNames)
  | .brg (.brg true b) => collect .keyError (sealAttrs b) (sealParams ++ coefNames)
  | .brg (.brg6 b) => collect .keyError (brg6Attrs b) (brg6Params ++ coefNames)
  | .pm (.pm p) => collect .attributeError (pmAttrs p) pmParams
  | .pm (.pm6 p) => collect .attributeError (pm6Attrs p) pm6Params

/-- `self.__class__.__name__`; a bearing is of the class `BearingElement` itself. -/
def className : Elm → String
  | .shaft ⟨false, _⟩ => "ShaftElement"
  | .shaft ⟨true, _⟩ => "ShaftElement6DoF"
  | .disk ⟨false, _⟩ => "DiskElement"
  | .disk ⟨true, _⟩ => "DiskElement6DoF"
  | .brg (.brg false _) => "BearingElement"
  | .brg (.brg true _) => "SealElement"
  | .brg (.brg6 _) => "BearingElement6DoF"
  | .pm (.pm _) => "PointMass"
  | .pm (.pm6 _) => "PointMass6DoF"

/-- `f"{self.__class__.__name__}_{self.tag}"` (`element.py` 52). -/
def key (e : Elm) : String := className e ++ "_" ++ e.tag.getD "None"

/-- `el.save(file)` (`element.py` 43-54, `shaft_element.py` 403-425,
`bearing_seal_element.py` 444-487): `none` is a file that does not exist yet. -/
def save (e : Elm) (file : Option TomlFile) : Res TomlFile := do
  let t ← data e
  pure (Toml.dump ((file.getD []).set (key e) t))

/-- The data that `BearingElement.save` collects for a ball bearing
(`bearing_seal_element.py` 450-468): the attributes are those of a bearing. -/
def ballData (b : BearingElement) : Res Table :=
  collect .keyError (brgAttrs b) (ballParams ++ coefNames)

/-- The same for a roller bearing. -/
def rollerData (b : BearingElement) : Res Table :=
  collect .keyError (brgAttrs b) (rollerParams ++ coefNames)

/-! ### Calling a constructor with `**data` -/

/-- A number. -/
def asNum : Val → Res ℝ
  | .num x => .ok x
  | _ => .error .typeError

/-- A node number. -/
def asInt : Val → Res ℕ
  | .int n => .ok n
  | _ => .error .typeError

/-- A string. -/
def asStr : Val → Res String
  | .str s => .ok s
  | _ => .error .typeError

/-- A boolean. -/
def asBool : Val → Res Bool
  | .bool b => .ok b
  | _ => .error .typeError

/-- A list of numbers. -/
def asArr : Val → Res (List ℝ)
  | .arr l => .ok l
  | _ => .error .typeError

/-- A bearing coefficient. -/
def asCoef : Val → Res Coef
  | .num x => .ok (.scalar x)
  | .arr l => .ok (.list l)
  | _ => .error .typeError

/-- A parameter without default: a missing argument raises `TypeError`. -/
def req {α : Type} (as : Val → Res α) (t : Table) (k : String) : Res α :=
  match t.get? k with
  | none => .error .typeError
  | some v => as v

/-- A parameter with the default `d`. -/
def dflt {α : Type} (as : Val → Res α) (t : Table) (k : String) (d : α) : Res α :=
  match t.get? k with
  | none => .ok d
  | some v => as v

/-- A parameter whose default is `None`. -/
def opt {α : Type} (as : Val → Res α) (t : Table) (k : String) : Res (Option α) :=
  match t.get? k with
  | none => .ok none
  | some .null => .ok none
  | some v => do
    let x ← as v
    pure (some x)

/-- A keyword that is not a parameter raises `TypeError`. -/
def checkKeys (params : List String) (t : Table) : Res Unit :=
  if t.keys.all (· ∈ params) then .ok () else .error .typeError

/-- `Material(**data["material"])` (`materials.py` 57-59); further keywords are accepted. -/
noncomputable def callMaterial (t : Table) : Res Material := do
  let name ← req asStr t "name"
  let rho ← req asNum t "rho"
  let E ← opt asNum t "E"
  let G_s ← opt asNum t "G_s"
  let Poisson ← opt asNum t "Poisson"
  let color ← dflt asStr t "color" "#525252"
  Material.init name rho E G_s Poisson color

/-- `ShaftElement(**data)` after the material has been rebuilt: `ShaftElement.read_toml_data`
(`shaft_element.py` 428-431, 142-160). -/
noncomputable def callShaft (t : Table) : Res ShaftElement := do
  let m ← match t.get? "material" with
    | none => .error .keyError
    | some (.tab mt) => callMaterial mt
    | some _ => .error .typeError
  checkKeys shaftParams t
  let L ← req asNum t "L"
  let idl ← req asNum t "idl"
  let odl ← req asNum t "odl"
  let idr ← opt asNum t "idr"
  let odr ← opt asNum t "odr"
  let n ← opt asInt t "n"
  let axial_force ← dflt asNum t "axial_force" 0
  let torque ← dflt asNum t "torque" 0
  let shear_effects ← dflt asBool t "shear_effects" true
  let rotary_inertia ← dflt asBool t "rotary_inertia" true
  let gyroscopic ← dflt asBool t "gyroscopic" true
  let shear_method_calc ← dflt asStr t "shear_method_calc" "cowper"
  let tag ← opt asStr t "tag"
  let alpha ← dflt asNum t "alpha" 0
  let beta ← dflt asNum t "beta" 0
  ShaftElement.init L idl odl idr odr (some m) n axial_force torque shear_effects rotary_inertia
    gyroscopic shear_method_calc tag alpha beta

/-- `DiskElement(**data)` (`element.py` 88, `disk_element.py` 59). -/
noncomputable def callDisk (t : Table) : Res DiskElement := do
  checkKeys diskParams t
  let n ← req asInt t "n"
  let m ← req asNum t "m"
  let Id ← req asNum t "Id"
  let Ip ← req asNum t "Ip"
  let tag ← opt asStr t "tag"
  let scale_factor ← dflt asNum t "scale_factor" 1
  let color ← dflt asStr t "color" "Firebrick"
  pure (DiskElement.init n m Id Ip tag scale_factor color)

/-- `PointMass(**data)` (`element.py` 88, `point_mass.py` 56). -/
noncomputable def callPm (t : Table) : Res PointMass := do
  checkKeys pmParams t
  let n ← opt asInt t "n"
  let m ← opt asNum t "m"
  let mx ← opt asNum t "mx"
  let my ← opt asNum t "my"
  let tag ← opt asStr t "tag"
  let color ← dflt asStr t "color" "DarkSalmon"
  PointMass.init n m mx my tag color

/-- `PointMass6DoF(**data)` (`element.py` 88, `point_mass.py` 369-371). -/
noncomputable def callPm6 (t : Table) : Res PointMass6DoF := do
  checkKeys pm6Params t
  let n ← opt asInt t "n"
  let m ← opt asNum t "m"
  let mx ← opt asNum t "mx"
  let my ← opt asNum t "my"
  let mz ← opt asNum t "mz"
  let tag ← opt asStr t "tag"
  let color ← dflt asStr t "color" "DarkSalmon"
  PointMass6DoF.init n m mx my mz tag color

/-- The arguments shared by the bearing classes (`bearing_seal_element.py` 120-140, 1115-1137,
1795-1818), with the default of `color`. -/
noncomputable def brgArgs (t : Table) (colour : String) : Res BearingArgs := do
  let n ← req asInt t "n"
  let kxx ← req asCoef t "kxx"
  let cxx ← req asCoef t "cxx"
  let mxx ← opt asCoef t "mxx"
  let kyy ← opt asCoef t "kyy"
  let kxy ← dflt asCoef t "kxy" (.scalar 0)
  let kyx ← dflt asCoef t "kyx" (.scalar 0)
  let cyy ← opt asCoef t "cyy"
  let cxy ← dflt asCoef t "cxy" (.scalar 0)
  let cyx ← dflt asCoef t "cyx" (.scalar 0)
  let myy ← opt asCoef t "myy"
  let mxy ← dflt asCoef t "mxy" (.scalar 0)
  let myx ← dflt asCoef t "myx" (.scalar 0)
  let frequency ← opt asArr t "frequency"
  let tag ← opt asStr t "tag"
  let n_link ← opt asInt t "n_link"
  let scale_factor ← dflt asNum t "scale_factor" 1
  let color ← dflt asStr t "color" colour
  pure ⟨n, kxx, cxx, mxx, kyy, kxy, kyx, cyy, cxy, cyx, myy, mxy, myx, frequency, tag, n_link,
    scale_factor, color⟩

/-- `BearingElement(**data)`; further keywords are accepted. -/
noncomputable def callBrg (sp : Scipy) (t : Table) : Res BearingElement := do
  let a ← brgArgs t "#355d7a"
  BearingElement.init sp a

/-- `SealElement.__init__` (`bearing_seal_element.py` 1115-1161): half the scale factor is passed
on. -/
noncomputable def sealInit (sp : Scipy) (a : BearingArgs) : Res BearingElement :=
  BearingElement.init sp { a with scale_factor := a.scale_factor / 2 }

/-- `SealElement(**data)`; further keywords are accepted. -/
noncomputable def callSeal (sp : Scipy) (t : Table) : Res BearingElement := do
  let a ← brgArgs t "#77ACA2"
  sealInit sp a

/-- `BearingElement6DoF(**data)`. -/
noncomputable def callBrg6 (sp : Scipy) (t : Table) : Res BearingElement6DoF := do
  checkKeys brg6Params t
  let a ← brgArgs t "#355d7a"
  let kzz ← dflt asCoef t "kzz" (.scalar 0)
  let czz ← dflt asCoef t "czz" (.scalar 0)
  let mzz ← dflt asCoef t "mzz" (.scalar 0)
  BearingElement6DoF.init sp a kzz czz mzz

/-- `cls.read_toml_data(data)` for the class with the given name (`element.py` 57-88,
`shaft_element.py` 428-431); a class that is not among the globals of the module raises `KeyError`. -/
noncomputable def readData (sp : Scipy) (cls : String) (t : Table) : Res Elm :=
  if cls = "ShaftElement" then (callShaft t).map fun s => .shaft ⟨false, s⟩
  else if cls = "ShaftElement6DoF" then (callShaft t).map fun s => .shaft ⟨true, s⟩
  else if cls = "DiskElement" then (callDisk t).map fun d => .disk ⟨false, d⟩
  else if cls = "DiskElement6DoF" then (callDisk t).map fun d => .disk ⟨true, d⟩
  else if cls = "BearingElement" then (callBrg sp t).map fun b => .brg (.brg false b)
  else if cls = "SealElement" then (callSeal sp t).map fun b => .brg (.brg true b)
  else if cls = "BearingElement6DoF" then (callBrg6 sp t).map fun b => .brg (.brg6 b)
  else if cls = "PointMass" then (callPm t).map fun p => .pm (.pm p)
  else if cls = "PointMass6DoF" then (callPm6 t).map fun p => .pm (.pm6 p)
  else .error .keyError

/-- `cls.load(file)` (`element.py` 91-95): the first table of the file. -/
noncomputable def load (sp : Scipy) (cls : String) (file : TomlFile) : Res Elm :=
  match file.values with
  | [] => .error .indexError
  | t :: _ => readData sp cls t

/-! ### Rotors -/

/-- `self.parameters` (`rotor_assembly.py` 145-149). -/
def parameters (r : Rotor) : Table :=
  [("min_w", .ofNum? r.min_w), ("max_w", .ofNum? r.max_w), ("rated_w", .ofNum? r.rated_w)]

/-- `Rotor.save` (`rotor_assembly.py` 3032-3035); what the file held before is discarded. -/
def saveRotor (r : Rotor) : Res TomlFile :=
  r.elements.foldlM (fun f e => save e (some f)) (Toml.dump [("parameters", parameters r)])

/-- `el_name.split("_")[0]`: the characters before the first underscore. -/
def firstWord (s : String) : String := String.ofList (s.toList.takeWhile (· ≠ '_'))

/-- One pass of the loop of `Rotor.load` (`rotor_assembly.py` 3067-3073).  A `KeyError` makes the
code import another package, which is not part of this one: modelled as an exception. -/
noncomputable def readEntry (sp : Scipy) (kv : String × Table) : Res Elm :=
  match readData sp (firstWord kv.1) kv.2 with
  | .error .keyError => .error .exception
  | r => r

/-- `isinstance(el, ShaftElement)` (`rotor_assembly.py` 3080-3081). -/
def shaftOf : Elm → Option ShaftEl
  | .shaft e => some e
  | _ => none

/-- `isinstance(el, DiskElement)` (`rotor_assembly.py` 3082-3083). -/
def diskOf : Elm → Option DiskEl
  | .disk e => some e
  | _ => none

/-- `isinstance(el, BearingElement)` (`rotor_assembly.py` 3084-3085). -/
def brgOf : Elm → Option BrgEl
  | .brg e => some e
  | _ => none

/-- `isinstance(el, PointMass)` (`rotor_assembly.py` 3086-3087). -/
def pmOf : Elm → Option PmEl
  | .pm e => some e
  | _ => none

/-- The arguments that `Rotor.load` passes to the constructor (`rotor_assembly.py` 3059-3095). -/
noncomputable def loadArgs (sp : Scipy) (file : TomlFile) : Res RotorArgs := do
  let p ← match file.get? "parameters" with
    | none => .error .keyError
    | some p => .ok p
  let els ← (file.filter fun kv => kv.1 ≠ "parameters").mapM (readEntry sp)
  checkKeys ["min_w", "max_w", "rated_w", "tag"] p
  let min_w ← opt asNum p "min_w"
  let max_w ← opt asNum p "max_w"
  let rated_w ← opt asNum p "rated_w"
  let tag ← opt asStr p "tag"
  pure { shaft := (els.filterMap shaftOf).map Nest.el, disks := els.filterMap diskOf
         bearings := els.filterMap brgOf, pms := els.filterMap pmOf
         min_w := min_w, max_w := max_w, rated_w := rated_w, tag := tag }

/-- `Rotor.load` (`rotor_assembly.py` 3059-3097). -/
noncomputable def loadRotor (sp : Scipy) (pd : Pandas) (fuel : ℕ) (file : TomlFile) :
    Option (Res Rotor) :=
  match loadArgs sp file with
  | .error e => some (.error e)
  | .ok a => Rotor.init pd fuel a

end Persist

end Ross
