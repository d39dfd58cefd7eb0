import Verif.Model.Tables
import Verif.Model.Shaft
import Verif.Model.Disk
import Verif.Model.Bearing
import Verif.Model.Material

/-!
# Elements read from tables

`ShaftElement.from_table` (`shaft_element.py` 1027-1113), `BearingElement.table_to_toml` and `from_table`
(`bearing_seal_element.py` 764-875) and `DiskElement.from_table` (`disk_element.py` 459-520), on the content of the sheet.
Numbers are real.  What becomes of NaN where a number is expected, of `None` in lists of coefficients (numpy makes NaN of
it) and of node numbers that are not natural numbers is not modelled: the model raises `.exception`.
-/

namespace Ross

namespace FromTable

open Tables

/-- A number.  (There are no booleans in the columns of numbers.) -/
def number : PVal → Res ℝ
  | .num x => .ok x
  | .nan => .error .exception
  | .str _ => .error .valueError
  | .bool _ => .error .exception
  | .null => .error .typeError

open Classical in
/-- The number of a node. -/
noncomputable def node : PVal → Res ℕ
  | .num x => if (⌊x⌋₊ : ℝ) = x then .ok ⌊x⌋₊ else .error .exception
  | .nan => .error .exception
  | .str _ => .error .typeError
  | .bool _ => .error .exception
  | .null => .error .typeError

open Classical in
/-- `bool(x)`; NaN is true. -/
noncomputable def truth : PVal → Bool
  | .num x => decide (x ≠ 0)
  | .nan => true
  | .str s => decide (s ≠ "")
  | .bool b => b
  | .null => false

/-- `shear_method_calc`; what is no text is no method. -/
def method : PVal → String
  | .str s => s
  | _ => ""

/-- A color; colors that are numbers are not modelled. -/
def color : PVal → Res String
  | .str s => .ok s
  | _ => .error .exception

/-- `parameters[k]`, a list. -/
def listOf (d : Dict String TableParam) (k : String) : Res (List PVal) :=
  match d.get? k with
  | some (.list l) => .ok l
  | some (.one _) => .error .typeError
  | none => .error .keyError

/-- `parameters[k][i]`. -/
def entry (d : Dict String TableParam) (k : String) (i : ℕ) : Res PVal := do
  let l ← listOf d k
  match l[i]? with
  | some v => .ok v
  | none => .error .indexError

/-- `parameters[k][i]`, a number. -/
def numberAt (d : Dict String TableParam) (k : String) (i : ℕ) : Res ℝ := do
  let v ← entry d k i
  number v

/-- `parameters[k][i] if k in parameters else 0`, `shaft_element.py` 1088-1089. -/
def numberOr (d : Dict String TableParam) (k : String) (i : ℕ) : Res ℝ :=
  match d.get? k with
  | some _ => numberAt d k i
  | none => .ok 0

/-- A material of a "Model" sheet with its name, `shaft_element.py` 1063-1071. -/
noncomputable def materialAt (d : Dict String TableParam) (i : ℕ) : Res (String × Material) := do
  let no ← entry d "matno" i
  let z ← toInt no
  let rho ← numberAt d "rhoa" i
  let e ← numberAt d "ea" i
  let g ← numberAt d "ga" i
  let c ← entry d "color" i
  let c ← color c
  let m ← Material.init ("shaft_mat_" ++ toString z) rho (some e) (some g) none c
  pure ("shaft_mat_" ++ toString z, m)

/-- `new_materials[name] = new_material`. -/
def addMaterial (ms : Dict String Material) (x : String × Material) : Dict String Material := ms.set x.1 x.2

/-- `new_materials`, `shaft_element.py` 1062-1071. -/
noncomputable def materials (d : Dict String TableParam) : Res (Dict String Material) := do
  let no ← listOf d "matno"
  let l ← (List.range no.length).mapM (materialAt d)
  pure (l.foldl addMaterial [])

/-- `new_materials[x]`. -/
def lookupMaterial (ms : Dict String Material) : PVal → Res Material
  | .str s => match ms.get? s with
    | some m => .ok m
    | none => .error .keyError
  | _ => .error .keyError

/-- The constructor's use of the material of a "Simple" sheet: `shaft_element.py` 169-175 and 192. -/
noncomputable def givenMaterial (lib : Material.Lib) : PVal → Res Material
  | .str s => (Material.load lib s).1
  -- a number, or `None`, has no color
  | _ => .error .attributeError

/-- One shaft element, `shaft_element.py` 1074-1091 and 1095-1112. -/
noncomputable def shaftAt (material : PVal → Res Material) (d : Dict String TableParam) (i : ℕ) : Res ShaftElement := do
  let L ← numberAt d "L" i
  let idl ← numberAt d "idl" i
  let odl ← numberAt d "odl" i
  let idr ← numberAt d "idr" i
  let odr ← numberAt d "odr" i
  let m ← entry d "material" i
  let m ← material m
  let n ← entry d "n" i
  let n ← node n
  let axial_force ← numberAt d "axial_force" i
  let torque ← numberAt d "torque" i
  let shear_effects ← entry d "shear_effects" i
  let rotary_inertia ← entry d "rotary_inertia" i
  let gyroscopic ← entry d "gyroscopic" i
  let shear_method_calc ← entry d "shear_method_calc" i
  let alpha ← numberOr d "alpha" i
  let beta ← numberOr d "beta" i
  ShaftElement.init L idl odl (some idr) (some odr) (some m) (some n) axial_force torque (truth shear_effects)
    (truth rotary_inertia) (truth gyroscopic) (method shear_method_calc) none alpha beta

/-- `ShaftElement.from_table(file, sheet_type)`, `shaft_element.py` 1057-1113, with the library of materials. -/
noncomputable def shafts (lib : Material.Lib) (sheet : Sheet) (sheet_type : String := "Simple") : Res (List ShaftElement) := do
  let d ← readTable sheet (.shaft (sheet_type == "Model")) 0
  if sheet_type = "Model" then do
    let ms ← materials d
    let L ← listOf d "L"
    (List.range L.length).mapM (shaftAt (lookupMaterial ms) d)
  else if sheet_type = "Simple" then do
    let L ← listOf d "L"
    (List.range L.length).mapM (shaftAt (givenMaterial lib) d)
  else pure []

/-- A list of coefficients. -/
def coefficients (d : Dict String TableParam) (k : String) : Res (List ℝ) := do
  let l ← listOf d k
  l.mapM number

/-- The arguments of the constructor, `bearing_seal_element.py` 860-875. -/
def bearingArgs (d : Dict String TableParam) (n : ℕ) (tag : Option String) (n_link : Option ℕ) (scale_factor : ℝ)
    (color : String) : Res BearingArgs := do
  let kxx ← coefficients d "kxx"
  let cxx ← coefficients d "cxx"
  let kyy ← coefficients d "kyy"
  let kxy ← coefficients d "kxy"
  let kyx ← coefficients d "kyx"
  let cyy ← coefficients d "cyy"
  let cxy ← coefficients d "cxy"
  let cyx ← coefficients d "cyx"
  let frequency ← coefficients d "frequency"
  pure { n := n, kxx := .list kxx, cxx := .list cxx, kyy := some (.list kyy), kxy := .list kxy, kyx := .list kyx,
         cyy := some (.list cyy), cxy := .list cxy, cyx := .list cyx, frequency := some frequency, tag := tag,
         n_link := n_link, scale_factor := scale_factor, color := color }

/-- `parameters["n"]` of a bearing. -/
def oneOf (d : Dict String TableParam) (k : String) : Res ℕ :=
  match d.get? k with
  | some (.one n) => .ok n
  | some (.list _) => .error .typeError
  | none => .error .keyError

/-- `BearingElement.from_table(n, file, ...)`, `bearing_seal_element.py` 859-875. -/
noncomputable def bearing (sp : Scipy) (sheet : Sheet) (n : ℕ) (tag : Option String := none) (n_link : Option ℕ := none)
    (scale_factor : ℝ := 1) (color : String := "#355d7a") : Res BearingElement := do
  let d ← readTable sheet .bearing n
  let n ← oneOf d "n"
  let a ← bearingArgs d n tag n_link scale_factor color
  BearingElement.init sp a

/-- The dictionary of `table_to_toml` as arguments of the constructor, `bearing_seal_element.py` 791-802. -/
def tomlArgs (b : BearingElement) : BearingArgs :=
  { n := b.n, kxx := .list b.kxx.values, cxx := .list b.cxx.values, kyy := some (.list b.kyy.values),
    kxy := .list b.kxy.values, kyx := .list b.kyx.values, cyy := some (.list b.cyy.values), cxy := .list b.cxy.values,
    cyx := .list b.cyx.values, frequency := b.frequency }

/-- `BearingElement.table_to_toml(n, file)`, `bearing_seal_element.py` 790-803. -/
noncomputable def tableToToml (sp : Scipy) (sheet : Sheet) (n : ℕ) : Res BearingArgs := do
  let b ← bearing sp sheet n
  pure (tomlArgs b)

/-- `l[i]` of a list that was given, or the default for each row, `disk_element.py` 499-504. -/
def given {α : Type} (l : Option (List α)) (dflt : α) (i : ℕ) : Res α :=
  match l with
  | none => .ok dflt
  | some l => match l[i]? with
    | some x => .ok x
    | none => .error .indexError

/-- One disk, `disk_element.py` 508-519. -/
noncomputable def diskAt (d : Dict String TableParam) (tag : Option (List (Option String))) (scale_factor : Option (List ℝ))
    (color : Option (List String)) (i : ℕ) : Res DiskElement := do
  let n ← entry d "n" i
  let n ← node n
  let m ← numberAt d "m" i
  let Id ← numberAt d "Id" i
  let Ip ← numberAt d "Ip" i
  let t ← given tag none i
  let s ← given scale_factor 1 i
  let c ← given color "Firebrick" i
  pure (DiskElement.init n m Id Ip t s c)

/-- `DiskElement.from_table(file, ...)`, `disk_element.py` 498-520. -/
noncomputable def disks (sheet : Sheet) (tag : Option (List (Option String)) := none) (scale_factor : Option (List ℝ) := none)
    (color : Option (List String) := none) : Res (List DiskElement) := do
  let d ← readTable sheet .disk 0
  let l ← listOf d "n"
  (List.range l.length).mapM (diskAt d tag scale_factor color)

end FromTable

end Ross
