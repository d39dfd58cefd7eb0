import Verif.Model.Persist

/-!
# Model of the random elements (`ross/stochastic`)

`st_materials.py`, `st_shaft_element.py`, `st_disk_element.py`, `st_point_mass.py` and
`st_bearing_seal_element.py`, without the figures; `from_fluid_flow` is in `StochasticFilm.lean`.  Numbers are in SI units, so that
`check_units` leaves them as they are.  Lists and one-dimensional arrays of numbers are the same value, and so
are lists of lists and two-dimensional arrays; what is taken out of an array is a Python number.
-/

namespace Ross.Stochastic

open Persist

/-- A value in the dictionary of a random element. -/
inductive SVal
  /-- A value that is not a list, or a list of numbers (`Val.arr`). -/
  | val (v : Val)
  | mats (l : List Material)
  | grid (l : List (List ℝ))

/-- `attribute_dict`. -/
abbrev Attrs := Dict String SVal

namespace SVal

/-- `len(value)`. -/
def len : SVal → Res ℕ
  | .val (.arr l) => .ok l.length
  | .val (.str s) => .ok s.toList.length
  | .val (.tab t) => .ok t.length
  | .val _ => .error .typeError
  | .mats l => .ok l.length
  | .grid l => .ok l.length

/-- `value[i]` for a natural number `i`. -/
def get (i : ℕ) : SVal → Res SVal
  | .val (.arr l) => match l[i]? with
    | some x => .ok (.val (.num x))
    | none => .error .indexError
  | .val (.str s) => match s.toList[i]? with
    | some c => .ok (.val (.str (String.singleton c)))
    | none => .error .indexError
  | .val (.tab _) => .error .keyError
  | .val _ => .error .typeError
  | .mats l => match l[i]? with
    | some m => .ok (.val (.mat m))
    | none => .error .indexError
  | .grid l => match l[i]? with
    | some r => .ok (.val (.arr r))
    | none => .error .indexError

/-- `value is None`. -/
def isNone : SVal → Bool
  | .val .null => true
  | _ => false

/-- `isinstance(value, Iterable)`. -/
def isIterable : SVal → Bool
  | .val (.arr _) => true
  | .val (.str _) => true
  | .val (.tab _) => true
  | .val _ => false
  | .mats _ => true
  | .grid _ => true

/-- A value as the argument of a constructor: a list of materials has no attributes of a material; a
two-dimensional array is not a coefficient of a bearing (the kind of the error is a simplification). -/
def plain : SVal → Res Val
  | .val v => .ok v
  | .mats _ => .error .attributeError
  | .grid _ => .error .valueError

/-- `row[i]`. -/
def entry (i : ℕ) (row : List ℝ) : Res ℝ :=
  match row[i]? with
  | some x => .ok x
  | none => .error .indexError

/-- `[value[j][i] for j in range(len(value))]` (`st_bearing_seal_element.py` 298); strings and dictionaries,
which are no coefficients, are left out. -/
def column (i : ℕ) : SVal → Res SVal
  | .grid l =>
    match l.mapM (entry i) with
    | .ok r => .ok (.val (.arr r))
    | .error e => .error e
  | .val (.arr []) => .ok (.val (.arr []))
  | _ => .error .typeError

/-- `len(value[0])` (`st_bearing_seal_element.py` 294). -/
def firstLen : SVal → Res ℕ
  | .grid (r :: _) => .ok r.length
  | .grid [] => .error .indexError
  | .val (.arr []) => .error .indexError
  | _ => .error .typeError

end SVal

/-- An `ST_Material`, `ST_ShaftElement`, `ST_DiskElement`, `ST_PointMass` or `ST_BearingElement` object. -/
structure StElement where
  is_random : List String
  attribute_dict : Attrs

namespace StElement

variable (e : StElement)

/-- `__getitem__` (`st_shaft_element.py` 186-189 and likewise in the other classes). -/
def getItem (key : String) : Res SVal :=
  match e.attribute_dict.get? key with
  | none => .error .keyError
  | some v => .ok v

/-- `__setitem__` (`st_shaft_element.py` 227-229 and likewise in the other classes): the object afterwards. -/
def setItem (key : String) (value : SVal) : Res StElement :=
  if key ∈ e.attribute_dict.keys then .ok { e with attribute_dict := e.attribute_dict.set key value }
  else .error .keyError

end StElement

/-- The argument that an attribute gives in round `i` (`st_disk_element.py` 188-192). -/
def pick (is_random : List String) (i : ℕ) (kv : String × SVal) : Res SVal :=
  if kv.1 ∈ is_random then kv.2.get i else .ok kv.2

/-- `new_args` in `random_var` (`st_disk_element.py` 184-193, `st_shaft_element.py` 251-260,
`st_materials.py` 206-215, `st_point_mass.py` 190-199, `st_bearing_seal_element.py` 304-311). -/
def newArgs (is_random : List String) (d : Attrs) : Res (List (List SVal)) :=
  match is_random with
  | [] => .error .indexError
  | k :: _ => match d.get? k with
    | none => .error .keyError
    | some v => match v.len with
      | .error e => .error e
      | .ok n => (List.range n).mapM fun i => d.mapM (pick is_random i)

/-- `cls(*arg)`: the arguments by the names of the parameters; too many are a `TypeError`. -/
def positional (params : List String) (arg : List SVal) : Res Table :=
  if params.length < arg.length then .error .typeError
  else match arg.mapM SVal.plain with
    | .error e => .error e
    | .ok l => .ok (params.zip l)

/-- One element of `f_list`. -/
def make {α : Type} (params : List String) (call : Table → Res α) (arg : List SVal) : Res α :=
  match positional params arg with
  | .error e => .error e
  | .ok t => call t

/-- `list(iter(element))` for the class with the given parameters and constructor (`st_disk_element.py` 90,
194-196 and likewise in the other classes). -/
def iterate {α : Type} (params : List String) (call : Table → Res α) (e : StElement) : Res (List α) :=
  match newArgs e.is_random e.attribute_dict with
  | .error x => .error x
  | .ok l => l.mapM (make params call)

/-- `if a in is_random and b not in is_random: is_random.append(b)`. -/
def alsoRandom (a b : String) (is_random : List String) : List String :=
  if a ∈ is_random ∧ b ∉ is_random then is_random ++ [b] else is_random

/-! ### Materials -/

/-- The parameters of `Material.__init__` (`materials.py` 57-59), `kwargs` left out. -/
def matParams : List String := ["name", "rho", "E", "G_s", "Poisson", "color"]

/-- `ST_Material.__init__` (`st_materials.py` 66-105). -/
def material (name : String) (rho E G_s Poisson : SVal) (color : String := "#525252") : Res StElement :=
  -- 70-71
  if ' ' ∈ name.toList then .error .valueError
  -- 73-80
  else if ([E, G_s, Poisson].filter fun v => !v.isNone).length ≠ 2 then .error .valueError
  else .ok
    -- 82-85
    { is_random := ([("rho", rho), ("E", E), ("G_s", G_s), ("Poisson", Poisson)].filter
        fun kv => kv.2.isIterable).map Prod.fst
      -- 96-105
      attribute_dict := [("name", .val (.str name)), ("rho", rho), ("E", E), ("G_s", G_s),
        ("Poisson", Poisson), ("color", .val (.str color))] }

/-- `list(iter(material))` (`st_materials.py` 122, 206-218). -/
noncomputable def materials (e : StElement) : Res (List Material) := iterate matParams callMaterial e

/-! ### Shaft elements -/

/-- `ShaftElement(*arg)` (`shaft_element.py` 142-160) for a material object. -/
noncomputable def newShaft (t : Table) : Res ShaftElement := do
  let L ← req asNum t "L"
  let idl ← req asNum t "idl"
  let odl ← req asNum t "odl"
  let idr ← opt asNum t "idr"
  let odr ← opt asNum t "odr"
  let m ← match t.get? "material" with
    | some (.mat m) => .ok (some m)
    | some .null => .ok none
    | none => .ok none
    | some _ => .error .attributeError
  let n ← opt asInt t "n"
  let axial_force ← dflt asNum t "axial_force" 0
  let torque ← dflt asNum t "torque" 0
  let shear_effects ← dflt asBool t "shear_effects" true
  let rotary_inertia ← dflt asBool t "rotary_inertia" true
  let gyroscopic ← dflt asBool t "gyroscopic" true
  let shear_method_calc ← dflt asStr t "shear_method_calc" "cowper"
  let tag ← opt asStr t "tag"
  let alpha ← dflt asNum t "alpha" 0
  let beta ← dflt asNum t "beta" 0
  ShaftElement.init L idl odl idr odr m n axial_force torque shear_effects rotary_inertia
    gyroscopic shear_method_calc tag alpha beta

/-- The argument `material` of `ST_ShaftElement`. -/
inductive MatArg
  | one (v : SVal)
  | st (m : StElement)

/-- `if isinstance(material, ST_Material): material = list(iter(material))` (`st_shaft_element.py` 115-116). -/
noncomputable def MatArg.value : MatArg → Res SVal
  | .one v => .ok v
  | .st m => match materials m with
    | .ok l => .ok (.mats l)
    | .error e => .error e

/-- `ST_ShaftElement.__init__` (`st_shaft_element.py` 90-135) for a list `is_random`.  The list of the new
object is the caller's. -/
noncomputable def shaft (L idl odl : SVal) (idr odr : SVal := .val .null) (material : MatArg := .one (.val .null))
    (n : Option ℕ := none) (axial_force torque : SVal := .val (.num 0))
    (shear_effects rotary_inertia gyroscopic : Bool := true) (shear_method_calc : String := "cowper")
    (is_random : List String) : Res StElement :=
  -- 107-114
  let is_random := if idr.isNone then alsoRandom "idl" "idr" is_random else is_random
  let idr := if idr.isNone then idl else idr
  let is_random := if odr.isNone then alsoRandom "odl" "odr" is_random else is_random
  let odr := if odr.isNone then odl else odr
  match material.value with
  | .error e => .error e
  | .ok material => .ok
    -- 118-135
    { is_random := is_random
      attribute_dict := [("L", L), ("idl", idl), ("odl", odl), ("idr", idr), ("odr", odr), ("material", material),
        ("n", .val (.ofInt? n)), ("axial_force", axial_force), ("torque", torque),
        ("shear_effects", .val (.bool shear_effects)), ("rotary_inertia", .val (.bool rotary_inertia)),
        ("gyroscopic", .val (.bool gyroscopic)), ("shear_method_calc", .val (.str shear_method_calc)),
        ("tag", .val .null)] }

/-- `list(iter(shaft))` (`st_shaft_element.py` 151, 251-263). -/
noncomputable def shafts (e : StElement) : Res (List ShaftElement) := iterate shaftParams newShaft e

/-- `ST_ShaftElement.plot_random_var` (`st_shaft_element.py` 265-319): the variables that are drawn, and the
object afterwards. -/
def plotShaft (e : StElement) (var_list : Option (List String)) : Res (List String) × StElement :=
  -- 302-304: `is_random` is the list of the object
  let is_random := if "material" ∈ e.is_random then e.is_random.erase "material" else e.is_random
  let after := { e with is_random := is_random }
  match var_list with
  | none => (.ok is_random, after)
  | some l => if ∀ v ∈ l, v ∈ is_random then (.ok l, after) else (.error .valueError, after)

/-- `plot_random_var` of the other classes (`st_disk_element.py` 198-247, `st_materials.py` 220-271,
`st_point_mass.py` 204-252, `st_bearing_seal_element.py` 317-374). -/
def plotOther (e : StElement) (var_list : Option (List String)) : Res (List String) × StElement :=
  match var_list with
  | none => (.ok e.is_random, e)
  | some l => if ∀ v ∈ l, v ∈ e.is_random then (.ok l, e) else (.error .valueError, e)

/-! ### Disks -/

/-- A `DiskElement` object (`disk_element.py` 59-70); `tag`, `scale_factor` and `color` are stored without a
check. -/
structure DiskObj where
  n : ℕ
  m : ℝ
  Id : ℝ
  Ip : ℝ
  tag : Val
  scale_factor : Val
  color : Val

/-- `DiskElement(*arg)` (`disk_element.py` 59-70). -/
noncomputable def newDisk (t : Table) : Res DiskObj := do
  let n ← req asInt t "n"
  let m ← req asNum t "m"
  let Id ← req asNum t "Id"
  let Ip ← req asNum t "Ip"
  pure ⟨n, m, Id, Ip, (t.get? "tag").getD .null, (t.get? "scale_factor").getD (.num 1),
    (t.get? "color").getD (.str "Firebrick")⟩

/-- `ST_DiskElement.__init__` (`st_disk_element.py` 61-74). -/
def disk (n : ℕ) (m Id Ip : SVal) (tag : Option String := none) (color : String := "Firebrick")
    (is_random : List String) : StElement :=
  { is_random := is_random
    attribute_dict := [("n", .val (.int n)), ("m", m), ("Id", Id), ("Ip", Ip), ("tag", .val (.ofStr? tag)),
      ("color", .val (.str color))] }

/-- `list(iter(disk))` (`st_disk_element.py` 90, 184-196). -/
noncomputable def disks (e : StElement) : Res (List DiskObj) := iterate diskParams newDisk e

/-- `x * y` and the like for numbers and arrays: an array of another length is a `ValueError`, unless it has one
entry; other values are a `TypeError`. -/
def broadcast (f : ℝ → ℝ → ℝ) : SVal → SVal → Res SVal
  | .val (.num x), .val (.num y) => .ok (.val (.num (f x y)))
  | .val (.num x), .val (.arr l) => .ok (.val (.arr (l.map (f x))))
  | .val (.arr l), .val (.num y) => .ok (.val (.arr (l.map fun x => f x y)))
  | .val (.arr l), .val (.arr l') =>
    if l.length = l'.length then .ok (.val (.arr (List.zipWith f l l')))
    else match l, l' with
      | [x], _ => .ok (.val (.arr (l'.map (f x))))
      | _, [y] => .ok (.val (.arr (l.map fun x => f x y)))
      | _, _ => .error .valueError
  | _, _ => .error .typeError

/-- The density of the material (`st_disk_element.py` 306-310): a list of materials has no density. -/
noncomputable def MatArg.rho : MatArg → Res SVal
  | .one (.val (.mat m)) => .ok (.val (.num m.rho))
  | .one _ => .error .attributeError
  | .st m => match materials m with
    | .ok l => .ok (.val (.arr (l.map Material.rho)))
    | .error e => .error e

/-- `np.full(size, v)` for an attribute that is not random (`st_disk_element.py` 329-333): an array of another
length is a `ValueError`, unless it has one entry. -/
def fullCheck (size : ℕ) (is_random : List String) (kv : String × SVal) : Res Unit :=
  if kv.1 ∈ is_random then .ok ()
  else
    let len := match kv.2 with
      | .val (.arr l) => l.length
      | .mats l => l.length
      | .grid l => l.length
      | .val _ => 1
    if len = size ∨ len = 1 then .ok () else .error .valueError

/-- The checks of `from_geometry` (`st_disk_element.py` 319-333): `size = len(attribute_dict[is_random[0]])`, and
a loop that changes nothing. -/
noncomputable def geometryCheck (n : ℕ) (material : MatArg) (width i_d o_d : SVal) (tag : Option String)
    (is_random : List String) : Res Unit := do
  let mat ← material.value
  let d : Attrs := [("n", .val (.int n)), ("material", mat), ("width", width), ("i_d", i_d), ("o_d", o_d),
    ("tag", .val (.ofStr? tag))]
  match is_random with
  | [] => .error .indexError
  | k :: _ => match d.get? k with
    | none => .error .keyError
    | some v => match v.len with
      | .error e => .error e
      | .ok size => match d.mapM (fullCheck size is_random) with
        | .error e => .error e
        | .ok _ => .ok ()

/-- `ST_DiskElement.from_geometry` (`st_disk_element.py` 250-346). -/
noncomputable def diskFromGeometry (n : ℕ) (material : MatArg) (width i_d o_d : SVal) (tag : Option String := none)
    (is_random : List String) : Res StElement := do
  let rho ← material.rho
  let _ ← geometryCheck n material width i_d o_d tag is_random
  let pow := fun (k : ℕ) v => broadcast (fun _ x => x ^ k) (.val (.num 0)) v
  let scale := fun (c : ℝ) v => broadcast (fun c x => c * x) (.val (.num c)) v
  let o2 ← pow 2 o_d
  let i2 ← pow 2 i_d
  let o4 ← pow 4 o_d
  let i4 ← pow 4 i_d
  let w2 ← pow 2 width
  let d2 ← broadcast (· - ·) o2 i2
  let d4 ← broadcast (· - ·) o4 i4
  let rw ← broadcast (· * ·) rho width
  -- 335
  let m ← broadcast (· * ·) rw d2
  let m ← scale (0.25 * Real.pi) m
  -- 337-340
  let a ← broadcast (· * ·) rw d4
  let b ← broadcast (· * ·) m w2
  let b ← scale (1 / 12) b
  let a' ← scale (0.015625 * Real.pi) a
  let Id ← broadcast (· + ·) a' b
  -- 342
  let Ip ← scale (0.03125 * Real.pi) a
  pure (disk n m Id Ip tag (is_random := ["m", "Id", "Ip"]))

/-! ### Point masses -/

/-- `ST_PointMass.__init__` (`st_point_mass.py` 62-82). -/
def pointMass (n : ℕ) (m mx my : SVal := .val .null) (tag : Option String := none) (color : String := "DarkSalmon")
    (is_random : List String) : StElement :=
  { is_random := is_random
    attribute_dict := [("n", .val (.int n)), ("m", m), ("mx", mx), ("my", my), ("tag", .val (.ofStr? tag)),
      ("color", .val (.str color))] }

/-- `list(iter(point_mass))` (`st_point_mass.py` 98, 190-202). -/
noncomputable def pointMasses (e : StElement) : Res (List PointMass) := iterate pmParams callPm e

/-! ### Bearings -/

/-- `ST_BearingElement.__init__` (`st_bearing_seal_element.py` 114-176) for a list `is_random`.  The list of the
new object is the caller's. -/
def bearing (n : ℕ) (kxx cxx : SVal) (mxx kyy : SVal := .val .null) (kxy kyx : SVal := .val (.num 0))
    (cyy : SVal := .val .null) (cxy cyx : SVal := .val (.num 0)) (myy : SVal := .val .null)
    (mxy myx : SVal := .val (.num 0)) (frequency : SVal := .val .null) (tag : Option String := none)
    (n_link : Option ℕ := none) (scale_factor : ℝ := 1) (is_random : List String) : Res StElement :=
  -- 135-136
  if "frequency" ∈ is_random then .error .valueError
  else
    -- 138-145
    let is_random := if kyy.isNone then alsoRandom "kxx" "kyy" is_random else is_random
    let kyy := if kyy.isNone then kxx else kyy
    let is_random := if cyy.isNone then alsoRandom "cxx" "cyy" is_random else is_random
    let cyy := if cyy.isNone then cxx else cyy
    -- 147-154
    let is_random := if myy.isNone then alsoRandom "mxx" "myy" is_random else is_random
    let mm := if myy.isNone then (if mxx.isNone then (.val (.num 0), .val (.num 0)) else (mxx, mxx)) else (mxx, myy)
    .ok
      { is_random := is_random
        attribute_dict := [("n", .val (.int n)), ("kxx", kxx), ("cxx", cxx), ("mxx", mm.1), ("kyy", kyy),
          ("kxy", kxy), ("kyx", kyx), ("cyy", cyy), ("cxy", cxy), ("cyx", cyx), ("myy", mm.2), ("mxy", mxy),
          ("myx", myx), ("frequency", frequency), ("tag", .val (.ofStr? tag)), ("n_link", .val (.ofInt? n_link)),
          ("scale_factor", .val (.num scale_factor))] }

/-- The argument that an attribute gives in round `i` when it is two-dimensional
(`st_bearing_seal_element.py` 296-300). -/
def pickColumn (is_random : List String) (i : ℕ) (kv : String × SVal) : Res SVal :=
  if kv.1 ∈ is_random then kv.2.column i else .ok kv.2

/-- The `try` in `random_var` of bearings (`st_bearing_seal_element.py` 293-301). -/
def newColumns (is_random : List String) (d : Attrs) : Res (List (List SVal)) :=
  match is_random with
  | [] => .error .indexError
  | k :: _ => match d.get? k with
    | none => .error .keyError
    | some v => match v.firstLen with
      | .error e => .error e
      | .ok n => (List.range n).mapM fun i => d.mapM (pickColumn is_random i)

/-- `random_var` of bearings (`st_bearing_seal_element.py` 290-311): a `TypeError` occurs before the first round
is complete, so that `new_args` is empty then. -/
def newBrgArgs (is_random : List String) (d : Attrs) : Res (List (List SVal)) :=
  match newColumns is_random d with
  | .error .typeError => newArgs is_random d
  | x => x

/-- `list(iter(bearing))` (`st_bearing_seal_element.py` 192, 290-315). -/
noncomputable def bearings (sp : Scipy) (e : StElement) : Res (List BearingElement) :=
  match newBrgArgs e.is_random e.attribute_dict with
  | .error x => .error x
  | .ok l => l.mapM (make brgParams (callBrg sp))

end Ross.Stochastic
