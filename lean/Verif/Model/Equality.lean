import Verif.Model.PersistFilm

/-!
# Model of `==` between elements

`Material.__eq__` (`ross/materials.py` 85-112), `ShaftElement.__eq__` (`ross/shaft_element.py`
308-334), `DiskElement.__eq__` (`ross/disk_element.py` 72-113), `BearingElement.__eq__`
(`ross/bearing_seal_element.py` 377-439), `BearingElement6DoF.__eq__` (1913-1978),
`PointMass.__eq__` (`ross/point_mass.py` 74-96), and Python's rule for `a == b`.

The elements are as their constructors leave them: the attributes that a rotor sets
(`dof_global_index`, `axial_cg_pos`) are `None`.  `__hash__` is the hash of the tag in all classes
(`shaft_element.py` 400, `disk_element.py` 158, `bearing_seal_element.py` 441, 1980,
`point_mass.py` 71).
-/

namespace Ross

open Classical in
/-- One comparison of `np.allclose(a, b)` with the default tolerances. -/
noncomputable def npClose (a b : ℝ) : Bool := decide (|a - b| ≤ 1e-8 + 1e-5 * |b|)

/-- `Material.__eq__` (`materials.py` 105-111): the attributes that are numbers are `rho`, `E`,
`G_s` and `Poisson`. -/
noncomputable def Material.pyEq (m m' : Material) : Bool :=
  npClose m.rho m'.rho && npClose m.E m'.E && npClose m.G_s m'.G_s && npClose m.Poisson m'.Poisson

namespace Equality

open Classical in
/-- `(np.array(a) == np.array(b)).all()` for one-dimensional arrays: an array with one entry is
stretched, other lengths raise (`ValueError` from numpy 1.25 on, `AttributeError` before). -/
noncomputable def npEq (a b : List ℝ) : Res Bool :=
  if a.length = b.length then .ok (decide (a = b))
  else if a.length = 1 then .ok (b.all fun y => decide (a.head? = some y))
  else if b.length = 1 then .ok (a.all fun x => decide (b.head? = some x))
  else .error .valueError

open Classical in
/-- `v == w` for two attributes, `all` taken of an array (`bearing_seal_element.py` 415-420); `None`
and an array give `False` in every entry.  Coefficients are compared as arrays; a Python list (a
number repeated for every frequency) is not stretched, which makes no difference as long as the
frequencies differ. -/
noncomputable def valEq : Val → Val → Res Bool
  | .null, .null => .ok true
  | .num x, .num y => .ok (decide (x = y))
  | .int x, .int y => .ok (decide (x = y))
  | .str x, .str y => .ok (decide (x = y))
  | .bool x, .bool y => .ok (decide (x = y))
  | .mat m, .mat m' => .ok (m.pyEq m')
  | .arr a, .arr b => npEq a b
  | _, _ => .ok false

/-- One key of the comparison of two dictionaries. -/
noncomputable def dictStep (t : Table) (acc : Bool) (kv : String × Val) : Res Bool :=
  if acc then
    match t.get? kv.1 with
    | none => .ok false
    | some w => valEq kv.2 w
  else .ok false

/-- `self.__dict__ == other.__dict__`. -/
noncomputable def dictEq (s t : Table) : Res Bool :=
  if s.length = t.length then s.foldlM (dictStep t) true else .ok false

/-- `getattr(self, arg)`. -/
def getattr (t : Table) (k : String) : Res Val :=
  match t.get? k with
  | none => .error .attributeError
  | some v => .ok v

/-- `self.__dict__` of a shaft element (`shaft_element.py` 169-306); the 6-dof class has the same. -/
noncomputable def shaftDict (s : ShaftElement) : Table :=
  [("material", .mat s.material), ("shear_effects", .bool s.shear_effects),
   ("rotary_inertia", .bool s.rotary_inertia), ("gyroscopic", .bool s.gyroscopic),
   ("axial_force", .num s.axial_force), ("torque", .num s.torque), ("_n", .ofInt? s.n),
   ("n_l", .ofInt? s.n_l), ("n_r", .ofInt? s.n_r), ("tag", .ofStr? s.tag),
   ("shear_method_calc", .str s.shear_method_calc), ("L", .num s.L), ("o_d", .num s.o_d),
   ("i_d", .num s.i_d), ("idl", .num s.idl), ("odl", .num s.odl), ("idr", .num s.idr),
   ("odr", .num s.odr), ("color", .str s.material.color), ("alpha", .num s.alpha),
   ("beta", .num s.beta), ("A_l", .num s.A_l), ("A_r", .num s.A_r), ("Ie_l", .num s.Ie_l),
   ("Ie_r", .num s.Ie_r), ("volume", .num s.volume), ("m", .num s.m), ("a1", .num s.a1),
   ("a2", .num s.a2), ("b1", .num s.b1), ("b2", .num s.b2), ("gama", .num s.gama),
   ("delta", .num s.delta), ("A", .num s.A), ("Ie", .num s.Ie), ("beam_cg", .num s.beam_cg),
   ("axial_cg_pos", .null), ("slenderness_ratio", .num s.slenderness_ratio), ("Im", .num s.Im),
   ("phi", .num s.phi), ("dof_global_index", .null)] ++
  if s.shear_effects then [("kappa", .num s.kappa)] else []

/-- `self.__dict__` of a point mass (`point_mass.py` 57-69). -/
def pmDict (p : PointMass) : Table :=
  [("n", .ofInt? p.n), ("m", .ofNum? p.m), ("mx", .num p.mx), ("my", .num p.my),
   ("tag", .ofStr? p.tag), ("dof_global_index", .null), ("color", .str p.color), ("size", .int 2)]

/-- `self.__dict__` of a 6-dof point mass (`point_mass.py` 372-385). -/
def pm6Dict (p : PointMass6DoF) : Table :=
  [("n", .ofInt? p.n), ("mx", .num p.mx), ("my", .num p.my), ("mz", .num p.mz),
   ("tag", .ofStr? p.tag), ("dof_global_index", .null), ("color", .str p.color), ("size", .int 3)]

open Classical in
/-- `DiskElement.__eq__` for two disks (`disk_element.py` 92-113): `np.allclose` of each attribute,
`==` for those of which it raises `TypeError` (strings and `None`). -/
noncomputable def diskEq (d d' : DiskElement) : Bool :=
  npClose d.n d'.n && npClose d.m d'.m && npClose d.Id d'.Id && npClose d.Ip d'.Ip &&
    decide (d.tag = d'.tag) && decide (d.color = d'.color) && npClose d.scale_factor d'.scale_factor

/-- One attribute of two objects (`bearing_seal_element.py` 416, 429). -/
noncomputable def attrEq (s t : Table) (p : String) : Res Bool := do
  let v ← getattr s p
  let w ← getattr t p
  valEq v w

/-- One pass of the loop over the arguments of the constructor. -/
noncomputable def argStep (s t : Table) (acc : Bool) (p : String) : Res Bool := do
  let c ← attrEq s t p
  pure (acc && c)

/-- The comparison of the arguments of the constructor (`bearing_seal_element.py` 407-425), all of
them. -/
noncomputable def argsEq (params : List String) (s t : Table) : Res Bool :=
  params.foldlM (argStep s t) true

/-- One step of the comparison of the attributes. -/
noncomputable def attrStep (s t : Table) (acc : Bool) (p : String) : Res Bool :=
  if acc then attrEq s t p else .ok false

/-- The comparison of the attributes (`bearing_seal_element.py` 426-433), until one differs. -/
noncomputable def attrsEq (names : List String) (s t : Table) : Res Bool :=
  names.foldlM (attrStep s t) true

/-- `compared_attributes` (`bearing_seal_element.py` 396-410). -/
def compared : List String :=
  ["kxx", "kyy", "kxy", "kyx", "cxx", "cyy", "cxy", "cyx", "mxx", "myy", "mxy", "myx", "frequency"]

/-- `compared_attributes` of the 6-dof class (`bearing_seal_element.py` 1933-1950). -/
def compared6 : List String :=
  ["kxx", "kyy", "kxy", "kyx", "kzz", "cxx", "cyy", "cxy", "cyx", "czz", "mxx", "myy", "mxy", "myx",
    "mzz", "frequency"]

/-- `BearingElement.__eq__` for two objects of one class with the given parameters
(`bearing_seal_element.py` 411-438). -/
noncomputable def bearingEq (params names : List String) (s t : Table) : Res Bool := do
  let a ← argsEq params s t
  let b ← attrsEq names s t
  pure (a && b)

/-- `a == b` for bearings: the method of a subclass is tried first, and an object of the parent class
is no instance of the subclass, so that objects of different classes are different. -/
noncomputable def brgEq : BrgEl → BrgEl → Res Bool
  | .brg false b, .brg false b' =>
    bearingEq Persist.brgParams compared (Persist.brgAttrs b) (Persist.brgAttrs b')
  | .brg true b, .brg true b' =>
    bearingEq Persist.sealParams compared (Persist.sealAttrs b) (Persist.sealAttrs b')
  | .brg6 b, .brg6 b' =>
    bearingEq Persist.brg6Params compared6 (Persist.brg6Attrs b) (Persist.brg6Attrs b')
  | _, _ => .ok false

/-- `a == b` for shaft elements: if `b` alone is of the subclass its method is called. -/
noncomputable def shaftEq (a b : ShaftEl) : Res Bool :=
  if !a.six && b.six then dictEq (shaftDict b.s) (shaftDict a.s)
  else dictEq (shaftDict a.s) (shaftDict b.s)

/-- `a == b` for disks, in the same way; the name of either class contains `DiskElement`. -/
noncomputable def diskElEq (a b : DiskEl) : Res Bool :=
  if !a.six && b.six then .ok (diskEq b.d a.d) else .ok (diskEq a.d b.d)

/-- `self.__dict__` of a point mass of either class. -/
def pmElDict : PmEl → Table
  | .pm p => pmDict p
  | .pm6 p => pm6Dict p

/-- `a == b` for point masses. -/
noncomputable def pmElEq (a b : PmEl) : Res Bool := dictEq (pmElDict a) (pmElDict b)

/-- `a == b`.  Elements of different kinds have different attributes, and the methods of disks and
bearings look at the class: they are different. -/
noncomputable def eq : Elm → Elm → Res Bool
  | .shaft a, .shaft b => shaftEq a b
  | .disk a, .disk b => diskElEq a b
  | .brg a, .brg b => brgEq a b
  | .pm a, .pm b => pmElEq a b
  | _, _ => .ok false

/-- `a == b` for ball bearings: the attributes are those of a bearing. -/
noncomputable def ballEq (b b' : BearingElement) : Res Bool :=
  bearingEq Persist.ballParams compared (Persist.brgAttrs b) (Persist.brgAttrs b')

/-- `a == b` for roller bearings. -/
noncomputable def rollerEq (b b' : BearingElement) : Res Bool :=
  bearingEq Persist.rollerParams compared (Persist.brgAttrs b) (Persist.brgAttrs b')

/-- `a == b` for fluid-film bearings. -/
noncomputable def fluidFlowEq (b b' : BearingElement) : Res Bool :=
  bearingEq Persist.fluidFlowParams compared (Persist.brgAttrs b) (Persist.brgAttrs b')

/-- `a == b` for magnetic bearings. -/
noncomputable def magneticEq (a : MagneticArgs) (b : BearingElement) (a' : MagneticArgs)
    (b' : BearingElement) : Res Bool :=
  bearingEq Persist.magneticParams compared (Persist.magneticAttrs a b) (Persist.magneticAttrs a' b')

/-- `a == b` for cylindrical bearings. -/
noncomputable def cylindricalEq (a : CylindricalArgs) (b : CylindricalBearing) (a' : CylindricalArgs)
    (b' : CylindricalBearing) : Res Bool :=
  bearingEq Persist.cylindricalParams compared (Persist.cylindricalAttrs a b)
    (Persist.cylindricalAttrs a' b')

end Equality

end Ross
