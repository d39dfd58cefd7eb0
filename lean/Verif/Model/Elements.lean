import Verif.Model.Shaft
import Verif.Model.Disk
import Verif.Model.PointMass
import Verif.Model.Bearing

/-!
# The elements a rotor is built from

One type for the objects that `Rotor.__init__` accepts, with the methods that the assembly calls.
-/

namespace Ross

/-- A `ShaftElement` (`six = false`) or a `ShaftElement6DoF` (`six = true`). -/
structure ShaftEl where
  six : Bool
  s : ShaftElement

/-- A `DiskElement` (`six = false`) or a `DiskElement6DoF` (`six = true`). -/
structure DiskEl where
  six : Bool
  d : DiskElement

/-- A `BearingElement` (or one of its subclasses; `sl` tells a `SealElement`), or a
`BearingElement6DoF`. -/
inductive BrgEl
  | brg (sl : Bool) (b : BearingElement)
  | brg6 (b : BearingElement6DoF)

/-- A `PointMass` or a `PointMass6DoF`. -/
inductive PmEl
  | pm (p : PointMass)
  | pm6 (p : PointMass6DoF)

namespace BrgEl

/-- The attributes shared by both bearing classes. -/
def base : BrgEl → BearingElement
  | brg _ b => b
  | brg6 b => b.base

/-- `brg.n`. -/
def n (b : BrgEl) : ℕ := b.base.n

/-- `brg.n_link`. -/
def n_link (b : BrgEl) : Option ℕ := b.base.n_link

/-- `brg.tag`. -/
def tag (b : BrgEl) : Option String := b.base.tag

/-- `brg.tag = t`. -/
def setTag (t : Option String) : BrgEl → BrgEl
  | brg s b => brg s { b with tag := t }
  | brg6 b => brg6 { b with base := { b.base with tag := t } }

/-- `isinstance(brg, SealElement)`. -/
def isSeal : BrgEl → Bool
  | brg s _ => s
  | brg6 _ => false

end BrgEl

namespace PmEl

/-- `p_mass.n`. -/
def n : PmEl → Option ℕ
  | pm p => p.n
  | pm6 p => p.n

/-- `p_mass.tag`. -/
def tag : PmEl → Option String
  | pm p => p.tag
  | pm6 p => p.tag

/-- `p_mass.tag = t`. -/
def setTag (t : Option String) : PmEl → PmEl
  | pm p => pm { p with tag := t }
  | pm6 p => pm6 { p with tag := t }

end PmEl

/-- Any element. -/
inductive Elm
  | shaft (e : ShaftEl)
  | disk (e : DiskEl)
  | brg (e : BrgEl)
  | pm (e : PmEl)

/-- One entry of `dof_mapping()`: the key `"x_0"` is the pair of its letter and its node offset, the
value is the local index. -/
abbrev DofKey := String × ℕ

namespace Elm

/-- `elm.n`. -/
def n : Elm → Option ℕ
  | shaft e => e.s.n
  | disk e => some e.d.n
  | brg e => some e.n
  | pm e => e.n

/-- `elm.tag`. -/
def tag : Elm → Option String
  | shaft e => e.s.tag
  | disk e => e.d.tag
  | brg e => e.tag
  | pm e => e.tag

/-- `elm.n_link`; only bearings have one. -/
def n_link : Elm → Option ℕ
  | brg e => e.n_link
  | _ => none

/-- `dof_mapping()` of every element class (`shaft_element.py` 468-498 and 1342-1379,
`disk_element.py` 161-187 and 556-583, `bearing_seal_element.py` 489-513 and 1983-2007,
`point_mass.py` 229-252 and 461-485). -/
def dofMapping : Elm → Dict DofKey ℕ
  | shaft ⟨false, _⟩ =>
    [(("x", 0), 0), (("y", 0), 1), (("alpha", 0), 2), (("beta", 0), 3),
     (("x", 1), 4), (("y", 1), 5), (("alpha", 1), 6), (("beta", 1), 7)]
  | shaft ⟨true, _⟩ =>
    [(("x", 0), 0), (("y", 0), 1), (("z", 0), 2), (("alpha", 0), 3), (("beta", 0), 4),
     (("theta", 0), 5), (("x", 1), 6), (("y", 1), 7), (("z", 1), 8), (("alpha", 1), 9),
     (("beta", 1), 10), (("theta", 1), 11)]
  | disk ⟨false, _⟩ => [(("x", 0), 0), (("y", 0), 1), (("alpha", 0), 2), (("beta", 0), 3)]
  | disk ⟨true, _⟩ =>
    [(("x", 0), 0), (("y", 0), 1), (("z", 0), 2), (("alpha", 0), 3), (("beta", 0), 4),
     (("theta", 0), 5)]
  | brg (.brg _ _) => [(("x", 0), 0), (("y", 0), 1)]
  | brg (.brg6 _) => [(("x", 0), 0), (("y", 0), 1), (("z", 0), 2)]
  | pm (.pm _) => [(("x", 0), 0), (("y", 0), 1)]
  | pm (.pm6 _) => [(("x", 0), 0), (("y", 0), 1), (("z", 0), 2)]

/-- `elm.M(frequency)`, or `elm.M()` after the `TypeError` that a method without argument raises
(`rotor_assembly.py` 954-957). -/
noncomputable def M (ω : ℝ) : Elm → Res LMat
  | shaft ⟨false, s⟩ => .ok ⟨8, s.M⟩
  | shaft ⟨true, s⟩ => .ok ⟨12, s.M₆⟩
  | disk ⟨false, d⟩ => .ok ⟨4, d.M⟩
  | disk ⟨true, d⟩ => .ok ⟨6, d.M₆⟩
  | brg (.brg _ b) => b.M ω
  | brg (.brg6 b) => b.M ω
  | pm (.pm p) => .ok ⟨2, p.M⟩
  | pm (.pm6 p) => .ok ⟨3, p.M⟩

/-- `elm.K(frequency)` or `elm.K()` (`rotor_assembly.py` 1014-1017). -/
noncomputable def K (ω : ℝ) : Elm → Res LMat
  | shaft ⟨false, s⟩ => .ok ⟨8, s.K⟩
  | shaft ⟨true, s⟩ => .ok ⟨12, s.K₆⟩
  | disk ⟨false, d⟩ => .ok ⟨4, d.K⟩
  | disk ⟨true, d⟩ => .ok ⟨6, d.K₆⟩
  | brg (.brg _ b) => b.K ω
  | brg (.brg6 b) => b.K ω
  | pm (.pm p) => .ok ⟨2, p.K⟩
  | pm (.pm6 p) => .ok ⟨3, p.K⟩

/-- `elm.C(frequency)` or `elm.C()` (`rotor_assembly.py` 1088-1091). -/
noncomputable def C (ω : ℝ) : Elm → Res LMat
  | shaft ⟨false, s⟩ => .ok ⟨8, s.C⟩
  | shaft ⟨true, s⟩ => .ok ⟨12, s.C₆⟩
  | disk ⟨false, d⟩ => .ok ⟨4, d.C⟩
  | disk ⟨true, d⟩ => .ok ⟨6, d.C₆⟩
  | brg (.brg _ b) => b.C ω
  | brg (.brg6 b) => b.C ω
  | pm (.pm p) => .ok ⟨2, p.C⟩
  | pm (.pm6 p) => .ok ⟨3, p.C⟩

/-- `elm.G()` (`rotor_assembly.py` 1116). -/
noncomputable def G : Elm → Res LMat
  | shaft ⟨false, s⟩ => .ok ⟨8, s.G⟩
  | shaft ⟨true, s⟩ => .ok ⟨12, s.G₆⟩
  | disk ⟨false, d⟩ => .ok ⟨4, d.G⟩
  | disk ⟨true, d⟩ => .ok ⟨6, d.G₆⟩
  | brg (.brg _ b) => b.G
  | brg (.brg6 b) => b.G
  | pm (.pm p) => .ok ⟨2, p.G⟩
  | pm (.pm6 p) => .ok ⟨3, p.G⟩

end Elm

end Ross
