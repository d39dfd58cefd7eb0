import Verif.Model.Utils
import Verif.Spec.Attach

/-! # Specification: the same rotor without axial and torsional motion -/

namespace Ross.Spec

open Ross

/-- The bending counterpart of an element: a 6-dof element becomes the 4-dof element of the same
geometry, material, coefficients, node and tag. -/
def dropShaft (e : ShaftEl) : ShaftEl := ⟨false, e.s⟩

/-- See `dropShaft`. -/
def dropDisk (e : DiskEl) : DiskEl := ⟨false, e.d⟩

/-- See `dropShaft`; the axial coefficients are lost. -/
def dropBrg : BrgEl → BrgEl
  | .brg sl b => .brg sl b
  | .brg6 b => .brg false b.base

/-- See `dropShaft`; the axial mass is lost. -/
def dropPm : PmEl → PmEl
  | .pm p => .pm p
  | .pm6 p => .pm ⟨p.n, none, p.mx, p.my, p.tag, p.color⟩

/-- The elements of `a₄` are the bending counterparts of those of `a₆`. -/
structure SameBending (a₆ a₄ : RotorArgs) : Prop where
  shaft : Nest.flattenAll a₄.shaft = (Nest.flattenAll a₆.shaft).map dropShaft
  disks : a₄.disks = a₆.disks.map dropDisk
  bearings : a₄.bearings = a₆.bearings.map dropBrg
  pms : a₄.pms = a₆.pms.map dropPm

/-- Number `p` among the numbers `0, 1, 3, 4, 6, 7, …` that do not leave rest 2 when divided by 3. -/
def keptIdx (p : ℕ) : ℕ := p + p / 2

end Ross.Spec
