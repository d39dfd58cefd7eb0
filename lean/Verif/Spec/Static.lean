import Verif.Model.Static
import Verif.Spec.Position
import Verif.Spec.Rotor
import Verif.Lemmas.Beam
import Verif.Lemmas.ShaftBuilt

/-! # Specification: a shaft under its own weight and that of its disks

Forces are positive upwards, weights are positive numbers.  Node `i` of the shaft is at
`position r.shaft i`. -/

namespace Ross.Spec

open Ross Rotor

/-- The acceleration of gravity in the code. -/
noncomputable def gravity : ℝ := 9.8065

/-- The force reported for the bearing at node `i`; `0` if none is reported. -/
noncomputable def reactionAt (st : StaticResults) (i : ℕ) : ℝ :=
  (st.bearing_forces_nodal.get? i).getD 0

/-- The weight of the disks at node `i`. -/
noncomputable def diskWeight (r : Rotor) (i : ℕ) : ℝ :=
  gravity * ((r.disks.filter fun e => e.d.n = i).map fun e => e.d.m).sum

/-- The weight of the shaft elements between nodes `i` and `i + 1`. -/
noncomputable def layerWeight (r : Rotor) (i : ℕ) : ℝ :=
  gravity * ((r.shaft.filter fun e => leftNode e = i).map fun e => e.s.m).sum

/-- The net downward force on what lies left of a section just left of node `j`. -/
noncomputable def shearLeft (r : Rotor) (st : StaticResults) (j : ℕ) : ℝ :=
  ∑ i ∈ Finset.range j, (diskWeight r i - reactionAt st i + layerWeight r i)

/-- The net downward force on what lies left of a section just right of node `j`. -/
noncomputable def shearRight (r : Rotor) (st : StaticResults) (j : ℕ) : ℝ :=
  shearLeft r st j + (diskWeight r j - reactionAt st j)

/-- The moment about node `j` of all forces left of it; the weight of a uniform element acts at its
middle. -/
noncomputable def bendingAt (r : Rotor) (st : StaticResults) (j : ℕ) : ℝ :=
  ∑ i ∈ Finset.range j,
    ((diskWeight r i - reactionAt st i) * (position r.shaft j - position r.shaft i) +
      layerWeight r i * (position r.shaft j - (position r.shaft i + position r.shaft (i + 1)) / 2))

/-- The elements between two nodes have the same length. -/
def EqualLayers (r : Rotor) : Prop :=
  ∀ e ∈ r.shaft, ∀ e' ∈ r.shaft, leftNode e = leftNode e' → e.s.L = e'.s.L

/-- No bearing connects two nodes of the shaft. -/
def OnGround (r : Rotor) : Prop :=
  ∀ b ∈ r.bearings, ∀ l, b.n_link = some l → r.nodes_pos.length ≤ l

/-- A bearing that carries the shaft. -/
def Carries (r : Rotor) (b : BrgEl) : Prop :=
  b ∈ r.bearings ∧ b.isSeal = false ∧ b.n < r.nodes_pos.length

/-- A cylindrical shaft element. -/
def Cylinder (e : ShaftEl) : Prop := e.s.idl = e.s.idr ∧ e.s.odl = e.s.odr

/-- A shaft element of a real material without torque or compression. -/
def Sound (e : ShaftEl) : Prop :=
  e.s.Built ∧ e.s.beam.Physical ∧ 0 ≤ e.s.axial_force ∧ e.s.torque = 0

/-- No shaft element or disk has the default name of a bearing. -/
def TagsFree (r : Rotor) : Prop :=
  (∀ e ∈ r.shaft, ∀ i : ℕ, e.s.tag ≠ some ("Bearing " ++ toString i)) ∧
  ∀ e ∈ r.disks, ∀ i : ℕ, e.d.tag ≠ some ("Bearing " ++ toString i)

end Ross.Spec
