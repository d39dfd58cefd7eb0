import Verif.Spec.CoAxialPos

/-! # Specification of C130: the centre of mass of coaxial rotors -/

namespace Ross.Spec.CoAxial

open Ross

/-- Bearings link only to the first node of a shaft. -/
def LinkedAtStart (shafts : List (List ShaftEl)) (br : List BrgEl) : Prop :=
  ∀ b ∈ br, ∀ j k, LinksTo shafts b j k → k = 0

/-- The first moments of elements of the given left ends, `c` the row of the first. -/
noncomputable def shaftMoment (p : CoAxialPos.Pos) : ℕ → List ShaftEl → ℝ
  | _, [] => 0
  | c, e :: t => e.s.m * (p.l c + e.s.beam_cg) + shaftMoment p (c + 1) t

/-- The total mass. -/
noncomputable def totalMass (shafts : List (List ShaftEl)) (disks : List DiskEl) : ℝ :=
  (shafts.flatten.map fun e => e.s.m).sum + (disks.map fun d => d.d.m).sum

/-- `z` is the centre of mass of shafts at `p` and disks at nodes with positions `v`. -/
def IsCentre (shafts : List (List ShaftEl)) (disks : List DiskEl) (p : CoAxialPos.Pos) (v : List ℝ) (z : ℝ) : Prop :=
  totalMass shafts disks * z =
    shaftMoment p 0 shafts.flatten + (disks.map fun d => d.d.m * v.getD d.d.n 0).sum

end Ross.Spec.CoAxial
