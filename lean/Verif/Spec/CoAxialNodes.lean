import Verif.Spec.CoAxialPos

/-! # Specification of C131: the nodes and the length of coaxial rotors -/

namespace Ross.Spec.CoAxial

open Ross

/-- The number of nodes: each shaft has one more than elements. -/
def nodeCount (raw : List (List ShaftEl)) : ℕ := (raw.map fun l => l.length + 1).sum

/-- `z` is the furthest end of the elements at `p`. -/
def FurthestEnd (shafts : List (List ShaftEl)) (p : CoAxialPos.Pos) (z : ℝ) : Prop :=
  (∃ c < shafts.flatten.length, p.r c = z) ∧ ∀ c < shafts.flatten.length, p.r c ≤ z

end Ross.Spec.CoAxial
