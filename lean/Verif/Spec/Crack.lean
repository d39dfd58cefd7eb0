import Mathlib.Data.Real.Basic
import Mathlib.Algebra.Order.Field.Basic

/-! # Specification: cracked shaft elements

The degrees of freedom of an element are numbered as in the rotor: `x y z α β θ` of the left node, then of
the right node. -/

namespace Ross.Spec

/-- The coefficient that a table (pairs of a coefficient and a depth) gives for a depth: that of the first
row that is at least as deep. -/
def TableValue (table : List (ℝ × ℝ)) (depth x : ℝ) : Prop :=
  ∃ before row after, table = before ++ row :: after ∧ (∀ y ∈ before, y.2 < depth) ∧ depth ≤ row.2 ∧ row.1 = x

/-- The forces on the ends of an element that is bent in one plane: `x1`, `t1`, `x2`, `t2` are the
displacements and slopes of the ends; a beam of bending stiffness `EI`, length `L` and shear parameter `φ`
(Timoshenko).  The result is the force and couple on the left end and on the right end. -/
noncomputable def beamForces (EI L φ x1 t1 x2 t2 : ℝ) : ℝ × ℝ × ℝ × ℝ :=
  let k := EI / (L ^ 3 * (1 + φ))
  (k * (12 * x1 + 6 * L * t1 - 12 * x2 + 6 * L * t2),
   k * (6 * L * x1 + (4 + φ) * L ^ 2 * t1 - 6 * L * x2 + (2 - φ) * L ^ 2 * t2),
   k * (-12 * x1 - 6 * L * t1 + 12 * x2 - 6 * L * t2),
   k * (6 * L * x1 + (2 - φ) * L ^ 2 * t1 - 6 * L * x2 + (4 + φ) * L ^ 2 * t2))

end Ross.Spec
