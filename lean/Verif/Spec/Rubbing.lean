import Mathlib.Analysis.SpecialFunctions.Sqrt
import Mathlib.Data.Sign.Basic

/-! # Specification: the force between a rotor and the stator that it touches

Vectors in the plane are pairs of reals. -/

namespace Ross.Spec

/-- Length of a vector. -/
noncomputable def planeNorm (p : ℝ × ℝ) : ℝ := Real.sqrt (p.1 ^ 2 + p.2 ^ 2)

/-- Scalar product. -/
def planeDot (p q : ℝ × ℝ) : ℝ := p.1 * q.1 + p.2 * q.2

/-- The vector turned by a right angle. -/
def quarter (p : ℝ × ℝ) : ℝ × ℝ := (-p.2, p.1)

/-- The force of a spring of stiffness `k` with the play `δ` on a point displaced by `p`: it points to the
centre. -/
noncomputable def springForce (k δ : ℝ) (p : ℝ × ℝ) : ℝ × ℝ :=
  (-(k * (planeNorm p - δ) * (p.1 / planeNorm p)), -(k * (planeNorm p - δ) * (p.2 / planeNorm p)))

/-- The force of a damper. -/
def damperForce (c : ℝ) (v : ℝ × ℝ) : ℝ × ℝ := (-(c * v.1), -(c * v.2))

end Ross.Spec
