import Mathlib.Analysis.SpecialFunctions.Trigonometric.Basic
import Mathlib.Algebra.Polynomial.Degree.Defs
import Mathlib.Algebra.Polynomial.Eval.Defs

/-! # Rolling and magnetic bearings, without reference to the code -/

namespace Ross.Spec

open Real

/-- The parabola through the three published points. -/
structure Parabola (p : Polynomial ℝ) (r8 r12 r16 : ℝ) : Prop where
  degree : p.natDegree ≤ 2
  at8 : p.eval 8 = r8
  at12 : p.eval 12 = r12
  at16 : p.eval 16 = r16

/-- A pair of opposed electromagnets: gap `g0`, bias current `i0`, pole area `A`, windings `N`, pole
angle `α`, and the controller: gains `kp`, `kd`, amplifier `ka`, sensor `ks`. -/
structure Magnets where
  g0 : ℝ
  i0 : ℝ
  A : ℝ
  N : ℝ
  α : ℝ
  kp : ℝ
  kd : ℝ
  ka : ℝ
  ks : ℝ

namespace Magnets

variable (m : Magnets)

/-- Magnetic constant. -/
noncomputable def μ0 : ℝ := 4 * π * 10 ^ (-7 : ℤ)

/-- Force of the pair on the rotor when the control current is `i` and the rotor has moved by `x`
towards the first magnet: each magnet pulls with `μ0 N² A cos α / 4 · (current / gap)²`. -/
noncomputable def pull (i x : ℝ) : ℝ :=
  μ0 * m.N ^ 2 * m.A * cos m.α / 4 *
    ((m.i0 + i) ^ 2 / (m.g0 - x) ^ 2 - (m.i0 - i) ^ 2 / (m.g0 + x) ^ 2)

/-- The control current for a rotor at `x` moving at `v`. -/
def current (x v : ℝ) : ℝ := -(m.ka * m.ks * (m.kp * x + m.kd * v))

/-- Force of the controlled pair on the rotor. -/
noncomputable def force (x v : ℝ) : ℝ := m.pull (m.current x v) x

end Magnets

end Ross.Spec
