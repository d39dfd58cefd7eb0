import Mathlib.Data.Real.Basic

/-!
# C106: the speed that is meant by a request
-/

namespace Ross.Spec

/-- Two speeds that are not told apart: they differ by at most `1e-6` and `1e-5` of the requested one. -/
def Near (w speed : ℝ) : Prop := |w - speed| ≤ 1e-6 + 1e-5 * |speed|

/-- Position `i` is the first of the computed speeds that is near to the requested one. -/
def FirstNear (speeds : List ℝ) (speed : ℝ) (i : ℕ) : Prop :=
  (∃ w, speeds[i]? = some w ∧ Near w speed) ∧ ∀ j < i, ∀ w, speeds[j]? = some w → ¬ Near w speed

end Ross.Spec
