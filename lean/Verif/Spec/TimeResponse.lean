import Verif.Model.TimeResponse
import Verif.Spec.Newmark

/-! # Specification: time integration of rotors -/

namespace Ross.Spec

open Ross Ross.Newmark Matrix

/-- The bearing was made by its constructor. -/
def Made : BrgEl → Prop
  | .brg _ b => ∃ sp args, BearingElement.init sp args = .ok b
  | .brg6 b => ∃ sp args k c m, BearingElement6DoF.init sp args k c m = .ok b

/-- The states `q` are a motion from rest over the times `t` that satisfies the Newmark relations of
the average acceleration, and the equations `sys` of every later instant up to the tolerance. -/
structure Integrates {n : ℕ} (t : List ℝ) (tol : ℝ) (sys : ℕ → Sys n) (q : List (State n)) : Prop where
  length : q.length = t.length
  rest : q[0]? = some ⟨0, 0, 0⟩
  step : ∀ k t0 t1 q0 q1, t[k]? = some t0 → t[k + 1]? = some t1 → q[k]? = some q0 →
    q[k + 1]? = some q1 → NewmarkStep (1 / 2) (1 / 4) (t1 - t0) q0 q1 ∧
      Real.sqrt (∑ i, unbalanced (sys (k + 1)) q1 i ^ 2) < tol

end Ross.Spec
