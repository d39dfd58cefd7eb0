import Verif.Spec.Orbit
import Mathlib.Algebra.Polynomial.Derivative

/-!
# Specification of mode shapes
-/

namespace Ross.Spec

open Polynomial

/-- Component `k` of a vector is a displacement in `x` or `y`, when each node has `nd` components. -/
def IsLateral (nd k : ℕ) : Prop := k % nd = 0 ∨ k % nd = 1

/-- The position of the nodes fits the lengths of the elements between them. -/
def Consecutive (pos L : List ℝ) : Prop :=
  L.length + 1 = pos.length ∧ ∀ n a b l, pos[n]? = some a → pos[n + 1]? = some b → L[n]? = some l → b = a + l

/-- The components of `v` at the nodes are the displacements `X` and `Y` and the slopes of these lines; the
angle about `x` is the slope of `Y` with the opposite sign. -/
def Sampled (nd : ℕ) (v : List ℂ) (pos : List ℝ) (X Y : ℂ[X]) : Prop :=
  ∀ (n : ℕ) (z : ℝ), pos[n]? = some z →
    v[nd * n]? = some (X.eval (z : ℂ)) ∧ v[nd * n + 1]? = some (Y.eval (z : ℂ)) ∧
    v[nd * n + nd / 2]? = some (-Y.derivative.eval (z : ℂ)) ∧
    v[nd * n + nd / 2 + 1]? = some (X.derivative.eval (z : ℂ))

/-- What the predicate says holds for the amplitudes of each of the `N` nodes. -/
def AllNodes (P : ℂ → ℂ → Prop) (nd N : ℕ) (v : List ℂ) : Prop :=
  ∀ (n : ℕ) (ru rv : ℂ), n < N → v[nd * n]? = some ru → v[nd * n + 1]? = some rv → P ru rv

end Ross.Spec
