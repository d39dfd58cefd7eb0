import Mathlib.Data.Real.Basic

/-! # Specification: forces of a coupling between two nodes

Every node of the rotor has six degrees of freedom: `x`, `y`, `z` and the rotations about them. -/

namespace Ross.Spec

/-- The force `F` is that of a coupling between the nodes `n` and `n + 1`: the transverse force `(fx, fy)`
on the first, its opposite on the second, the torques `t1` and `t2` on them, nothing else. -/
def CouplingForce {N : ℕ} (F : Fin N → ℝ) (n : ℕ) (fx fy t1 t2 : ℝ) : Prop :=
  6 * (n + 1) + 5 < N ∧ ∀ i : Fin N,
    (i.val = 6 * n → F i = fx) ∧ (i.val = 6 * n + 1 → F i = fy) ∧ (i.val = 6 * n + 5 → F i = t1) ∧
    (i.val = 6 * (n + 1) → F i = -fx) ∧ (i.val = 6 * (n + 1) + 1 → F i = -fy) ∧
    (i.val = 6 * (n + 1) + 5 → F i = t2) ∧
    ((∀ k ∈ [6 * n, 6 * n + 1, 6 * n + 5, 6 * (n + 1), 6 * (n + 1) + 1, 6 * (n + 1) + 5], i.val ≠ k) → F i = 0)

end Ross.Spec
