import Verif.Model.Newmark

/-! # Specification: the Newmark scheme -/

namespace Ross.Spec

open Ross Ross.Newmark Matrix

variable {n : ℕ}

/-- The Newmark relations between two consecutive time steps `dt` apart. -/
structure NewmarkStep (γ β dt : ℝ) (q q' : State n) : Prop where
  velocity : ∀ i, q'.ydot i = q.ydot i + dt * ((1 - γ) * q.y2dot i + γ * q'.y2dot i)
  displacement : ∀ i, q'.y i = q.y i + dt * q.ydot i +
    dt ^ 2 * ((1 / 2 - β) * q.y2dot i + β * q'.y2dot i)

/-- The unbalanced force of a state: what is missing in `M a + C v + K y = F`. -/
def unbalanced (s : Sys n) (q : State n) (i : Fin n) : ℝ :=
  s.RHS i - (∑ j, s.M i j * q.y2dot j + ∑ j, s.C i j * q.ydot j + ∑ j, s.K i j * q.y j)

/-- Kinetic plus strain energy. -/
noncomputable def energy (M K : Matrix (Fin n) (Fin n) ℝ) (q : State n) : ℝ :=
  1 / 2 * (∑ i, ∑ j, q.ydot i * M i j * q.ydot j) + 1 / 2 * (∑ i, ∑ j, q.y i * K i j * q.y j)

/-- The effective matrix of a step, which has to be solvable. -/
def effective (γ β dt : ℝ) (s : Sys n) : Matrix (Fin n) (Fin n) ℝ :=
  fun i j => s.M i j + γ * dt * s.C i j + β * dt ^ 2 * s.K i j

end Ross.Spec
