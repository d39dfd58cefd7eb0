import Mathlib.LinearAlgebra.Matrix.PosDef
import Mathlib.Tactic.FinCases
import Verif.Model.PointMass

/-! # C16: point masses -/

namespace Ross.Props

open Matrix

/-- **C16** what the constructor does, completely: a single mass `m` is used in both directions;
both directional masses are kept as given; anything else raises `TypeError`. -/
theorem C16_init (n : Option ℕ) (m mx my : Option ℝ) (tag : Option String) (color : String) :
    PointMass.init n m mx my tag color =
      match m, mx, my with
      | some a, none, none => .ok ⟨n, some a, a, a, tag, color⟩
      | m, some x, some y => .ok ⟨n, m, x, y, tag, color⟩
      | _, _, _ => .error .typeError := by
  cases m <;> cases mx <;> cases my <;> rfl

/-- **C16** giving only one of `mx`, `my` is refused, as is giving nothing. -/
theorem C16_refused (n : Option ℕ) (m mx my : Option ℝ) (tag : Option String) (color : String) :
    (∃ e, PointMass.init n m mx my tag color = .error e) ↔
      (mx.isSome ≠ my.isSome ∨ (m = none ∧ mx = none ∧ my = none)) := by
  rw [C16_init]
  cases m <;> cases mx <;> cases my <;> simp

/-- **C16** the 6-dof constructor: a single mass is used in all three directions, whatever `mz`;
otherwise all three masses are needed. -/
theorem C16_init6 (n : Option ℕ) (m mx my mz : Option ℝ) (tag : Option String) (color : String) :
    PointMass6DoF.init n m mx my mz tag color =
      match m, mx, my, mz with
      | some a, none, none, _ => .ok ⟨n, a, a, a, tag, color⟩
      | _, some x, some y, some z => .ok ⟨n, x, y, z, tag, color⟩
      | _, _, _, _ => .error .typeError := by
  cases m <;> cases mx <;> cases my <;> cases mz <;> rfl

/-- **C16** kinetic energy: the mass matrix is diagonal with the directional masses, there is no
stiffness, damping or gyroscopic effect. -/
theorem C16_matrices (p : PointMass) :
    (∀ u : Fin 2 → ℝ, p.M *ᵥ u = ![p.mx * u 0, p.my * u 1]) ∧ p.M = diagonal ![p.mx, p.my] ∧
    p.C = 0 ∧ p.K = 0 ∧ p.G = 0 := by
  refine ⟨?_, ?_, rfl, rfl, rfl⟩
  · intro u; ext i; fin_cases i <;> simp [PointMass.M, mulVec, dotProduct, Fin.sum_univ_two]
  · ext i j; fin_cases i <;> fin_cases j <;> simp [PointMass.M]

/-- **C16** the same for the 6-dof class. -/
theorem C16_matrices6 (p : PointMass6DoF) :
    (∀ u : Fin 3 → ℝ, p.M *ᵥ u = ![p.mx * u 0, p.my * u 1, p.mz * u 2]) ∧
    p.M = diagonal ![p.mx, p.my, p.mz] ∧ p.C = 0 ∧ p.K = 0 ∧ p.G = 0 := by
  refine ⟨?_, ?_, rfl, rfl, rfl⟩
  · intro u; ext i
    fin_cases i <;> simp [PointMass6DoF.M, mulVec, dotProduct, Fin.sum_univ_three]
  · ext i j; fin_cases i <;> fin_cases j <;> simp [PointMass6DoF.M]

/-- Non-vacuity: the three outcomes occur. -/
example : (∃ p, PointMass.init (some 3) (some 10) none none none "" = .ok p ∧ p.mx = 10) ∧
    (∃ p, PointMass.init (some 3) none (some 1) (some 2) none "" = .ok p ∧ p.my = 2) ∧
    PointMass.init (some 3) (some 10) (some 1) none none "" = .error .typeError := by
  refine ⟨⟨_, rfl, rfl⟩, ⟨_, rfl, rfl⟩, rfl⟩

end Ross.Props
