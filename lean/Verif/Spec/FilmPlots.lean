import Verif.Model.FilmPlots

/-! # Specification of C127 and C128: the figures of a fluid film -/

namespace Ross.Spec.FilmPlots

open Ross Ross.Fluid

/-- On an axis of length `n` the index `i` of Python stands for `k`. -/
def StandsFor (n : ℕ) (i : ℤ) (k : ℕ) : Prop := k < n ∧ ((k : ℤ) = i ∨ (k : ℤ) = n + i)

/-- The curve through the points `(x i, y i)` for all `i` below `n`. -/
def curve (name : String) (n : ℕ) (x y : ℕ → ℝ) : FilmPlots.Curve :=
  ⟨name, List.ofFn fun i : Fin n => x i, List.ofFn fun i : Fin n => y i⟩

/-- The pressure by finite differences along the axis at column `j`. -/
def axialNumerical (F : FluidFlow) (j : ℕ) : FilmPlots.Curve :=
  curve "<b>Numerical pressure</b>" F.nz F.z_list fun i => F.p_mat_numerical i j

/-- The pressure by the formulas along the axis at column `j`. -/
def axialAnalytical (F : FluidFlow) (j : ℕ) : FilmPlots.Curve :=
  curve "<b>Analytical pressure</b>" F.nz F.z_list fun i => F.p_mat_analytical i j

/-- The pressure by finite differences around the bearing at row `i`. -/
def roundNumerical (F : FluidFlow) (i : ℕ) : FilmPlots.Curve :=
  curve "<b>Numerical pressure</b>" F.ntheta (F.gama i) (F.p_mat_numerical i)

/-- The pressure by the formulas around the bearing at row `i`. -/
def roundAnalytical (F : FluidFlow) (i : ℕ) : FilmPlots.Curve :=
  curve "<b>Analytical pressure</b>" F.ntheta (F.gama i) (F.p_mat_analytical i)

/-- `P` is the pressure asked for, or the other one when this one has not been calculated. -/
def Asked (F : FluidFlow) (from_numerical : Bool) (P : ℕ → ℕ → ℝ) : Prop :=
  (F.numerical_pressure_matrix_available = true →
    (from_numerical = true ∨ F.analytical_pressure_matrix_available = false) → P = F.p_mat_numerical) ∧
  (F.analytical_pressure_matrix_available = true →
    (from_numerical = false ∨ F.numerical_pressure_matrix_available = false) → P = F.p_mat_analytical)

/-- The distance of a point from the origin. -/
noncomputable def dist0 (p : ℝ × ℝ) : ℝ := Real.sqrt (p.1 ^ 2 + p.2 ^ 2)

end Ross.Spec.FilmPlots
