import Mathlib.LinearAlgebra.Matrix.NonsingularInverse
import Mathlib.LinearAlgebra.Matrix.Determinant.Basic
import Mathlib.Tactic.LinearCombination
import Mathlib.Tactic.FieldSimp
import Mathlib.Tactic.Linarith
import Mathlib.Tactic.FinCases
import Mathlib.Tactic.Positivity
import Verif.Model.Crack
import Verif.Lemmas.ShaftBuilt

/-! # Lemmas on cracks -/

namespace Ross.CrackLemmas

open Ross Matrix Crack Spec

/-- The compliance of a cracked element. -/
noncomputable def compl (a b d p q r : ℝ) : Matrix (Fin 4) (Fin 4) ℝ :=
  !![a, 0, 0, -b; 0, a, b, 0; 0, b, d + p, r; -b, 0, r, d + q]

theorem compl_det (a b d p q r : ℝ) : (compl a b d p q r).det =
    (a * (d + p) - b ^ 2) * (a * (d + q) - b ^ 2) - a ^ 2 * r ^ 2 := by
  unfold compl
  simp [Matrix.det_succ_row_zero, Fin.sum_univ_succ, Matrix.submatrix, Fin.succAbove]
  ring

theorem compl_inv {a b d p q r : ℝ} (ha : a ≠ 0)
    (hD : (a * (d + p) - b ^ 2) * (a * (d + q) - b ^ 2) - a ^ 2 * r ^ 2 ≠ 0) :
    (compl a b d p q r)⁻¹ 0 0 = 1 / a + b ^ 2 * (a * (d + p) - b ^ 2) /
      (a * ((a * (d + p) - b ^ 2) * (a * (d + q) - b ^ 2) - a ^ 2 * r ^ 2)) ∧
    (compl a b d p q r)⁻¹ 1 1 = 1 / a + b ^ 2 * (a * (d + q) - b ^ 2) /
      (a * ((a * (d + p) - b ^ 2) * (a * (d + q) - b ^ 2) - a ^ 2 * r ^ 2)) := by
  have hu : IsUnit (compl a b d p q r).det := by rw [compl_det]; exact isUnit_iff_ne_zero.2 hD
  have key : ∀ (z e : Fin 4 → ℝ), compl a b d p q r *ᵥ z = e → (compl a b d p q r)⁻¹ *ᵥ e = z := by
    intro z e h
    rw [← h, mulVec_mulVec, nonsing_inv_mul _ hu, one_mulVec]
  set E := (a * (d + p) - b ^ 2) * (a * (d + q) - b ^ 2) - a ^ 2 * r ^ 2 with hE
  constructor
  · have h := key ![1 / a + b ^ 2 * (a * (d + p) - b ^ 2) / (a * E), a * b ^ 2 * r / (a * E) ,
      -(a * b * r) / E, b * (a * (d + p) - b ^ 2) / E] (Pi.single 0 1) (by
        funext i
        fin_cases i <;> simp [compl, mulVec, dotProduct, Fin.sum_univ_four]
        · field_simp; ring
        · field_simp; ring
        · field_simp; ring
        · field_simp; rw [hE]; ring)
    have := congrFun h 0
    simpa [mulVec, dotProduct, Fin.sum_univ_four] using this
  · have h := key ![a * b ^ 2 * r / (a * E), 1 / a + b ^ 2 * (a * (d + q) - b ^ 2) / (a * E),
      -(b * (a * (d + q) - b ^ 2)) / E, a * b * r / E] (Pi.single 1 1) (by
        funext i
        fin_cases i <;> simp [compl, mulVec, dotProduct, Fin.sum_univ_four]
        · field_simp; ring
        · field_simp; ring
        · field_simp; rw [hE]; ring
        · field_simp; ring)
    have := congrFun h 1
    simpa [mulVec, dotProduct, Fin.sum_univ_four] using this

/-- The inverse of the compliance without a crack. -/
theorem whole_inv {a b d : ℝ} (hD : a * d - b ^ 2 ≠ 0) :
    (compl a b d 0 0 0)⁻¹ = (a * d - b ^ 2)⁻¹ • !![d, 0, 0, b; 0, d, -b, 0; 0, -b, a, 0; b, 0, 0, a] := by
  apply Matrix.inv_eq_right_inv
  ext i j
  fin_cases i <;> fin_cases j <;> simp [compl, Matrix.mul_apply, Fin.sum_univ_four] <;>
    field_simp <;> ring

end Ross.CrackLemmas
