import Mathlib.Analysis.Calculus.Deriv.Mul
import Mathlib.Analysis.Calculus.Deriv.Add
import Mathlib.Analysis.Calculus.Deriv.Inv
import Mathlib.Analysis.Calculus.FDeriv.Mul
import Mathlib.LinearAlgebra.Matrix.Adjugate
import Mathlib.LinearAlgebra.Matrix.ToLinearEquiv
import Verif.Lemmas.Stencil

/-! # The solution of a system of equations that depends on a parameter -/

namespace Ross.Stencil

open Spec.Fluid Filter Topology

theorem det_differentiable {n : ℕ} {M : ℝ → Matrix (Fin n) (Fin n) ℝ} {s : ℝ}
    (h : ∀ r c, DifferentiableAt ℝ (fun t => M t r c) s) : DifferentiableAt ℝ (fun t => (M t).det) s := by
  simp only [Matrix.det_apply]
  refine DifferentiableAt.fun_sum fun σ _ => ?_
  refine DifferentiableAt.fun_const_smul ?_ _
  exact DifferentiableAt.fun_finsetProd fun i _ => h _ _

/-- Where there is only one solution, it can be differentiated. -/
theorem solution_differentiable {N : ℕ} {M : ℝ → ℕ → ℕ → ℝ} {f x : ℝ → ℕ → ℝ} {s : ℝ}
    (hM : ∀ r < N, ∀ c < N, DifferentiableAt ℝ (fun t => M t r c) s)
    (hf : ∀ r < N, DifferentiableAt ℝ (fun t => f t r) s)
    (huniq : ∀ y, Solves N (M s) (fun _ => 0) y → ∀ k < N, y k = 0)
    (hx : ∀ᶠ t in 𝓝 s, Solves N (M t) (f t) (x t)) :
    ∀ k < N, DifferentiableAt ℝ (fun t => x t k) s := by
  intro k hk
  let A : ℝ → Matrix (Fin N) (Fin N) ℝ := fun t r c => M t r c
  let b : ℝ → Fin N → ℝ := fun t r => f t r
  have hA : ∀ r c, DifferentiableAt ℝ (fun t => A t r c) s := fun r c => hM r r.2 c c.2
  have hdet := det_differentiable hA
  have hne : (A s).det ≠ 0 := by
    intro h0
    obtain ⟨v, hv, hz⟩ := Matrix.exists_mulVec_eq_zero_iff.2 h0
    refine hv (funext fun i => ?_)
    have := huniq (fun k => if hk : k < N then v ⟨k, hk⟩ else 0) (fun k hk => by
      have := congrFun hz ⟨k, hk⟩
      rw [Matrix.mulVec, dotProduct] at this
      rw [Finset.sum_range]
      simpa [A] using this) i i.2
    simpa using this
  have hcr : DifferentiableAt ℝ (fun t => ((A t).det)⁻¹ * (A t).cramer (b t) ⟨k, hk⟩) s := by
    refine (hdet.fun_inv hne).fun_mul ?_
    simp only [Matrix.cramer_apply]
    refine det_differentiable fun r c => ?_
    by_cases hc : c = ⟨k, hk⟩
    · simp only [hc, Matrix.updateCol_self]
      exact hf r r.2
    · simp only [Matrix.updateCol_ne hc]
      exact hA r c
  refine hcr.congr_of_eventuallyEq ?_
  have hev : ∀ᶠ t in 𝓝 s, (A t).det ≠ 0 := hdet.continuousAt.eventually_ne hne
  filter_upwards [hx, hev] with t ht hd
  have hmul : (A t).mulVec (fun c => x t c) = b t := by
    funext r
    rw [Matrix.mulVec, dotProduct]
    have := ht r r.2
    rw [Finset.sum_range] at this
    exact this
  have h1 := congrFun (Matrix.cramer_eq_adjugate_mulVec (A t) (b t)) ⟨k, hk⟩
  rw [h1, ← hmul, Matrix.mulVec_mulVec, Matrix.adjugate_mul, Matrix.smul_mulVec, Matrix.one_mulVec]
  simp only [Pi.smul_apply, smul_eq_mul]
  field_simp

end Ross.Stencil
