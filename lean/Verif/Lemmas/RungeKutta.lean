import Mathlib.Analysis.Normed.Algebra.MatrixExponential
import Mathlib.Analysis.SpecialFunctions.Exponential
import Mathlib.Analysis.ODE.ExistUnique
import Mathlib.Analysis.Complex.Exponential
import Mathlib.Analysis.Normed.Module.FiniteDimension
import Mathlib.Tactic.Linarith

/-! # Powers of approximations of the exponential -/

namespace Ross.RKLemmas

open NormedSpace Matrix
open scoped Nat

section algebra

variable {E : Type} [NormedRing E] [NormOneClass E] [NormedAlgebra ℝ E] [CompleteSpace E]

theorem exp_tail (X : E) (n : ℕ) :
    ‖exp X - ∑ k ∈ Finset.range n, ((k ! : ℝ)⁻¹) • X ^ k‖ ≤ ‖X‖ ^ n / n ! * Real.exp ‖X‖ := by
  have hs : Summable fun k : ℕ => ((k ! : ℝ)⁻¹) • X ^ k := expSeries_summable' X
  have he : exp X = ∑' k : ℕ, ((k ! : ℝ)⁻¹) • X ^ k := by rw [exp_eq_tsum (𝕂 := ℝ)]
  rw [he, ← hs.sum_add_tsum_nat_add n, add_sub_cancel_left]
  have hr : HasSum (fun k : ℕ => ‖X‖ ^ n / n ! * (‖X‖ ^ k / k !)) (‖X‖ ^ n / n ! * Real.exp ‖X‖) := by
    refine HasSum.mul_left _ ?_
    have := NormedSpace.expSeries_div_hasSum_exp (𝔸 := ℝ) ‖X‖
    rwa [← Real.exp_eq_exp_ℝ] at this
  refine tsum_of_norm_bounded hr ?_
  intro k
  have h1 : ‖X ^ (k + n)‖ ≤ ‖X‖ ^ (k + n) := norm_pow_le _ _
  have h2 : (k ! : ℝ) * n ! ≤ (k + n)! := by
    exact_mod_cast Nat.le_of_dvd (Nat.factorial_pos _) (Nat.factorial_mul_factorial_dvd_factorial_add k n)
  have hk : (0 : ℝ) < k ! := by exact_mod_cast Nat.factorial_pos k
  have hn : (0 : ℝ) < n ! := by exact_mod_cast Nat.factorial_pos n
  have hkn : (0 : ℝ) < (k + n)! := by exact_mod_cast Nat.factorial_pos _
  rw [norm_smul, norm_inv, Real.norm_of_nonneg hkn.le]
  calc ((k + n)! : ℝ)⁻¹ * ‖X ^ (k + n)‖ ≤ ((k ! : ℝ) * n !)⁻¹ * ‖X‖ ^ (k + n) := by
        apply mul_le_mul _ h1 (norm_nonneg _) (by positivity)
        exact inv_anti₀ (by positivity) h2
    _ = ‖X‖ ^ n / n ! * (‖X‖ ^ k / k !) := by
        rw [pow_add]; field_simp

theorem norm_exp_le (X : E) : ‖exp X‖ ≤ Real.exp ‖X‖ := by
  have := exp_tail X 0
  simpa using this

theorem pow_sub_pow {R F : E} {K ε : ℝ} (hR : ‖R‖ ≤ K) (hF : ‖F‖ ≤ K) (hd : ‖R - F‖ ≤ ε * K) (n : ℕ) :
    ‖R ^ n - F ^ n‖ ≤ n * ε * K ^ n := by
  have hK : 0 ≤ K := (norm_nonneg _).trans hR
  induction n with
  | zero => simp
  | succ n ih =>
    have e : R ^ (n + 1) - F ^ (n + 1) = R * (R ^ n - F ^ n) + (R - F) * F ^ n := by
      rw [pow_succ', pow_succ', mul_sub, sub_mul]; abel
    have hFn : ‖F ^ n‖ ≤ K ^ n := (norm_pow_le F n).trans (pow_le_pow_left₀ (norm_nonneg _) hF n)
    rw [e]
    calc ‖R * (R ^ n - F ^ n) + (R - F) * F ^ n‖
        ≤ ‖R‖ * ‖R ^ n - F ^ n‖ + ‖R - F‖ * ‖F ^ n‖ :=
          (norm_add_le _ _).trans (add_le_add (norm_mul_le _ _) (norm_mul_le _ _))
      _ ≤ K * (n * ε * K ^ n) + ε * K * K ^ n := by
          refine add_le_add (mul_le_mul hR ih (norm_nonneg _) hK) (mul_le_mul hd hFn (norm_nonneg _) ?_)
          exact (norm_nonneg _).trans hd
      _ = ((n + 1 : ℕ) : ℝ) * ε * K ^ (n + 1) := by push_cast; ring

/-- The truncated exponential series. -/
noncomputable def expSum (n : ℕ) (X : E) : E := ∑ k ∈ Finset.range n, ((k ! : ℝ)⁻¹) • X ^ k

theorem norm_expSum_le (n : ℕ) (X : E) : ‖expSum n X‖ ≤ ∑ k ∈ Finset.range n, ‖X‖ ^ k / k ! := by
  refine (norm_sum_le _ _).trans (Finset.sum_le_sum fun k _ => ?_)
  have hk : (0 : ℝ) < k ! := by exact_mod_cast Nat.factorial_pos k
  rw [norm_smul, norm_inv, Real.norm_of_nonneg hk.le, div_eq_inv_mul]
  exact mul_le_mul_of_nonneg_left (norm_pow_le _ _) (by positivity)

theorem sum_le_exp (n : ℕ) {x : ℝ} (hx : 0 ≤ x) : ∑ k ∈ Finset.range n, x ^ k / k ! ≤ Real.exp x :=
  Real.sum_le_exp_of_nonneg hx n

/-- Error of the powers of the truncated series. -/
theorem expSum_pow (n m : ℕ) (X : E) :
    ‖expSum n X ^ m - exp X ^ m‖ ≤ m * (‖X‖ ^ n / n !) * Real.exp ‖X‖ ^ m := by
  refine pow_sub_pow ((norm_expSum_le n X).trans (sum_le_exp n (norm_nonneg _))) (norm_exp_le X) ?_ m
  rw [norm_sub_rev]
  exact exp_tail X n

/-- The truncated series with another coefficient `c`, not larger than the right one, in the last
term. -/
theorem expSum_pow' (n m : ℕ) (X : E) {c : ℝ} (hc0 : 0 ≤ c) (hc : c ≤ (n ! : ℝ)⁻¹) :
    ‖(expSum n X + c • X ^ n) ^ m - exp X ^ m‖ ≤ m * (2 * ‖X‖ ^ n / n !) * Real.exp ‖X‖ ^ m := by
  have hn : (0 : ℝ) < n ! := by exact_mod_cast Nat.factorial_pos n
  have hX : ‖X ^ n‖ ≤ ‖X‖ ^ n := norm_pow_le _ _
  have h1 : (1 : ℝ) ≤ Real.exp ‖X‖ := Real.one_le_exp (norm_nonneg _)
  have hcX : ‖c • X ^ n‖ ≤ ‖X‖ ^ n / n ! := by
    rw [norm_smul, Real.norm_of_nonneg hc0, div_eq_inv_mul]
    exact mul_le_mul hc hX (norm_nonneg _) (by positivity)
  refine pow_sub_pow ?_ (norm_exp_le X) ?_ m
  · refine (norm_add_le _ _).trans ?_
    refine le_trans (add_le_add (norm_expSum_le n X) hcX) ?_
    rw [← Finset.sum_range_succ (fun k => ‖X‖ ^ k / (k ! : ℝ))]
    exact sum_le_exp (n + 1) (norm_nonneg _)
  · have e : expSum n X + c • X ^ n - exp X = c • X ^ n - (exp X - expSum n X) := by abel
    rw [e]
    refine (norm_sub_le _ _).trans ?_
    have h2 := exp_tail X n
    have h3 : (0 : ℝ) ≤ ‖X‖ ^ n / n ! := by positivity
    have h4 : ‖X‖ ^ n / n ! ≤ ‖X‖ ^ n / n ! * Real.exp ‖X‖ := le_mul_of_one_le_right h3 h1
    calc ‖c • X ^ n‖ + ‖exp X - expSum n X‖ ≤ ‖X‖ ^ n / n ! * Real.exp ‖X‖ + ‖X‖ ^ n / n ! * Real.exp ‖X‖ :=
          add_le_add (hcX.trans h4) h2
      _ = 2 * ‖X‖ ^ n / n ! * Real.exp ‖X‖ := by ring

end algebra

section matrix

variable {n : ℕ}

open scoped Matrix.Norms.Operator

/-- The solution of `u' = A u` is the exponential. -/
theorem solution_eq (A : Matrix (Fin n) (Fin n) ℝ) {u : ℝ → Fin n → ℝ} {t0 : ℝ}
    (hu : ∀ t, HasDerivAt u (A *ᵥ u t) t) (t : ℝ) :
    u t = exp ((t - t0) • A) *ᵥ u t0 := by
  let L : Matrix (Fin n) (Fin n) ℝ →ₗ[ℝ] (Fin n → ℝ) :=
    { toFun := fun M => M *ᵥ u t0
      map_add' := fun M N => Matrix.add_mulVec M N _
      map_smul' := fun c M => Matrix.smul_mulVec c M _ }
  have hv : ∀ t, HasDerivAt (fun t => exp ((t - t0) • A) *ᵥ u t0) (A *ᵥ (exp ((t - t0) • A) *ᵥ u t0)) t := by
    intro t
    have h1 : HasDerivAt (fun t : ℝ => exp ((t - t0) • A)) (A * exp ((t - t0) • A)) t := by
      have := hasDerivAt_exp_smul_const' (𝕂 := ℝ) A (t - t0)
      exact HasDerivAt.comp_sub_const t t0 this
    have h2 := L.toContinuousLinearMap.hasFDerivAt (x := exp ((t - t0) • A)) |>.comp_hasDerivAt t h1
    rw [Matrix.mulVec_mulVec]
    exact h2
  have hlip : ∀ t : ℝ, LipschitzOnWith ‖A‖₊ (fun y => A *ᵥ y) Set.univ := by
    intro _
    refine LipschitzOnWith.of_dist_le_mul ?_
    intro x _ y _
    rw [dist_eq_norm, dist_eq_norm, ← Matrix.mulVec_sub]
    exact Matrix.linfty_opNorm_mulVec A (x - y)
  have := ODE_solution_unique_univ (v := fun _ y => A *ᵥ y) (s := fun _ => Set.univ) (K := ‖A‖₊) (t₀ := t0)
    (f := u) (g := fun t => exp ((t - t0) • A) *ᵥ u t0) hlip (fun t => ⟨hu t, trivial⟩)
    (fun t => ⟨hv t, trivial⟩) (by simp)
  exact congrFun this t

end matrix

end Ross.RKLemmas
