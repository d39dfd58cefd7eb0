import Mathlib.LinearAlgebra.Matrix.PosDef
import Verif.Lemmas.ShaftBuilt

/-! # Quadratic forms of Galerkin matrices -/

namespace Ross

open Spec Real intervalIntegral Matrix

namespace ShaftLemmas

theorem quad_integral {n : ℕ} (L : ℝ) (g : ℝ → ℝ) (f : Fin n → ℝ → ℝ) (hg : Continuous g)
    (hf : ∀ i, Continuous (f i)) (u : Fin n → ℝ) :
    ∑ i, ∑ j, u i * u j * ∫ z in (0)..L, g z * (f i z * f j z)
      = ∫ z in (0)..L, g z * (∑ i, u i * f i z) ^ 2 := by
  have h : ∀ z, g z * (∑ i, u i * f i z) ^ 2
      = ∑ i, ∑ j, u i * u j * (g z * (f i z * f j z)) := by
    intro z
    rw [sq, Finset.sum_mul_sum, Finset.mul_sum]
    refine Finset.sum_congr rfl fun i _ => ?_
    rw [Finset.mul_sum]
    refine Finset.sum_congr rfl fun j _ => ?_
    ring
  simp only [h]
  rw [integral_finsetSum]
  · refine Finset.sum_congr rfl fun i _ => ?_
    rw [integral_finsetSum]
    · refine Finset.sum_congr rfl fun j _ => ?_
      rw [integral_const_mul]
    · intro j _
      exact (continuous_const.mul (hg.mul ((hf i).mul (hf j)))).intervalIntegrable _ _
  · intro i _
    exact (continuous_finsetSum _ fun j _ =>
      continuous_const.mul (hg.mul ((hf i).mul (hf j)))).intervalIntegrable _ _

theorem continuous_field (f : Fin 4 → ℝ → ℝ) (hf : ∀ a, Continuous (f a)) (p : Fin 2)
    (i : Fin 8) : Continuous (Beam.field f p i) := by
  have : Beam.field f p i = fun z =>
      if BeamLemmas.plane i = p then BeamLemmas.sgn i * f (BeamLemmas.idx i) z else 0 :=
    funext (BeamLemmas.field_eq f p i)
  rw [this]
  split_ifs
  · exact continuous_const.mul (hf _)
  · exact continuous_const

theorem quad_field (L : ℝ) (g : ℝ → ℝ) (f : Fin 4 → ℝ → ℝ) (hg : Continuous g)
    (hf : ∀ a, Continuous (f a)) (u : Fin 8 → ℝ) :
    ∑ i, ∑ j, u i * u j * ∫ z in (0)..L, g z * (Beam.field f 0 i z * Beam.field f 0 j z
        + Beam.field f 1 i z * Beam.field f 1 j z)
      = ∫ z in (0)..L, g z * ((∑ i, u i * Beam.field f 0 i z) ^ 2
          + (∑ i, u i * Beam.field f 1 i z) ^ 2) := by
  have c := continuous_field f hf
  have h : ∀ i j, ∫ z in (0)..L, g z * (Beam.field f 0 i z * Beam.field f 0 j z
        + Beam.field f 1 i z * Beam.field f 1 j z)
      = (∫ z in (0)..L, g z * (Beam.field f 0 i z * Beam.field f 0 j z))
        + ∫ z in (0)..L, g z * (Beam.field f 1 i z * Beam.field f 1 j z) := by
    intro i j
    rw [← integral_add]
    · congr 1; funext z; ring
    · exact (hg.mul ((c 0 i).mul (c 0 j))).intervalIntegrable _ _
    · exact (hg.mul ((c 1 i).mul (c 1 j))).intervalIntegrable _ _
  simp only [h]
  simp only [mul_add, Finset.sum_add_distrib]
  rw [quad_integral L g _ hg (c 0), quad_integral L g _ hg (c 1), ← integral_add]
  · exact (hg.mul ((continuous_finsetSum _ fun i _ =>
      continuous_const.mul (c 0 i)).pow 2)).intervalIntegrable _ _
  · exact (hg.mul ((continuous_finsetSum _ fun i _ =>
      continuous_const.mul (c 1 i)).pow 2)).intervalIntegrable _ _

theorem quad_nonneg (L : ℝ) (hL : 0 ≤ L) (g : ℝ → ℝ) (f : Fin 4 → ℝ → ℝ) (hg : Continuous g)
    (hf : ∀ a, Continuous (f a)) (hpos : ∀ z, 0 ≤ z → z ≤ L → 0 ≤ g z) (u : Fin 8 → ℝ) :
    0 ≤ ∑ i, ∑ j, u i * u j * ∫ z in (0)..L, g z * (Beam.field f 0 i z * Beam.field f 0 j z
        + Beam.field f 1 i z * Beam.field f 1 j z) := by
  rw [quad_field L g f hg hf]
  refine integral_nonneg hL fun z hz => ?_
  have := hpos z hz.1 hz.2
  positivity

theorem continuous_area (b : Beam) : Continuous b.area := by
  unfold Beam.area Beam.od Beam.id; fun_prop

theorem continuous_inertia (b : Beam) : Continuous b.inertia := by
  unfold Beam.inertia Beam.od Beam.id; fun_prop

theorem continuous_pe_div (c L : ℝ) (p : List ℝ) : Continuous fun x => c * Poly.pe p (x / L) :=
  continuous_const.mul ((Poly.continuous_pe p).comp (continuous_id.div_const L))

theorem continuous_N (b : Beam) (φ : ℝ) (a : Fin 4) : Continuous (b.N φ a) := by
  rw [BeamLemmas.N_fun]; exact continuous_pe_div _ _ _

theorem continuous_Θ (b : Beam) (φ : ℝ) (a : Fin 4) : Continuous (b.Θ φ a) := by
  rw [BeamLemmas.Θ_fun]; exact continuous_pe_div _ _ _

theorem continuous_dN (b : Beam) (φ : ℝ) (a : Fin 4) : Continuous (deriv (b.N φ a)) := by
  rw [show deriv (b.N φ a) = _ from funext (BeamLemmas.dN_eq b φ a)]; exact continuous_pe_div _ _ _

theorem continuous_dΘ (b : Beam) (φ : ℝ) (a : Fin 4) : Continuous (deriv (b.Θ φ a)) := by
  rw [show deriv (b.Θ φ a) = _ from funext (BeamLemmas.dΘ_eq b φ a)]; exact continuous_pe_div _ _ _

theorem continuous_γ (b : Beam) (φ : ℝ) (a : Fin 4) : Continuous (b.γ φ a) :=
  (continuous_dN b φ a).sub (continuous_Θ b φ a)

/-- Four plane unknowns vanish if the deflection they produce vanishes on the element. -/
theorem plane_zero (b : Beam) (hL : 0 < b.L) (φ : ℝ) (hφ : 0 < 1 + φ) (v : Fin 4 → ℝ)
    (h : ∀ z, 0 ≤ z → z ≤ b.L → ∑ a, v a * b.N φ a z = 0) : v = 0 := by
  have hL' := hL.ne'
  have e : ∀ t, 0 ≤ t → t ≤ 1 → ∑ a, v a * Poly.pe (BeamLemmas.cN b.L φ a) t = 0 := by
    intro t h0 h1
    have := h (b.L * t) (by positivity) (by nlinarith)
    simp only [BeamLemmas.N_eq, mul_div_cancel_left₀ t hL'] at this
    have h2 : (1 + φ)⁻¹ * ∑ a, v a * Poly.pe (BeamLemmas.cN b.L φ a) t = 0 := by
      rw [← this, Finset.mul_sum]; exact Finset.sum_congr rfl fun a _ => by ring
    exact (mul_eq_zero.1 h2).resolve_left (inv_ne_zero hφ.ne')
  have e0 := e 0 le_rfl zero_le_one
  have e1 := e 1 zero_le_one le_rfl
  have e2 := e (1 / 2) (by norm_num) (by norm_num)
  have e4 := e (1 / 4) (by norm_num) (by norm_num)
  simp only [Fin.sum_univ_four, BeamLemmas.cN, Poly.pe, Matrix.cons_val] at e0 e1 e2 e4
  have v0 : v 0 = 0 := by
    have : (1 + φ) * v 0 = 0 := by linarith
    exact (mul_eq_zero.1 this).resolve_left hφ.ne'
  have v2 : v 2 = 0 := by
    have : (1 + φ) * v 2 = 0 := by rw [v0] at e1; linarith
    exact (mul_eq_zero.1 this).resolve_left hφ.ne'
  rw [v0, v2] at e2 e4
  have h13 : v 1 - v 3 = 0 := by
    have : (b.L * (1 + φ)) * (v 1 - v 3) = 0 := by linarith
    exact (mul_eq_zero.1 this).resolve_left (by positivity)
  have v3 : v 3 = v 1 := by linarith
  rw [v3] at e4
  have v1 : v 1 = 0 := by
    have : b.L * v 1 = 0 := by linarith
    exact (mul_eq_zero.1 this).resolve_left hL'
  funext a
  fin_cases a <;> simp [v0, v2, v1, v3]

theorem sum_field (f : Fin 4 → ℝ → ℝ) (u : Fin 8 → ℝ) (z : ℝ) :
    (∑ i, u i * Beam.field f 0 i z = ∑ a, (![u 0, u 3, u 4, u 7] : Fin 4 → ℝ) a * f a z) ∧
    (∑ i, u i * Beam.field f 1 i z = ∑ a, (![u 1, -u 2, u 5, -u 6] : Fin 4 → ℝ) a * f a z) := by
  simp [Fin.sum_univ_eight, Fin.sum_univ_four, Beam.field]

theorem quad_pos (b : Beam) (hb : b.Physical) (φ : ℝ) (hφ : 0 < 1 + φ) (u : Fin 8 → ℝ)
    (hu : u ≠ 0) : 0 < ∑ i, ∑ j, u i * u j * b.massT φ i j := by
  unfold Beam.massT
  rw [quad_field b.L (fun z => b.rho * b.area z) _
    (continuous_const.mul (continuous_area b)) (continuous_N b φ)]
  have c := continuous_field _ (continuous_N b φ)
  have hcont : Continuous fun z => b.rho * b.area z *
      ((∑ i, u i * Beam.field (b.N φ) 0 i z) ^ 2 + (∑ i, u i * Beam.field (b.N φ) 1 i z) ^ 2) := by
    refine (continuous_const.mul (continuous_area b)).mul (Continuous.add ?_ ?_)
    · exact (continuous_finsetSum _ fun i _ => continuous_const.mul (c 0 i)).pow 2
    · exact (continuous_finsetSum _ fun i _ => continuous_const.mul (c 1 i)).pow 2
  have hw : ∀ z, 0 ≤ z → z ≤ b.L → 0 < b.rho * b.area z := fun z h0 h1 =>
    mul_pos hb.rho_pos (area_pos b hb z h0 h1)
  refine integral_pos hb.L_pos hcont.continuousOn ?_ ?_
  · intro z hz
    have := (hw z hz.1.le hz.2).le
    positivity
  · by_contra hcon
    push Not at hcon
    have hz : ∀ z, 0 ≤ z → z ≤ b.L → (∑ i, u i * Beam.field (b.N φ) 0 i z = 0) ∧
        (∑ i, u i * Beam.field (b.N φ) 1 i z = 0) := by
      intro z h0 h1
      have h2 := hcon z ⟨h0, h1⟩
      have h3 := hw z h0 h1
      generalize (∑ i, u i * Beam.field (b.N φ) 0 i z) = p at *
      generalize (∑ i, u i * Beam.field (b.N φ) 1 i z) = q at *
      have h4 : p ^ 2 + q ^ 2 ≤ 0 := by
        by_contra h5
        push Not at h5
        exact absurd (mul_pos h3 h5) (not_lt.2 h2)
      have hp : p ^ 2 = 0 := by nlinarith [sq_nonneg p, sq_nonneg q]
      have hq : q ^ 2 = 0 := by nlinarith [sq_nonneg p, sq_nonneg q]
      exact ⟨pow_eq_zero_iff (two_ne_zero) |>.1 hp, pow_eq_zero_iff (two_ne_zero) |>.1 hq⟩
    have hx := plane_zero b hb.L_pos φ hφ ![u 0, u 3, u 4, u 7] fun z h0 h1 => by
      rw [← (sum_field (b.N φ) u z).1]; exact (hz z h0 h1).1
    have hy := plane_zero b hb.L_pos φ hφ ![u 1, -u 2, u 5, -u 6] fun z h0 h1 => by
      rw [← (sum_field (b.N φ) u z).2]; exact (hz z h0 h1).2
    apply hu
    have x0 := congrFun hx 0; have x1 := congrFun hx 1
    have x2 := congrFun hx 2; have x3 := congrFun hx 3
    have y0 := congrFun hy 0; have y1 := congrFun hy 1
    have y2 := congrFun hy 2; have y3 := congrFun hy 3
    simp at x0 x1 x2 x3 y0 y1 y2 y3
    funext i
    fin_cases i <;> simp [*]

theorem dot_eq_sum {n : ℕ} (M : Matrix (Fin n) (Fin n) ℝ) (u : Fin n → ℝ) :
    u ⬝ᵥ (M *ᵥ u) = ∑ i, ∑ j, u i * u j * M i j := by
  simp only [dotProduct, mulVec, Finset.mul_sum]
  refine Finset.sum_congr rfl fun i _ => Finset.sum_congr rfl fun j _ => by ring

end ShaftLemmas

end Ross
