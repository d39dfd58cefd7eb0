import Verif.Props.ShaftMatrices

/-! # Displacements of a shaft element without strain energy -/

namespace Ross.ShaftLemmas

open Spec Real intervalIntegral BeamLemmas Matrix Props

/-- A vanishing weighted square integral makes both fields vanish. -/
theorem quad_zero (L : ℝ) (hL : 0 < L) (g : ℝ → ℝ) (f : Fin 4 → ℝ → ℝ) (hg : Continuous g)
    (hf : ∀ a, Continuous (f a)) (hpos : ∀ z, 0 ≤ z → z ≤ L → 0 < g z) (u : Fin 8 → ℝ)
    (h0 : ∑ i, ∑ j, u i * u j * ∫ z in (0)..L, g z * (Beam.field f 0 i z * Beam.field f 0 j z
        + Beam.field f 1 i z * Beam.field f 1 j z) ≤ 0) :
    ∀ z, 0 ≤ z → z ≤ L → ∑ a, (![u 0, u 3, u 4, u 7] : Fin 4 → ℝ) a * f a z = 0 ∧
      ∑ a, (![u 1, -u 2, u 5, -u 6] : Fin 4 → ℝ) a * f a z = 0 := by
  rw [quad_field L g f hg hf] at h0
  have c := continuous_field f hf
  have hcont : Continuous fun z => g z *
      ((∑ i, u i * Beam.field f 0 i z) ^ 2 + (∑ i, u i * Beam.field f 1 i z) ^ 2) := by
    refine hg.mul (Continuous.add ?_ ?_)
    · exact (continuous_finsetSum _ fun i _ => continuous_const.mul (c 0 i)).pow 2
    · exact (continuous_finsetSum _ fun i _ => continuous_const.mul (c 1 i)).pow 2
  intro z hz0 hz1
  rw [← (sum_field f u z).1, ← (sum_field f u z).2]
  by_contra hcon
  refine absurd h0 (not_le.2 (integral_pos hL hcont.continuousOn ?_ ⟨z, ⟨hz0, hz1⟩, ?_⟩))
  · intro z hz
    have := (hpos z hz.1.le hz.2).le
    positivity
  · refine mul_pos (hpos z hz0 hz1) ?_
    generalize (∑ i, u i * Beam.field f 0 i z) = p at *
    generalize (∑ i, u i * Beam.field f 1 i z) = q at *
    by_cases hp : p = 0
    · have hq : q ≠ 0 := fun hq => hcon ⟨hp, hq⟩
      positivity
    · positivity

/-- A plane displacement without curvature is rigid. -/
theorem plane_rigid (b : Beam) (hL : 0 < b.L) (φ : ℝ) (hφ : 0 < 1 + φ) (v : Fin 4 → ℝ)
    (h : ∀ z, 0 ≤ z → z ≤ b.L → ∑ a, v a * deriv (b.Θ φ a) z = 0) :
    v 3 = v 1 ∧ v 2 = v 0 + b.L * v 1 := by
  have hL' := hL.ne'
  have e : ∀ t, 0 ≤ t → t ≤ 1 → ∑ a, v a * Poly.pe (Poly.pder (cT b.L φ a)) t = 0 := by
    intro t h0 h1
    have := h (b.L * t) (by positivity) (by nlinarith)
    simp only [dΘ_eq, mul_div_cancel_left₀ t hL'] at this
    have h2 : ((1 + φ)⁻¹ * b.L⁻¹) * ∑ a, v a * Poly.pe (Poly.pder (cT b.L φ a)) t = 0 := by
      rw [← this, Finset.mul_sum]; exact Finset.sum_congr rfl fun a _ => by ring
    exact (mul_eq_zero.1 h2).resolve_left (by positivity)
  have e0 := e 0 le_rfl zero_le_one
  have e1 := e 1 zero_le_one le_rfl
  simp [Fin.sum_univ_four, cT, Poly.pe, Poly.pder, Poly.pderk] at e0 e1
  field_simp at e0 e1
  have h1 : v 3 = v 1 := by
    have : (b.L * (1 + φ)) * (v 3 - v 1) = 0 := by linear_combination (1 / 2) * e0 + (1 / 2) * e1
    have := (mul_eq_zero.1 this).resolve_left (by positivity)
    linarith
  refine ⟨h1, ?_⟩
  rw [h1] at e0
  linear_combination (1 / 6) * e0

end Ross.ShaftLemmas

namespace Ross.Props

open Ross Spec Real intervalIntegral ShaftLemmas BeamLemmas Matrix

/-- **C07** only rigid motions are free of strain energy (under no compression and torque): an element
without strain energy is neither bent nor sheared, in either plane. -/
theorem C07_energy_free (s : ShaftElement) (hs : s.Built) (hp : s.beam.Physical)
    (hF : 0 ≤ s.axial_force) (hT : s.torque = 0) (u : Fin 8 → ℝ) (h0 : u ⬝ᵥ (s.K *ᵥ u) ≤ 0) :
    u 7 = u 3 ∧ u 4 = u 0 + s.L * u 3 ∧ u 6 = u 2 ∧ u 5 = u 1 - s.L * u 2 := by
  have f := built_facts hs
  have hφ := one_add_phi_pos f hp
  have hk : 0 < s.kappa := by rw [kappa_eq]; exact specKappa_pos hp
  rw [dot_eq_sum] at h0
  have hT0 : ∀ i j, s.beam.stiffT s.torque i j = 0 := by
    intro i j; rw [torque_entry s f.L, hT]; simp
  simp only [C07_stiffness_galerkin s hs hφ.ne', mul_add, Finset.sum_add_distrib, hT0, add_zero] at h0
  have hS := quad_nonneg s.beam.L hp.L_pos.le (fun z => s.kappa * s.beam.G * s.beam.area z) _
    (continuous_const.mul (continuous_area _)) (continuous_γ s.beam s.phi)
    (fun z h0 h1 => (mul_pos (mul_pos hk hp.G_pos) (area_pos _ hp z h0 h1)).le) u
  have hFF := quad_nonneg s.beam.L hp.L_pos.le (fun _ => s.beam.F) _
    continuous_const (continuous_dN s.beam s.phi) (fun _ _ _ => hF) u
  unfold Beam.stiffB Beam.stiffS Beam.stiffF at h0
  have hz := quad_zero s.beam.L hp.L_pos (fun z => s.beam.E * s.beam.inertia z) _
    (continuous_const.mul (continuous_inertia _)) (continuous_dΘ s.beam s.phi)
    (fun z h0 h1 => mul_pos hp.E_pos (inertia_pos _ hp z h0 h1)) u (by linarith)
  obtain ⟨x1, x2⟩ := plane_rigid s.beam hp.L_pos s.phi hφ _ fun z a b => (hz z a b).1
  obtain ⟨y1, y2⟩ := plane_rigid s.beam hp.L_pos s.phi hφ _ fun z a b => (hz z a b).2
  have hL : s.beam.L = s.L := rfl
  simp [hL] at x1 x2 y1 y2
  exact ⟨x1, x2, y1, by linarith⟩

/-- The tapered hollow element in tension meets the hypotheses; a rigid translation is free of energy. -/
example : exShaft.Built ∧ exShaft.beam.Physical ∧ 0 ≤ exShaft.axial_force ∧ exShaft.torque = 0 ∧
    ![1, 2, 0, 0, 1, 2, 0, 0] ⬝ᵥ (exShaft.K *ᵥ ![1, 2, 0, 0, 1, 2, 0, 0]) ≤ 0 :=
  ⟨exShaft_built, exShaft_physical, by norm_num [exShaft], rfl, by
    rw [C08_rigid_translation]; simp⟩

end Ross.Props
