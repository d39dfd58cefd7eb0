import Verif.Props.ShaftMatrices
import Verif.Props.ShaftKernel

/-! # Shaft elements under gravity -/

namespace Ross.StaticLemmas

open Ross Ross.Spec Ross.Props Ross.ShaftLemmas Matrix

/-- Vertical unit translation of both ends. -/
def eY : Fin 8 → ℝ := ![0, 1, 0, 0, 0, 1, 0, 0]

/-- Rotation in the vertical plane about the left end. -/
def eRot (L : ℝ) : Fin 8 → ℝ := ![0, 0, -1, 0, 0, L, -1, 0]

/-- The elastic forces of an element have no resultant. -/
theorem eY_K (s : ShaftElement) : eY ᵥ* s.K = 0 := by
  have h1 : eY ᵥ* s.K1 = 0 := by
    ext i; fin_cases i <;> simp [eY, ShaftElement.K1, vecMul, dotProduct, Fin.sum_univ_eight]
  have h2 : eY ᵥ* s.K2 = 0 := by
    ext i; fin_cases i <;> simp [eY, ShaftElement.K2, vecMul, dotProduct, Fin.sum_univ_eight]
  have h3 : eY ᵥ* s.Kaxial = 0 := by
    ext i; fin_cases i <;> simp [eY, ShaftElement.Kaxial, vecMul, dotProduct, Fin.sum_univ_eight]
  have h4 : eY ᵥ* s.Ktorque = 0 := by
    ext i; fin_cases i <;> simp [eY, ShaftElement.Ktorque, vecMul, dotProduct, Fin.sum_univ_eight]
  simp [ShaftElement.K, Matrix.vecMul_add, Matrix.vecMul_smul, h1, h2, h3, h4]

/-- Without axial force and torque they have no moment. -/
theorem eRot_K (s : ShaftElement) (ha : s.axial_force = 0) (ht : s.torque = 0) :
    eRot s.L ᵥ* s.K = 0 := by
  have h1 : eRot s.L ᵥ* s.K1 = 0 := by
    ext i
    fin_cases i <;> simp [eRot, ShaftElement.K1, vecMul, dotProduct, Fin.sum_univ_eight,
      ShaftElement.k1, ShaftElement.k2, ShaftElement.k3, ShaftElement.k4, ShaftElement.k5,
      ShaftElement.k6] <;> ring
  have h2 : eRot s.L ᵥ* s.K2 = 0 := by
    ext i
    fin_cases i <;> simp [eRot, ShaftElement.K2, vecMul, dotProduct, Fin.sum_univ_eight,
      ShaftElement.k7, ShaftElement.k8, ShaftElement.k9] <;> ring
  simp [ShaftElement.K, Matrix.vecMul_add, Matrix.vecMul_smul, h1, h2, ha, ht]

theorem eY_M (s : ShaftElement) (hs : s.Built) (hφ : 1 + s.phi ≠ 0) :
    eY ⬝ᵥ (s.M *ᵥ eY) = s.m := (C06_rigid_mass_m s hs hφ).2

theorem volume_eq (s : ShaftElement) (hs : s.Built) :
    s.volume = s.A_l * s.L * (1 + s.a1 / 2 + s.b1 / 3) := by
  have f := built_facts hs
  rw [(C04_volume s hs).1]
  simp only [BeamLemmas.area_eq s f.A_l]
  rw [Poly.integral_mul_pe_div _ _ _ f.L]
  simp only [Poly.pintk]
  push_cast; ring

theorem moment_eq (s : ShaftElement) (hs : s.Built) :
    s.volume * s.beam_cg = s.A_l * s.L ^ 2 * (1 / 2 + s.a1 / 3 + s.b1 / 4) := by
  have f := built_facts hs
  rw [C04_beam_cg s hs, ← (C04_volume s hs).1, mul_div_cancel₀ _ f.volume]
  have h1 : ∀ x, x * s.beam.area x
      = s.L * s.A_l * Poly.pe [0, 1, s.a1, s.b1] (x / s.L) := by
    intro x
    rw [BeamLemmas.area_eq s f.A_l]
    have : x = s.L * (x / s.L) := by have := f.L; field_simp
    generalize x / s.L = t at *
    subst this
    simp only [Poly.pe]; ring
  simp only [h1]
  rw [Poly.integral_mul_pe_div _ _ _ f.L]
  simp only [Poly.pintk]
  push_cast; ring

/-- The weight of an element acts at its centre of gravity. -/
theorem eRot_M (s : ShaftElement) (hs : s.Built) (hφ : 1 + s.phi ≠ 0) :
    eRot s.L ⬝ᵥ (s.M *ᵥ eY) = s.m * s.beam_cg := by
  have f := built_facts hs
  have hT : eRot s.L ⬝ᵥ (s.Mt *ᵥ eY) =
      s.L * (s.m2 + s.m6 - s.m4 - s.m9 + s.m3 + s.m8) := by
    simp [eRot, eY, ShaftElement.Mt, mulVec, dotProduct, Fin.sum_univ_eight]; ring
  have hR : s.Mr *ᵥ eY = 0 := by
    ext i; fin_cases i <;> simp [eY, ShaftElement.Mr, mulVec, dotProduct, Fin.sum_univ_eight]
  have hm : s.m * s.beam_cg = s.material.rho * (s.volume * s.beam_cg) := by
    rw [ShaftElement.m]; ring
  rw [hm, moment_eq s hs]
  have key : s.material.rho * s.A_l * s.L / (1260 * (1 + s.phi) ^ 2) *
      (s.L * (s.m2 + s.m6 - s.m4 - s.m9 + s.m3 + s.m8)) =
      s.material.rho * (s.A_l * s.L ^ 2 * (1 / 2 + s.a1 / 3 + s.b1 / 4)) := by
    simp only [ShaftElement.m2, ShaftElement.m6, ShaftElement.m4, ShaftElement.m9,
      ShaftElement.m3, ShaftElement.m8]
    field_simp
    ring
  unfold ShaftElement.M
  split_ifs
  · simp only [Matrix.add_mulVec, Matrix.smul_mulVec, hR, smul_zero, add_zero, dotProduct_smul,
      hT, smul_eq_mul]
    exact key
  · simp only [Matrix.smul_mulVec, dotProduct_smul, hT, smul_eq_mul]
    exact key

/-- The consistent share of the weight at the two ends of an element. -/
theorem ends_M (s : ShaftElement) (hs : s.Built) (hφ : 1 + s.phi ≠ 0) :
    (s.M *ᵥ eY) 1 + (s.M *ᵥ eY) 5 = s.m := by
  rw [← eY_M s hs hφ]
  simp [eY, dotProduct, Fin.sum_univ_eight]

/-- The rows of a cylinder: half of the mass at each end. -/
theorem cyl_M (s : ShaftElement) (hs : s.Built) (hφ : 1 + s.phi ≠ 0)
    (h1 : s.a1 = 0) (h2 : s.b1 = 0) :
    (s.M *ᵥ eY) 1 = s.m / 2 ∧ (s.M *ᵥ eY) 5 = s.m / 2 := by
  have f := built_facts hs
  have h5 : (s.M *ᵥ eY) 5 = s.m / 2 := by
    have hT : (s.Mt *ᵥ eY) 5 = s.m3 + s.m8 := by
      simp [eY, ShaftElement.Mt, mulVec, dotProduct, Fin.sum_univ_eight]
    have hR : s.Mr *ᵥ eY = 0 := by
      ext i; fin_cases i <;> simp [eY, ShaftElement.Mr, mulVec, dotProduct, Fin.sum_univ_eight]
    have key : s.material.rho * s.A_l * s.L / (1260 * (1 + s.phi) ^ 2) * (s.m3 + s.m8) =
        s.m / 2 := by
      rw [ShaftElement.m, volume_eq s hs]
      simp only [ShaftElement.m3, ShaftElement.m8, h1, h2]
      field_simp
      ring
    unfold ShaftElement.M
    split_ifs
    · simp only [Matrix.add_mulVec, Matrix.smul_mulVec, hR, smul_zero, add_zero, Pi.smul_apply, hT,
        smul_eq_mul]
      exact key
    · simp only [Matrix.smul_mulVec, Pi.smul_apply, hT, smul_eq_mul]
      exact key
  have := ends_M s hs hφ
  exact ⟨by linarith, h5⟩

end Ross.StaticLemmas
