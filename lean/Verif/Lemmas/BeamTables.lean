import Verif.Lemmas.Beam

/-! # Closed forms of the Galerkin integrals over the element -/

namespace Ross

open Spec Poly intervalIntegral Real

namespace BeamLemmas

variable (s : ShaftElement)

/-- Plane table of the translational mass. -/
noncomputable def tabT : Matrix (Fin 4) (Fin 4) ℝ :=
  !![s.m1, s.L * s.m2, s.m3, -s.L * s.m4;
     s.L * s.m2, s.L ^ 2 * s.m5, s.L * s.m6, -s.L ^ 2 * s.m7;
     s.m3, s.L * s.m6, s.m8, -s.L * s.m9;
     -s.L * s.m4, -s.L ^ 2 * s.m7, -s.L * s.m9, s.L ^ 2 * s.m10]

/-- Plane table of the rotary mass. -/
noncomputable def tabR : Matrix (Fin 4) (Fin 4) ℝ :=
  !![s.m11, s.L * s.m12, -s.m11, s.L * s.m13;
     s.L * s.m12, s.L ^ 2 * s.m14, -s.L * s.m12, -s.L ^ 2 * s.m15;
     -s.m11, -s.L * s.m12, s.m11, -s.L * s.m13;
     s.L * s.m13, -s.L ^ 2 * s.m15, -s.L * s.m13, s.L ^ 2 * s.m16]

/-- Plane table of the bending stiffness. -/
noncomputable def tabK1 : Matrix (Fin 4) (Fin 4) ℝ :=
  !![s.k1, s.L * s.k2, -s.k1, s.L * s.k3;
     s.L * s.k2, s.L ^ 2 * s.k4, -s.L * s.k2, s.L ^ 2 * s.k5;
     -s.k1, -s.L * s.k2, s.k1, -s.L * s.k3;
     s.L * s.k3, s.L ^ 2 * s.k5, -s.L * s.k3, s.L ^ 2 * s.k6]

/-- Plane table of the shear stiffness. -/
noncomputable def tabK2 : Matrix (Fin 4) (Fin 4) ℝ :=
  !![s.k7, s.L * s.k8, -s.k7, s.L * s.k8;
     s.L * s.k8, s.L ^ 2 * s.k9, -s.L * s.k8, s.L ^ 2 * s.k9;
     -s.k7, -s.L * s.k8, s.k7, -s.L * s.k8;
     s.L * s.k8, s.L ^ 2 * s.k9, -s.L * s.k8, s.L ^ 2 * s.k9]

/-- Plane table of the axial-force stiffness. -/
noncomputable def tabKa : Matrix (Fin 4) (Fin 4) ℝ :=
  !![s.k10, s.k11, -s.k10, s.k11;
     s.k11, s.k12, -s.k11, -s.k13;
     -s.k10, -s.k11, s.k10, -s.k11;
     s.k11, -s.k13, -s.k11, s.k12]

variable {s}

theorem galT (hL : s.L ≠ 0) (hA : s.A_l ≠ 0) (hφ : 1 + s.phi ≠ 0) (a b : Fin 4) :
    ∫ z in (0)..s.L, s.material.rho * s.beam.area z *
        (s.beam.N s.phi a z * s.beam.N s.phi b z)
      = s.material.rho * s.A_l * s.L / (1260 * (1 + s.phi) ^ 2) * tabT s a b := by
  have hL' : s.beam.L = s.L := rfl
  simp only [area_eq s hA, N_eq, ← mul_assoc s.material.rho, hL']
  rw [integral_w _ _ _ _ _ _ _ hL]
  fin_cases a <;> fin_cases b <;>
    simp only [cN, tabT, pmul, padd, psmul, pintk, Matrix.of_apply, Matrix.cons_val,
      Fin.zero_eta, Fin.mk_one, Fin.reduceFinMk,
      ShaftElement.m1, ShaftElement.m2, ShaftElement.m3, ShaftElement.m4,
      ShaftElement.m5, ShaftElement.m6, ShaftElement.m7, ShaftElement.m8, ShaftElement.m9,
      ShaftElement.m10] <;>
    field_simp <;> push_cast <;> ring

theorem galR (hL : s.L ≠ 0) (hI : s.Ie_l ≠ 0) (hφ : 1 + s.phi ≠ 0) (a b : Fin 4) :
    ∫ z in (0)..s.L, s.material.rho * s.beam.inertia z *
        (s.beam.Θ s.phi a z * s.beam.Θ s.phi b z)
      = s.material.rho * s.Ie_l / (210 * s.L * (1 + s.phi) ^ 2) * tabR s a b := by
  have hL' : s.beam.L = s.L := rfl
  simp only [inertia_eq s hI, Θ_eq, ← mul_assoc s.material.rho, hL']
  rw [integral_w _ _ _ _ _ _ _ hL]
  fin_cases a <;> fin_cases b <;>
    simp only [cT, tabR, pmul, padd, psmul, pintk, Matrix.of_apply, Matrix.cons_val,
      Fin.zero_eta, Fin.mk_one, Fin.reduceFinMk,
      ShaftElement.m11, ShaftElement.m12, ShaftElement.m13,
      ShaftElement.m14, ShaftElement.m15, ShaftElement.m16] <;>
    field_simp <;> push_cast <;> ring

theorem galB (hL : s.L ≠ 0) (hI : s.Ie_l ≠ 0) (hφ : 1 + s.phi ≠ 0) (a b : Fin 4) :
    ∫ z in (0)..s.L, s.material.E * s.beam.inertia z *
        (deriv (s.beam.Θ s.phi a) z * deriv (s.beam.Θ s.phi b) z)
      = s.material.E * (s.L ^ 3)⁻¹ * ((1 + s.phi) ^ 2)⁻¹ * (s.Ie_l / 105) * tabK1 s a b := by
  have hL' : s.beam.L = s.L := rfl
  simp only [inertia_eq s hI, dΘ_eq, ← mul_assoc s.material.E, hL']
  rw [integral_w _ _ _ _ _ _ _ hL]
  fin_cases a <;> fin_cases b <;>
    simp only [cT, tabK1, pmul, padd, psmul, pintk, pder, pderk, Matrix.of_apply, Matrix.cons_val,
      Fin.zero_eta, Fin.mk_one, Fin.reduceFinMk,
      ShaftElement.k1, ShaftElement.k2, ShaftElement.k3,
      ShaftElement.k4, ShaftElement.k5, ShaftElement.k6] <;>
    field_simp <;> push_cast <;> ring

theorem galS (κG : ℝ) (hL : s.L ≠ 0) (hA : s.A_l ≠ 0) (hφ : 1 + s.phi ≠ 0) (a b : Fin 4) :
    ∫ z in (0)..s.L, κG * s.beam.area z * (s.beam.γ s.phi a z * s.beam.γ s.phi b z)
      = κG * s.A_l * s.phi ^ 2 / (12 * s.L * (1 + s.phi) ^ 2) * tabK2 s a b := by
  have hL' : s.beam.L = s.L := rfl
  simp only [area_eq s hA, γ_eq s.beam s.phi hL, ← mul_assoc κG, hL']
  rw [integral_w _ _ _ _ _ _ _ hL]
  fin_cases a <;> fin_cases b <;>
    simp only [cγ, tabK2, pmul, padd, psmul, pintk, Matrix.of_apply, Matrix.cons_val,
      Fin.zero_eta, Fin.mk_one, Fin.reduceFinMk,
      ShaftElement.k7, ShaftElement.k8, ShaftElement.k9] <;>
    field_simp <;> push_cast <;> ring

theorem galF (hL : s.L ≠ 0) (hφ : 1 + s.phi ≠ 0) (a b : Fin 4) :
    ∫ z in (0)..s.L, s.axial_force *
        (deriv (s.beam.N s.phi a) z * deriv (s.beam.N s.phi b) z)
      = s.axial_force / (30 * s.L * (1 + s.phi) ^ 2) * tabKa s a b := by
  have hL' : s.beam.L = s.L := rfl
  have h1 : ∀ z : ℝ, s.axial_force = s.axial_force * pe [1] (z / s.L) := by intro z; simp [pe]
  simp only [dN_eq, hL']
  have h2 : ∀ z, s.axial_force * ((1 + s.phi)⁻¹ * s.L⁻¹ * pe (pder (cN s.L s.phi a)) (z / s.L)
      * ((1 + s.phi)⁻¹ * s.L⁻¹ * pe (pder (cN s.L s.phi b)) (z / s.L)))
      = s.axial_force * pe [1] (z / s.L) *
        ((1 + s.phi)⁻¹ * s.L⁻¹ * pe (pder (cN s.L s.phi a)) (z / s.L)
      * ((1 + s.phi)⁻¹ * s.L⁻¹ * pe (pder (cN s.L s.phi b)) (z / s.L))) := by
    intro z; rw [← h1 z]
  simp only [h2]
  rw [integral_w _ _ _ _ _ _ _ hL]
  fin_cases a <;> fin_cases b <;>
    simp only [cN, tabKa, pmul, padd, psmul, pintk, pder, pderk, Matrix.of_apply, Matrix.cons_val,
      Fin.zero_eta, Fin.mk_one, Fin.reduceFinMk,
      ShaftElement.k10, ShaftElement.k11, ShaftElement.k12, ShaftElement.k13] <;>
    field_simp <;> push_cast <;> ring

end BeamLemmas

end Ross
