import Mathlib.Tactic.FinCases
import Mathlib.Tactic.NormNum
import Verif.Lemmas.Poly
import Verif.Model.Shaft
import Verif.Spec.Beam

/-! # Helper lemmas: shape functions as polynomials, Galerkin integrals -/

namespace Ross

open Spec Poly intervalIntegral Real

/-- The beam described by a shaft element. -/
noncomputable def ShaftElement.beam (s : ShaftElement) : Spec.Beam :=
  { L := s.L, idl := s.idl, odl := s.odl, idr := s.idr, odr := s.odr, rho := s.material.rho,
    E := s.material.E, G := s.material.G_s, nu := s.material.Poisson, F := s.axial_force }

namespace BeamLemmas

/-- Plane, index and sign of each of the eight dofs. -/
def plane : Fin 8 → Fin 2 := ![0, 1, 1, 0, 0, 1, 1, 0]
def idx : Fin 8 → Fin 4 := ![0, 0, 1, 1, 2, 2, 3, 3]
def sgn : Fin 8 → ℝ := ![1, 1, -1, 1, 1, 1, -1, 1]

theorem field_eq (f : Fin 4 → ℝ → ℝ) (p : Fin 2) (i : Fin 8) (z : ℝ) :
    Beam.field f p i z = if plane i = p then sgn i * f (idx i) z else 0 := by
  fin_cases p <;> fin_cases i <;> simp [Beam.field, plane, idx, sgn]

theorem integral_same (L : ℝ) (g : ℝ → ℝ) (f h : Fin 4 → ℝ → ℝ) (i j : Fin 8) :
    ∫ z in (0)..L, g z * (Beam.field f 0 i z * Beam.field h 0 j z
        + Beam.field f 1 i z * Beam.field h 1 j z)
      = if plane i = plane j then sgn i * sgn j * ∫ z in (0)..L, g z * (f (idx i) z * h (idx j) z)
        else 0 := by
  have key : ∀ z, g z * (Beam.field f 0 i z * Beam.field h 0 j z
        + Beam.field f 1 i z * Beam.field h 1 j z)
      = if plane i = plane j then sgn i * sgn j * (g z * (f (idx i) z * h (idx j) z)) else 0 := by
    intro z
    simp only [field_eq]
    have h2 : ∀ p : Fin 2, p = 0 ∨ p = 1 := by intro p; fin_cases p <;> simp
    rcases h2 (plane i) with hi | hi <;> rcases h2 (plane j) with hj | hj <;>
      simp [hi, hj] <;> ring
  simp only [key]
  split_ifs
  · rw [integral_const_mul]
  · simp

theorem integral_cross (L : ℝ) (g : ℝ → ℝ) (f : Fin 4 → ℝ → ℝ) (i j : Fin 8) :
    ∫ z in (0)..L, g z * (Beam.field f 0 i z * Beam.field f 1 j z
        - Beam.field f 1 i z * Beam.field f 0 j z)
      = if plane i = plane j then 0
        else if plane i = 0 then
          sgn i * sgn j * ∫ z in (0)..L, g z * (f (idx i) z * f (idx j) z)
        else - (sgn i * sgn j * ∫ z in (0)..L, g z * (f (idx i) z * f (idx j) z)) := by
  have key : ∀ z, g z * (Beam.field f 0 i z * Beam.field f 1 j z
        - Beam.field f 1 i z * Beam.field f 0 j z)
      = if plane i = plane j then 0
        else if plane i = 0 then sgn i * sgn j * (g z * (f (idx i) z * f (idx j) z))
        else - (sgn i * sgn j) * (g z * (f (idx i) z * f (idx j) z)) := by
    intro z
    simp only [field_eq]
    have h2 : ∀ p : Fin 2, p = 0 ∨ p = 1 := by intro p; fin_cases p <;> simp
    rcases h2 (plane i) with hi | hi <;> rcases h2 (plane j) with hj | hj <;>
      simp [hi, hj] <;> ring
  simp only [key]
  split_ifs
  · simp
  · rw [integral_const_mul]
  · rw [integral_const_mul, neg_mul]

/-- Coefficients of `(1+φ) N_a` in `x/L`. -/
noncomputable def cN (L φ : ℝ) : Fin 4 → List ℝ :=
  ![[1 + φ, -φ, -3, 2], [0, L * (1 + φ / 2), L * (-2 - φ / 2), L], [0, φ, 3, -2],
    [0, -(L * φ / 2), L * (φ / 2 - 1), L]]

/-- Coefficients of `(1+φ) Θ_a` in `x/L`. -/
noncomputable def cT (L φ : ℝ) : Fin 4 → List ℝ :=
  ![[0, -6 / L, 6 / L], [1 + φ, -4 - φ, 3], [0, 6 / L, -6 / L], [0, φ - 2, 3]]

theorem N_eq (b : Beam) (φ : ℝ) (a : Fin 4) (x : ℝ) :
    b.N φ a x = (1 + φ)⁻¹ * pe (cN b.L φ a) (x / b.L) := by
  fin_cases a <;> simp [Beam.N, cN, pe] <;> ring

theorem Θ_eq (b : Beam) (φ : ℝ) (a : Fin 4) (x : ℝ) :
    b.Θ φ a x = (1 + φ)⁻¹ * pe (cT b.L φ a) (x / b.L) := by
  fin_cases a <;> simp [Beam.Θ, cT, pe] <;> ring

theorem N_fun (b : Beam) (φ : ℝ) (a : Fin 4) :
    b.N φ a = fun x => (1 + φ)⁻¹ * pe (cN b.L φ a) (x / b.L) := funext (N_eq b φ a)

theorem Θ_fun (b : Beam) (φ : ℝ) (a : Fin 4) :
    b.Θ φ a = fun x => (1 + φ)⁻¹ * pe (cT b.L φ a) (x / b.L) := funext (Θ_eq b φ a)

theorem dN_eq (b : Beam) (φ : ℝ) (a : Fin 4) (x : ℝ) :
    deriv (b.N φ a) x = (1 + φ)⁻¹ * b.L⁻¹ * pe (pder (cN b.L φ a)) (x / b.L) := by
  rw [N_fun, (hasDerivAt_mul_pe_div _ _ _ _).deriv]; ring

theorem dΘ_eq (b : Beam) (φ : ℝ) (a : Fin 4) (x : ℝ) :
    deriv (b.Θ φ a) x = (1 + φ)⁻¹ * b.L⁻¹ * pe (pder (cT b.L φ a)) (x / b.L) := by
  rw [Θ_fun, (hasDerivAt_mul_pe_div _ _ _ _).deriv]; ring

/-- Shear strains are constant along the element. -/
noncomputable def cγ (L φ : ℝ) : Fin 4 → ℝ := ![-φ / L, -φ / 2, φ / L, -φ / 2]

theorem γ_eq (b : Beam) (φ : ℝ) (hL : b.L ≠ 0) (a : Fin 4) (x : ℝ) :
    b.γ φ a x = (1 + φ)⁻¹ * pe [cγ b.L φ a] (x / b.L) := by
  unfold Beam.γ
  rw [dN_eq, Θ_eq]
  fin_cases a <;> simp [cN, cT, cγ, pe, pder, pderk] <;> field_simp <;> ring

theorem area_eq (s : ShaftElement) (h : s.A_l ≠ 0) (x : ℝ) :
    s.beam.area x = s.A_l * pe [1, s.a1, s.b1] (x / s.L) := by
  have e : s.A_l * pe [1, s.a1, s.b1] (x / s.L)
      = s.A_l + (x / s.L) * (s.a1 * s.A_l) + (x / s.L) ^ 2 * (s.b1 * s.A_l) := by
    simp [pe]; ring
  have e1 : s.a1 * s.A_l = 2 * π * (s.roj * s.delta_ro - s.rij * s.delta_ri) := by
    unfold ShaftElement.a1; exact div_mul_cancel₀ _ h
  have e2 : s.b1 * s.A_l = π * (s.delta_ro ^ 2 - s.delta_ri ^ 2) := by
    unfold ShaftElement.b1; exact div_mul_cancel₀ _ h
  rw [e, e1, e2]
  simp only [Beam.area, Beam.od, Beam.id, ShaftElement.beam, ShaftElement.A_l, ShaftElement.roj,
    ShaftElement.delta_ro, ShaftElement.rij, ShaftElement.delta_ri, ShaftElement.rok,
    ShaftElement.rik]
  ring

theorem inertia_eq (s : ShaftElement) (h : s.Ie_l ≠ 0) (x : ℝ) :
    s.beam.inertia x = s.Ie_l * pe [1, s.a2, s.b2, s.gama, s.delta] (x / s.L) := by
  have e : s.Ie_l * pe [1, s.a2, s.b2, s.gama, s.delta] (x / s.L)
      = s.Ie_l + (x / s.L) * (s.a2 * s.Ie_l) + (x / s.L) ^ 2 * (s.b2 * s.Ie_l)
        + (x / s.L) ^ 3 * (s.gama * s.Ie_l) + (x / s.L) ^ 4 * (s.delta * s.Ie_l) := by
    simp [pe]; ring
  have e1 : s.a2 * s.Ie_l = π * (s.roj ^ 3 * s.delta_ro - s.rij ^ 3 * s.delta_ri) := by
    unfold ShaftElement.a2; exact div_mul_cancel₀ _ h
  have e2 : s.b2 * s.Ie_l
      = 3 * π * (s.roj ^ 2 * s.delta_ro ^ 2 - s.rij ^ 2 * s.delta_ri ^ 2) / 2 := by
    unfold ShaftElement.b2; field_simp
  have e3 : s.gama * s.Ie_l = π * (s.roj * s.delta_ro ^ 3 - s.rij * s.delta_ri ^ 3) := by
    unfold ShaftElement.gama; exact div_mul_cancel₀ _ h
  have e4 : s.delta * s.Ie_l = π * (s.delta_ro ^ 4 - s.delta_ri ^ 4) / 4 := by
    unfold ShaftElement.delta; field_simp
  rw [e, e1, e2, e3, e4]
  simp only [Beam.inertia, Beam.od, Beam.id, ShaftElement.beam, ShaftElement.Ie_l, ShaftElement.roj,
    ShaftElement.delta_ro, ShaftElement.rij, ShaftElement.delta_ri, ShaftElement.rok,
    ShaftElement.rik]
  ring

theorem integral_w (L w c d : ℝ) (wc p q : List ℝ) (hL : L ≠ 0) :
    ∫ x in (0)..L, w * pe wc (x / L) * (c * pe p (x / L) * (d * pe q (x / L)))
      = w * c * d * (L * pintk (pmul wc (pmul p q)) 0) := by
  rw [← integral_mul_pe_div _ _ _ hL]
  congr 1
  funext x
  rw [pe_pmul, pe_pmul]
  ring

end BeamLemmas

end Ross
