import Verif.Lemmas.ShaftQuad
import Verif.Props.ShaftGeometry

/-! # C05–C09, C12: matrices of the 4-dof shaft element -/

namespace Ross.Props

open Spec Real intervalIntegral ShaftLemmas BeamLemmas Matrix

/-! ### The shape functions of the specification are the Timoshenko ones -/

/-- Sanity of the specification: the shape functions interpolate the nodal deflections and
rotations, and the shear strain is in equilibrium with the bending moment,
`γ = -(φ L²/12) θ''`. -/
theorem spec_shape_functions (b : Beam) (φ : ℝ) (hL : b.L ≠ 0) (hφ : 1 + φ ≠ 0) :
    (∀ a, b.N φ a 0 = (![1, 0, 0, 0] : Fin 4 → ℝ) a) ∧
    (∀ a, b.Θ φ a 0 = (![0, 1, 0, 0] : Fin 4 → ℝ) a) ∧
    (∀ a, b.N φ a b.L = (![0, 0, 1, 0] : Fin 4 → ℝ) a) ∧
    (∀ a, b.Θ φ a b.L = (![0, 0, 0, 1] : Fin 4 → ℝ) a) ∧
    (∀ a x, b.γ φ a x = -(φ * b.L ^ 2 / 12) * deriv (deriv (b.Θ φ a)) x) := by
  refine ⟨?_, ?_, ?_, ?_, ?_⟩
  · intro a; fin_cases a <;> simp [Beam.N, hφ]
  · intro a; fin_cases a <;> simp [Beam.Θ, hφ]
  · intro a; fin_cases a <;> simp [Beam.N, hφ, hL] <;> (field_simp; ring)
  · intro a; fin_cases a <;> simp [Beam.Θ, hφ, hL] <;> (field_simp; ring)
  · intro a x
    rw [γ_eq b φ hL, show deriv (b.Θ φ a) = _ from funext (dΘ_eq b φ a),
      (Poly.hasDerivAt_mul_pe_div _ _ _ _).deriv]
    fin_cases a <;> simp [cγ, cT, Poly.pe, Poly.pder, Poly.pderk] <;> field_simp <;> ring

/-! ### Entry tables -/

theorem Mt_entry (s : ShaftElement) (i j : Fin 8) :
    s.Mt i j = if plane i = plane j then sgn i * sgn j * tabT s (idx i) (idx j) else 0 := by
  fin_cases i <;> fin_cases j <;> simp [ShaftElement.Mt, plane, sgn, idx, tabT]

theorem Mr_entry (s : ShaftElement) (i j : Fin 8) :
    s.Mr i j = if plane i = plane j then sgn i * sgn j * tabR s (idx i) (idx j) else 0 := by
  fin_cases i <;> fin_cases j <;> simp [ShaftElement.Mr, plane, sgn, idx, tabR]

theorem K1_entry (s : ShaftElement) (i j : Fin 8) :
    s.K1 i j = if plane i = plane j then sgn i * sgn j * tabK1 s (idx i) (idx j) else 0 := by
  fin_cases i <;> fin_cases j <;> simp [ShaftElement.K1, plane, sgn, idx, tabK1]

theorem K2_entry (s : ShaftElement) (i j : Fin 8) :
    s.K2 i j = if plane i = plane j then sgn i * sgn j * tabK2 s (idx i) (idx j) else 0 := by
  fin_cases i <;> fin_cases j <;> simp [ShaftElement.K2, plane, sgn, idx, tabK2]

theorem Ka_entry (s : ShaftElement) (i j : Fin 8) :
    s.Kaxial i j = if plane i = plane j then sgn i * sgn j * tabKa s (idx i) (idx j) else 0 := by
  fin_cases i <;> fin_cases j <;> simp [ShaftElement.Kaxial, plane, sgn, idx, tabKa]

theorem G_entry (s : ShaftElement) (i j : Fin 8) :
    s.Glit i j = if plane i = plane j then 0
      else if plane i = 0 then sgn i * sgn j * tabR s (idx i) (idx j)
      else - (sgn i * sgn j * tabR s (idx i) (idx j)) := by
  fin_cases i <;> fin_cases j <;>
    simp [ShaftElement.Glit, plane, sgn, idx, tabR, ShaftElement.m11, ShaftElement.m12,
      ShaftElement.m13, ShaftElement.m14, ShaftElement.m15, ShaftElement.m16, ShaftElement.g1,
      ShaftElement.g2, ShaftElement.g3, ShaftElement.g4, ShaftElement.g5, ShaftElement.g6]

/-! ### C05, C06: mass -/

/-- **C05** every entry of `M()` is the Galerkin integral. -/
theorem C05_mass_galerkin (s : ShaftElement) (hs : s.Built) (hφ : 1 + s.phi ≠ 0) (i j : Fin 8) :
    s.M i j = s.beam.massT s.phi i j + (if s.rotary_inertia then s.beam.massR s.phi i j else 0) := by
  have f := built_facts hs
  have hT : s.beam.massT s.phi i j
      = s.material.rho * s.A_l * s.L / (1260 * (1 + s.phi) ^ 2) * s.Mt i j := by
    rw [Mt_entry, Beam.massT, integral_same s.beam.L (fun z => s.beam.rho * s.beam.area z)]
    split_ifs
    · have := galT f.L f.A_l hφ (idx i) (idx j)
      change sgn i * sgn j * (∫ z in (0)..s.L, s.material.rho * s.beam.area z * _) = _
      rw [this]; ring
    · simp
  have hR : s.beam.massR s.phi i j
      = s.material.rho * s.Ie_l / (210 * s.L * (1 + s.phi) ^ 2) * s.Mr i j := by
    rw [Mr_entry, Beam.massR, integral_same s.beam.L (fun z => s.beam.rho * s.beam.inertia z)]
    split_ifs
    · have := galR f.L f.Ie_l hφ (idx i) (idx j)
      change sgn i * sgn j * (∫ z in (0)..s.L, s.material.rho * s.beam.inertia z * _) = _
      rw [this]; ring
    · simp
  rw [hT, hR]
  unfold ShaftElement.M
  split_ifs <;> simp

/-- **C05** `M()` is symmetric. -/
theorem C05_mass_symm (s : ShaftElement) : s.Mᵀ = s.M := by
  have hT : s.Mtᵀ = s.Mt := by
    ext i j; fin_cases i <;> fin_cases j <;> rfl
  have hR : s.Mrᵀ = s.Mr := by
    ext i j; fin_cases i <;> fin_cases j <;> rfl
  unfold ShaftElement.M
  split_ifs <;> simp [Matrix.transpose_add, Matrix.transpose_smul, hT, hR]

/-- **C05** kinetic energy is positive for every nonzero nodal velocity. -/
theorem C05_mass_posDef (s : ShaftElement) (hs : s.Built) (hp : s.beam.Physical) :
    ∀ u : Fin 8 → ℝ, u ≠ 0 → 0 < u ⬝ᵥ (s.M *ᵥ u) := by
  intro u hu
  have f := built_facts hs
  have hφ := one_add_phi_pos f hp
  rw [dot_eq_sum]
  simp only [C05_mass_galerkin s hs hφ.ne', mul_add, Finset.sum_add_distrib]
  have h1 := quad_pos s.beam hp s.phi hφ u hu
  have h2 : 0 ≤ ∑ i, ∑ j, u i * u j *
      (if s.rotary_inertia then s.beam.massR s.phi i j else 0) := by
    split_ifs
    · refine quad_nonneg s.beam.L hp.L_pos.le (fun z => s.beam.rho * s.beam.inertia z) _
        (continuous_const.mul (continuous_inertia _)) (continuous_Θ _ _) ?_ u
      intro z h0 h1
      exact (mul_pos hp.rho_pos (inertia_pos _ hp z h0 h1)).le
    · simp
  linarith

/-- Same statement as Mathlib's `Matrix.PosDef`. -/
theorem C05_mass_posDef' (s : ShaftElement) (hs : s.Built) (hp : s.beam.Physical) :
    s.M.PosDef := by
  refine Matrix.PosDef.of_dotProduct_mulVec_pos ?_ ?_
  · simpa [Matrix.IsHermitian, Matrix.conjTranspose_eq_transpose_of_trivial] using C05_mass_symm s
  · intro u hu
    simpa using C05_mass_posDef s hs hp u hu

/-- **C06** a rigid translation with velocity `(vx, vy)` has kinetic energy `½ m (vx² + vy²)`,
`m` being `ρ` times the volume of the frustum. -/
theorem C06_rigid_mass (s : ShaftElement) (hs : s.Built) (hφ : 1 + s.phi ≠ 0) (vx vy : ℝ) :
    ![vx, vy, 0, 0, vx, vy, 0, 0] ⬝ᵥ (s.M *ᵥ ![vx, vy, 0, 0, vx, vy, 0, 0])
      = s.material.rho * (∫ x in (0)..s.L, s.beam.area x) * (vx ^ 2 + vy ^ 2) := by
  have f := built_facts hs
  simp only [BeamLemmas.area_eq s f.A_l]
  rw [Poly.integral_mul_pe_div _ _ _ f.L, dot_eq_sum]
  have hR : ∑ i, ∑ j, (![vx, vy, 0, 0, vx, vy, 0, 0] : Fin 8 → ℝ) i *
      (![vx, vy, 0, 0, vx, vy, 0, 0] : Fin 8 → ℝ) j * s.Mr i j = 0 := by
    simp [Fin.sum_univ_eight, ShaftElement.Mr]
  have hT : ∑ i, ∑ j, (![vx, vy, 0, 0, vx, vy, 0, 0] : Fin 8 → ℝ) i *
      (![vx, vy, 0, 0, vx, vy, 0, 0] : Fin 8 → ℝ) j * s.Mt i j
        = (s.m1 + 2 * s.m3 + s.m8) * (vx ^ 2 + vy ^ 2) := by
    simp [Fin.sum_univ_eight, ShaftElement.Mt]; ring
  have hT' : ∑ i, ∑ j, (![vx, vy, 0, 0, vx, vy, 0, 0] : Fin 8 → ℝ) i *
      (![vx, vy, 0, 0, vx, vy, 0, 0] : Fin 8 → ℝ) j *
        (s.material.rho * s.A_l * s.L / (1260 * (1 + s.phi) ^ 2) * s.Mt i j)
        = s.material.rho * (s.A_l * (s.L * Poly.pintk [1, s.a1, s.b1] 0)) * (vx ^ 2 + vy ^ 2) := by
    have e : ∀ (c : ℝ) (u : Fin 8 → ℝ), ∑ i, ∑ j, u i * u j * (c * s.Mt i j)
        = c * ∑ i, ∑ j, u i * u j * s.Mt i j := by
      intro c u
      simp only [Finset.mul_sum]
      exact Finset.sum_congr rfl fun i _ => Finset.sum_congr rfl fun j _ => by ring
    rw [e, hT]
    simp only [Poly.pintk, ShaftElement.m1, ShaftElement.m3, ShaftElement.m8]
    push_cast
    field_simp
    ring
  have e : ∀ (c : ℝ) (u : Fin 8 → ℝ), ∑ i, ∑ j, u i * u j * (c * s.Mr i j)
      = c * ∑ i, ∑ j, u i * u j * s.Mr i j := by
    intro c u
    simp only [Finset.mul_sum]
    exact Finset.sum_congr rfl fun i _ => Finset.sum_congr rfl fun j _ => by ring
  unfold ShaftElement.M
  split_ifs
  · simp only [Matrix.add_apply, Matrix.smul_apply, smul_eq_mul, mul_add, Finset.sum_add_distrib]
    rw [hT', e, hR]
    ring
  · simp only [Matrix.smul_apply, smul_eq_mul]
    rw [hT']

/-- **C06** in terms of the stored attribute `m`. -/
theorem C06_rigid_mass_m (s : ShaftElement) (hs : s.Built) (hφ : 1 + s.phi ≠ 0) :
    ![1, 0, 0, 0, 1, 0, 0, 0] ⬝ᵥ (s.M *ᵥ ![1, 0, 0, 0, 1, 0, 0, 0]) = s.m ∧
    ![0, 1, 0, 0, 0, 1, 0, 0] ⬝ᵥ (s.M *ᵥ ![0, 1, 0, 0, 0, 1, 0, 0]) = s.m := by
  have hv := (C04_volume s hs).1
  constructor
  · have := C06_rigid_mass s hs hφ 1 0
    rw [this, ← hv, ShaftElement.m]; ring
  · have := C06_rigid_mass s hs hφ 0 1
    rw [this, ← hv, ShaftElement.m]; ring

/-! ### C07, C08: stiffness -/

/-- Torque literal as the integral of the specification. -/
theorem torque_entry (s : ShaftElement) (hL : s.L ≠ 0) (T : ℝ) (i j : Fin 8) :
    s.beam.stiffT T i j = T / s.L * s.Ktorque i j := by
  have hL' : s.beam.L = s.L := rfl
  have key : ∀ a b : Fin 4, ∫ z in (0)..s.L, (deriv (s.beam.Θ 0 a) z * s.beam.Θ 0 b z)
      = (!![0, -1 / s.L, 0, 1 / s.L; 1 / s.L, -1 / 2, -1 / s.L, 1 / 2;
            0, 1 / s.L, 0, -1 / s.L; -1 / s.L, -1 / 2, 1 / s.L, 1 / 2] :
          Matrix (Fin 4) (Fin 4) ℝ) a b := by
    intro a b
    have h2 : ∀ z, deriv (s.beam.Θ 0 a) z * s.beam.Θ 0 b z
        = 1 * Poly.pe [1] (z / s.L) * ((1 + 0)⁻¹ * s.L⁻¹ *
          Poly.pe (Poly.pder (cT s.L 0 a)) (z / s.L) *
          ((1 + 0)⁻¹ * Poly.pe (cT s.L 0 b) (z / s.L))) := by
      intro z; rw [dΘ_eq, Θ_eq, hL']; simp [Poly.pe]
    simp only [h2]
    rw [integral_w _ _ _ _ _ _ _ hL]
    fin_cases a <;> fin_cases b <;>
      simp [cT, Poly.pmul, Poly.padd, Poly.psmul, Poly.pintk, Poly.pder, Poly.pderk] <;>
      field_simp <;> norm_num
  have h1 : s.beam.stiffT T i j = if plane i = plane j then 0
        else if plane i = 0 then
          T * (sgn i * sgn j * ∫ z in (0)..s.L,
            (deriv (s.beam.Θ 0 (idx i)) z * s.beam.Θ 0 (idx j) z))
        else - (T * (sgn i * sgn j * ∫ z in (0)..s.L,
            (deriv (s.beam.Θ 0 (idx i)) z * s.beam.Θ 0 (idx j) z))) := by
    unfold Beam.stiffT
    have e : ∀ z, T * (Beam.field (fun a => deriv (s.beam.Θ 0 a)) 0 i z
          * Beam.field (s.beam.Θ 0) 1 j z
        - Beam.field (fun a => deriv (s.beam.Θ 0 a)) 1 i z * Beam.field (s.beam.Θ 0) 0 j z)
        = (if plane i = plane j then 0 else if plane i = 0 then T * (sgn i * sgn j)
            else - (T * (sgn i * sgn j))) *
          (deriv (s.beam.Θ 0 (idx i)) z * s.beam.Θ 0 (idx j) z) := by
      intro z
      simp only [field_eq]
      have h2 : ∀ p : Fin 2, p = 0 ∨ p = 1 := by intro p; fin_cases p <;> simp
      rcases h2 (plane i) with hi | hi <;> rcases h2 (plane j) with hj | hj <;>
        simp [hi, hj] <;> ring
    simp only [e]
    rw [integral_const_mul, hL']
    split_ifs <;> ring
  rw [h1, key]
  fin_cases i <;> fin_cases j <;>
    simp [ShaftElement.Ktorque, plane, sgn, idx] <;> field_simp

/-- **C07** every entry of `K()` is the Galerkin stiffness: bending, shear with the element's shear
coefficient, axial force, and torque. -/
theorem C07_stiffness_galerkin (s : ShaftElement) (hs : s.Built) (hφ : 1 + s.phi ≠ 0)
    (i j : Fin 8) :
    s.K i j = s.beam.stiffB s.phi i j + s.beam.stiffS s.kappa s.phi i j + s.beam.stiffF s.phi i j
      + s.beam.stiffT s.torque i j := by
  have f := built_facts hs
  have hB : s.beam.stiffB s.phi i j
      = s.material.E * (s.L ^ 3)⁻¹ * ((1 + s.phi) ^ 2)⁻¹ * (s.Ie_l / 105) * s.K1 i j := by
    rw [K1_entry, Beam.stiffB, integral_same s.beam.L (fun z => s.beam.E * s.beam.inertia z)]
    split_ifs
    · have := galB f.L f.Ie_l hφ (idx i) (idx j)
      change sgn i * sgn j * (∫ z in (0)..s.L, s.material.E * s.beam.inertia z * _) = _
      rw [this]; ring
    · simp
  have hS : s.beam.stiffS s.kappa s.phi i j
      = s.material.E * (s.L ^ 3)⁻¹ * ((1 + s.phi) ^ 2)⁻¹ * (s.Ie * s.phi * s.A_l / s.A)
        * s.K2 i j := by
    have hc : s.kappa * s.material.G_s * s.A_l * s.phi ^ 2 / (12 * s.L * (1 + s.phi) ^ 2)
        = s.material.E * (s.L ^ 3)⁻¹ * ((1 + s.phi) ^ 2)⁻¹ * (s.Ie * s.phi * s.A_l / s.A) := by
      cases hse : s.shear_effects with
      | false => simp [ShaftElement.phi, hse]
      | true =>
        obtain ⟨h1, -, -⟩ := f.shear hse
        have hL := f.L
        have hG : s.material.G_s ≠ 0 := fun h => h1 (by rw [h]; ring)
        have hk : s.kappa ≠ 0 := fun h => h1 (by rw [h]; ring)
        have hA : s.A ≠ 0 := fun h => h1 (by rw [h]; ring)
        have hphi : s.phi * (s.material.G_s * s.kappa * s.A * s.L ^ 2)
            = 12 * s.material.E * s.Ie := by
          rw [ShaftElement.phi, hse, if_pos rfl]; exact div_mul_cancel₀ _ h1
        field_simp
        have : s.phi * (s.kappa * s.material.G_s * s.phi * s.L ^ 2 * s.A
            - 12 * s.material.E * s.Ie) = 0 := by
          rw [← hphi]; ring
        linear_combination s.A_l * this
    rw [K2_entry, Beam.stiffS,
      integral_same s.beam.L (fun z => s.kappa * s.beam.G * s.beam.area z)]
    split_ifs
    · have := galS (s.kappa * s.material.G_s) f.L f.A_l hφ (idx i) (idx j)
      change sgn i * sgn j * (∫ z in (0)..s.L, s.kappa * s.material.G_s * s.beam.area z * _) = _
      rw [this, hc]; ring
    · simp
  have hF : s.beam.stiffF s.phi i j
      = s.axial_force / (30 * s.L * (1 + s.phi) ^ 2) * s.Kaxial i j := by
    rw [Ka_entry, Beam.stiffF, integral_same s.beam.L (fun _ => s.beam.F)]
    split_ifs
    · have := galF f.L hφ (idx i) (idx j)
      change sgn i * sgn j * (∫ z in (0)..s.L, s.axial_force * _) = _
      rw [this]; ring
    · simp
  rw [hB, hS, hF, torque_entry s f.L]
  simp only [ShaftElement.K, Matrix.add_apply, Matrix.smul_apply, smul_eq_mul]
  ring

/-- **C07** `K()` is symmetric exactly when the torque is zero. -/
theorem C07_stiffness_symm_iff (s : ShaftElement) (hs : s.Built) :
    s.Kᵀ = s.K ↔ s.torque = 0 := by
  have f := built_facts hs
  have h1 : s.K1ᵀ = s.K1 := by ext i j; fin_cases i <;> fin_cases j <;> rfl
  have h2 : s.K2ᵀ = s.K2 := by ext i j; fin_cases i <;> fin_cases j <;> rfl
  have h3 : s.Kaxialᵀ = s.Kaxial := by ext i j; fin_cases i <;> fin_cases j <;> rfl
  constructor
  · intro h
    unfold ShaftElement.K at h
    simp only [Matrix.transpose_add, Matrix.transpose_smul, h1, h2, h3, add_right_inj] at h
    have h4 := congrFun (congrFun h 2) 3
    simp [ShaftElement.Ktorque] at h4
    have := f.L
    field_simp at h4
    rcases h4 with h4 | h4
    · exact absurd h4 (by intro h; linarith)
    · exact h4.resolve_right this
  · intro h
    unfold ShaftElement.K
    simp [Matrix.transpose_add, Matrix.transpose_smul, h1, h2, h3, h]

/-- **C07** the strain energy is non-negative for a non-compressive axial force and no torque. -/
theorem C07_stiffness_nonneg (s : ShaftElement) (hs : s.Built) (hp : s.beam.Physical)
    (hF : 0 ≤ s.axial_force) (hT : s.torque = 0) (u : Fin 8 → ℝ) :
    0 ≤ u ⬝ᵥ (s.K *ᵥ u) := by
  have f := built_facts hs
  have hφ := one_add_phi_pos f hp
  have hk : 0 < s.kappa := by rw [kappa_eq]; exact specKappa_pos hp
  rw [dot_eq_sum]
  have h0 : ∀ i j, s.beam.stiffT s.torque i j = 0 := by
    intro i j; rw [torque_entry s f.L, hT]; simp
  simp only [C07_stiffness_galerkin s hs hφ.ne', mul_add, Finset.sum_add_distrib, h0, add_zero]
  have hB := quad_nonneg s.beam.L hp.L_pos.le (fun z => s.beam.E * s.beam.inertia z) _
    (continuous_const.mul (continuous_inertia _)) (continuous_dΘ s.beam s.phi)
    (fun z h0 h1 => (mul_pos hp.E_pos (inertia_pos _ hp z h0 h1)).le) u
  have hS := quad_nonneg s.beam.L hp.L_pos.le (fun z => s.kappa * s.beam.G * s.beam.area z) _
    (continuous_const.mul (continuous_area _)) (continuous_γ s.beam s.phi)
    (fun z h0 h1 => (mul_pos (mul_pos hk hp.G_pos) (area_pos _ hp z h0 h1)).le) u
  have hFF := quad_nonneg s.beam.L hp.L_pos.le (fun _ => s.beam.F) _
    continuous_const (continuous_dN s.beam s.phi) (fun _ _ _ => hF) u
  unfold Beam.stiffB Beam.stiffS Beam.stiffF
  linarith

/-- **C08** rigid translations need no force, whatever axial force and torque. -/
theorem C08_rigid_translation (s : ShaftElement) (dx dy : ℝ) :
    s.K *ᵥ ![dx, dy, 0, 0, dx, dy, 0, 0] = 0 := by
  have h1 : s.K1 *ᵥ ![dx, dy, 0, 0, dx, dy, 0, 0] = 0 := by
    ext i; fin_cases i <;> simp [ShaftElement.K1, mulVec, dotProduct, Fin.sum_univ_eight]
  have h2 : s.K2 *ᵥ ![dx, dy, 0, 0, dx, dy, 0, 0] = 0 := by
    ext i; fin_cases i <;> simp [ShaftElement.K2, mulVec, dotProduct, Fin.sum_univ_eight]
  have h3 : s.Kaxial *ᵥ ![dx, dy, 0, 0, dx, dy, 0, 0] = 0 := by
    ext i; fin_cases i <;> simp [ShaftElement.Kaxial, mulVec, dotProduct, Fin.sum_univ_eight]
  have h4 : s.Ktorque *ᵥ ![dx, dy, 0, 0, dx, dy, 0, 0] = 0 := by
    ext i; fin_cases i <;> simp [ShaftElement.Ktorque, mulVec, dotProduct, Fin.sum_univ_eight]
  simp [ShaftElement.K, Matrix.add_mulVec, Matrix.smul_mulVec, h1, h2, h3, h4]

/-- **C08** a rigid rotation by `(α, β)` (about the left node) needs exactly the transverse forces
`∓F β`, `±F α` at the ends (a couple of moment `F·L` per unit angle) and the couples by which the
rotated end torques differ from the original ones; in particular nothing without axial force and
torque. -/
theorem C08_rigid_rotation (s : ShaftElement) (hs : s.Built) (hφ : 1 + s.phi ≠ 0) (α β : ℝ) :
    s.K *ᵥ ![0, 0, α, β, s.L * β, -(s.L * α), α, β]
      = s.axial_force • ![-β, α, 0, 0, β, -α, 0, 0]
        + s.torque • ![0, 0, -β, α, 0, 0, β, -α] := by
  have hL := (built_facts hs).L
  have h1 : s.K1 *ᵥ ![0, 0, α, β, s.L * β, -(s.L * α), α, β] = 0 := by
    ext i
    fin_cases i <;> simp [ShaftElement.K1, mulVec, dotProduct, Fin.sum_univ_eight,
      ShaftElement.k1, ShaftElement.k2, ShaftElement.k3, ShaftElement.k4, ShaftElement.k5,
      ShaftElement.k6] <;> ring
  have h2 : s.K2 *ᵥ ![0, 0, α, β, s.L * β, -(s.L * α), α, β] = 0 := by
    ext i
    fin_cases i <;> simp [ShaftElement.K2, mulVec, dotProduct, Fin.sum_univ_eight,
      ShaftElement.k7, ShaftElement.k8, ShaftElement.k9] <;> ring
  have h3 : s.Kaxial *ᵥ ![0, 0, α, β, s.L * β, -(s.L * α), α, β]
      = (30 * s.L * (1 + s.phi) ^ 2) • ![-β, α, 0, 0, β, -α, 0, 0] := by
    ext i
    fin_cases i <;> simp [ShaftElement.Kaxial, mulVec, dotProduct, Fin.sum_univ_eight,
      ShaftElement.k10, ShaftElement.k11, ShaftElement.k12, ShaftElement.k13] <;> ring
  have h4 : s.Ktorque *ᵥ ![0, 0, α, β, s.L * β, -(s.L * α), α, β]
      = s.L • ![0, 0, -β, α, 0, 0, β, -α] := by
    ext i
    fin_cases i <;> simp [ShaftElement.Ktorque, mulVec, dotProduct, Fin.sum_univ_eight] <;> ring
  simp only [ShaftElement.K, Matrix.add_mulVec, Matrix.smul_mulVec, h1, h2, h3, h4, smul_zero,
    add_zero, zero_add, smul_smul]
  congr 2 <;> field_simp

/-! ### C09: gyroscopic matrix -/

/-- **C09** `G()` is skew-symmetric (gyroscopic forces do no work). -/
theorem C09_gyro_skew (s : ShaftElement) : s.Gᵀ = -s.G := by
  have h : s.Glitᵀ = - s.Glit := by
    ext i j; fin_cases i <;> fin_cases j <;> simp [ShaftElement.Glit]
  unfold ShaftElement.G
  split_ifs <;> simp [Matrix.transpose_smul, h]

/-- **C09** gyroscopic forces do no work on any velocity. -/
theorem C09_gyro_no_work (s : ShaftElement) (v : Fin 8 → ℝ) : v ⬝ᵥ (s.G *ᵥ v) = 0 := by
  have h : v ⬝ᵥ (s.G *ᵥ v) = - (v ⬝ᵥ (s.G *ᵥ v)) := by
    conv_lhs => rw [Matrix.dotProduct_mulVec, ← Matrix.mulVec_transpose, C09_gyro_skew,
      Matrix.neg_mulVec, neg_dotProduct, dotProduct_comm]
  linarith

/-- **C09** every entry of `G()` is the consistent gyroscopic integral. -/
theorem C09_gyro_galerkin (s : ShaftElement) (hs : s.Built) (hφ : 1 + s.phi ≠ 0) (i j : Fin 8) :
    s.G i j = if s.gyroscopic then s.beam.gyro s.phi i j else 0 := by
  have f := built_facts hs
  have h : s.beam.gyro s.phi i j
      = s.material.rho * s.Ie_l * 2 / (210 * s.L * (1 + s.phi) ^ 2) * s.Glit i j := by
    have e2 : ∀ a b : Fin 4, ∫ z in (0)..s.beam.L, 2 * s.beam.rho * s.beam.inertia z *
        (s.beam.Θ s.phi a z * s.beam.Θ s.phi b z)
        = 2 * (s.material.rho * s.Ie_l / (210 * s.L * (1 + s.phi) ^ 2) * tabR s a b) := by
      intro a b
      rw [← galR f.L f.Ie_l hφ a b, ← integral_const_mul]
      congr 1; funext z; simp only [ShaftElement.beam]; ring
    rw [G_entry, Beam.gyro, integral_cross s.beam.L
      (fun z => 2 * s.beam.rho * s.beam.inertia z), e2]
    split_ifs <;> ring
  unfold ShaftElement.G
  split_ifs
  · rw [h]; simp
  · simp

/-! ### C12: proportional damping -/

/-- **C12** the damping matrix is `α` times the consistent mass plus `β` times the stiffness. -/
theorem C12_damping (s : ShaftElement) (hs : s.Built) (hφ : 1 + s.phi ≠ 0) (i j : Fin 8) :
    s.C i j = s.alpha * (s.beam.massT s.phi i j
        + (if s.rotary_inertia then s.beam.massR s.phi i j else 0))
      + s.beta * (s.beam.stiffB s.phi i j + s.beam.stiffS s.kappa s.phi i j
        + s.beam.stiffF s.phi i j + s.beam.stiffT s.torque i j) := by
  rw [← C05_mass_galerkin s hs hφ, ← C07_stiffness_galerkin s hs hφ]
  simp [ShaftElement.C]

/-- **C12** element damping dissipates when `α, β ≥ 0` and the element is stable. -/
theorem C12_damping_dissipates (s : ShaftElement) (hs : s.Built) (hp : s.beam.Physical)
    (hF : 0 ≤ s.axial_force) (hT : s.torque = 0) (ha : 0 ≤ s.alpha) (hb : 0 ≤ s.beta)
    (u : Fin 8 → ℝ) : 0 ≤ u ⬝ᵥ (s.C *ᵥ u) := by
  have hM : 0 ≤ u ⬝ᵥ (s.M *ᵥ u) := by
    by_cases hu : u = 0
    · simp [hu]
    · exact (C05_mass_posDef s hs hp u hu).le
  have hK := C07_stiffness_nonneg s hs hp hF hT u
  simp only [ShaftElement.C, Matrix.add_mulVec, Matrix.smul_mulVec, dotProduct_add,
    dotProduct_smul, smul_eq_mul]
  positivity

/-! ### Non-vacuity: a tapered hollow element with tension meets every hypothesis above -/

theorem exShaft_phi : 1 + exShaft.phi ≠ 0 :=
  (one_add_phi_pos (built_facts exShaft_built) exShaft_physical).ne'

example : exShaft.Built ∧ exShaft.beam.Physical ∧ 1 + exShaft.phi ≠ 0 ∧ 0 ≤ exShaft.axial_force ∧
    exShaft.torque = 0 ∧ 0 ≤ exShaft.alpha ∧ 0 ≤ exShaft.beta ∧ exShaft.rotary_inertia = true :=
  ⟨exShaft_built, exShaft_physical, exShaft_phi, by norm_num [exShaft], rfl, by norm_num [exShaft],
    by norm_num [exShaft], rfl⟩

end Ross.Props
