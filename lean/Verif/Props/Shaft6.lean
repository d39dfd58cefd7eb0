import Verif.Lemmas.Shaft6

/-! # C10, C11: the 6-dof shaft element -/

namespace Ross.Props

open Spec Real intervalIntegral ShaftLemmas BeamLemmas Shaft6Lemmas Matrix

/-- Axial (`z`) and torsional (`θ`) dofs of both nodes. -/
def axtor : Fin 4 → Fin 12 := ![2, 5, 8, 11]

/-- **C10** mass: deleting the axial and torsional rows and columns of the 6-dof matrix gives the
4-dof matrix of the same element. -/
theorem C10_mass (s : ShaftElement) : s.M₆.submatrix bend bend = s.M := by
  have h1 := Mt_bend s
  have h2 := Mr_bend s
  have h3 : s.Mam₆.submatrix bend bend = 0 := by
    ext i j; fin_cases i <;> fin_cases j <;> rfl
  have h4 : s.Mts₆.submatrix bend bend = 0 := by
    ext i j; fin_cases i <;> fin_cases j <;> rfl
  unfold ShaftElement.M₆ ShaftElement.M
  split_ifs <;>
    simp [Matrix.submatrix_add, Matrix.submatrix_smul, h1, h2, h3, h4]

/-- **C10** stiffness, with axial force and torque. -/
theorem C10_stiffness (s : ShaftElement) : s.K₆.submatrix bend bend = s.K := by
  have h1 := K1_bend s
  have h2 := K2_bend s
  have h3 := Kaf_bend s
  have h4 := Ktq_bend s
  have h5 : s.Kam₆.submatrix bend bend = 0 := by
    ext i j; fin_cases i <;> fin_cases j <;> rfl
  have h6 : s.Kts₆.submatrix bend bend = 0 := by
    ext i j; fin_cases i <;> fin_cases j <;> rfl
  unfold ShaftElement.K₆ ShaftElement.K
  simp [Matrix.submatrix_add, Matrix.submatrix_smul, h1, h2, h3, h4, h5, h6]

/-- **C10** damping. -/
theorem C10_damping (s : ShaftElement) : s.C₆.submatrix bend bend = s.C := by
  simp [ShaftElement.C₆, ShaftElement.C, Matrix.submatrix_add, Matrix.submatrix_smul, C10_mass,
    C10_stiffness]

/-- **C10** gyroscopic matrix: the exact condition under which the two element classes agree.
`gama` is the cubic coefficient of the varying second moment of area, zero for a cylindrical
element.  The code has `7 * phi * 2` where the consistent matrix needs `7 * phi ** 2`
(`shaft_element.py` 1875). -/
theorem C10_gyro_iff (s : ShaftElement) (hs : s.Built) (hφ : 1 + s.phi ≠ 0) :
    s.G₆.submatrix bend bend = s.G ↔
      (s.gyroscopic = false ∨ s.material.rho = 0 ∨ s.gama = 0 ∨ s.phi = 0 ∨ s.phi = 2) := by
  have f := built_facts hs
  have hL := f.L
  have hI := f.Ie_l
  cases hg : s.gyroscopic with
  | false => simp [ShaftElement.G₆, ShaftElement.G, hg]
  | true =>
    have key : s.G₆.submatrix bend bend = s.G ↔
        s.material.rho * s.gama * (s.phi * (s.phi - 2)) = 0 := by
      constructor
      · intro h
        have h1 := congrFun (congrFun h 2) 7
        simp [ShaftElement.G₆, ShaftElement.G, hg, bend, ShaftElement.Glit₆, ShaftElement.Glit,
          ShaftElement.g5₆, ShaftElement.g5] at h1
        rcases h1 with h1 | h1
        · have h2 : s.L ^ 2 * 7 * (s.gama * (s.phi * (s.phi - 2))) = 0 := by
            linear_combination h1
          have h3 := (mul_eq_zero.1 h2).resolve_left (by positivity)
          rw [mul_assoc, h3, mul_zero]
        · rcases h1 with (h1 | h1) | h1 | h1
          · rw [h1]; ring
          · exact absurd h1 hI
          · exact absurd h1 hL
          · exact absurd h1 hφ
      · intro h
        have h1 : s.material.rho = 0 ∨ s.g5₆ = s.L ^ 2 * s.g5 := by
          rw [mul_assoc] at h
          rcases mul_eq_zero.1 h with h | h
          · exact Or.inl h
          · right
            unfold ShaftElement.g5₆ ShaftElement.g5
            linear_combination 7 * s.L ^ 2 * h
        rcases h1 with h1 | h1
        · simp [ShaftElement.G₆, ShaftElement.G, hg, h1]
        · simp [ShaftElement.G₆, ShaftElement.G, hg, Matrix.submatrix_smul, Glit_bend s h1]
    rw [key]
    simp only [mul_eq_zero, sub_eq_zero, or_assoc, Bool.true_eq_false, false_or]

/-- **C10** gyroscopic matrix, cylindrical elements (`_partial`: tapered elements are excluded,
because the property is false for them, see `C10_gyro_false`). -/
theorem C10_gyro_partial (s : ShaftElement) (hs : s.Built) (hφ : 1 + s.phi ≠ 0)
    (ho : s.odl = s.odr) (hi : s.idl = s.idr) : s.G₆.submatrix bend bend = s.G := by
  refine (C10_gyro_iff s hs hφ).2 (Or.inr (Or.inr (Or.inl ?_)))
  simp [ShaftElement.gama, ShaftElement.delta_ro, ShaftElement.delta_ri, ShaftElement.rok,
    ShaftElement.roj, ShaftElement.rik, ShaftElement.rij, ho, hi]

theorem exShaft_gama : exShaft.gama ≠ 0 := by
  have h := (built_facts exShaft_built).Ie_l
  have e : exShaft.gama * exShaft.Ie_l
      = π * (exShaft.roj * exShaft.delta_ro ^ 3 - exShaft.rij * exShaft.delta_ri ^ 3) := by
    unfold ShaftElement.gama; exact div_mul_cancel₀ _ h
  intro h0
  rw [h0, zero_mul] at e
  have := pi_pos.ne'
  rcases mul_eq_zero.1 e.symm with h1 | h1
  · exact this h1
  · norm_num [ShaftElement.roj, ShaftElement.delta_ro, ShaftElement.rij, ShaftElement.delta_ri,
      ShaftElement.rok, ShaftElement.rik, exShaft] at h1

theorem exShaft_phi_ne : exShaft.phi ≠ 0 ∧ exShaft.phi ≠ 2 := by
  have hπ := pi_pos.ne'
  rw [phi_eq (built_facts exShaft_built)]
  simp only [specPhi, specKappa, exShaft, if_true, Beam.shearRatio, Beam.inertia, Beam.area,
    Beam.od, Beam.id, ShaftElement.beam, Beam.cowper, Beam.ratio, exMaterial]
  simp only [show ("cowper" = "hutchinson") = False from by simp, if_false]
  norm_num
  field_simp
  norm_num

/-- **C10** is false of the code for gyroscopic matrices of tapered elements: `exShaft` is an
accepted, physically meaningful element whose 6-dof and 4-dof gyroscopic matrices differ. -/
theorem C10_gyro_false :
    ∃ s : ShaftElement, s.Built ∧ s.beam.Physical ∧ 1 + s.phi ≠ 0 ∧
      s.G₆.submatrix bend bend ≠ s.G := by
  refine ⟨exShaft, exShaft_built, exShaft_physical, exShaft_phi, fun h => ?_⟩
  rcases (C10_gyro_iff exShaft exShaft_built exShaft_phi).1 h with h | h | h | h | h
  · simp [exShaft] at h
  · norm_num [exShaft, exMaterial] at h
  · exact exShaft_gama h
  · exact exShaft_phi_ne.1 h
  · exact exShaft_phi_ne.2 h

/-! ### C11 -/

/-- **C11** axial and torsional dofs are uncoupled from bending in all three matrices, and the
6-dof gyroscopic matrix is skew-symmetric. -/
theorem C11_uncoupled (s : ShaftElement) (i : Fin 8) (j : Fin 4) :
    s.M₆ (bend i) (axtor j) = 0 ∧ s.M₆ (axtor j) (bend i) = 0 ∧
    s.K₆ (bend i) (axtor j) = 0 ∧ s.K₆ (axtor j) (bend i) = 0 ∧
    s.C₆ (bend i) (axtor j) = 0 ∧ s.C₆ (axtor j) (bend i) = 0 ∧
    s.G₆ (bend i) (axtor j) = 0 ∧ s.G₆ (axtor j) (bend i) = 0 := by
  have hMt : s.Mt₆ (bend i) (axtor j) = 0 ∧ s.Mt₆ (axtor j) (bend i) = 0 := by
    fin_cases i <;> fin_cases j <;> exact ⟨rfl, rfl⟩
  have hMr : s.Mr₆ (bend i) (axtor j) = 0 ∧ s.Mr₆ (axtor j) (bend i) = 0 := by
    fin_cases i <;> fin_cases j <;> exact ⟨rfl, rfl⟩
  have hMa : s.Mam₆ (bend i) (axtor j) = 0 ∧ s.Mam₆ (axtor j) (bend i) = 0 := by
    fin_cases i <;> fin_cases j <;> exact ⟨rfl, rfl⟩
  have hMs : s.Mts₆ (bend i) (axtor j) = 0 ∧ s.Mts₆ (axtor j) (bend i) = 0 := by
    fin_cases i <;> fin_cases j <;> exact ⟨rfl, rfl⟩
  have hK1 : s.K1₆ (bend i) (axtor j) = 0 ∧ s.K1₆ (axtor j) (bend i) = 0 := by
    fin_cases i <;> fin_cases j <;> exact ⟨rfl, rfl⟩
  have hK2 : s.K2₆ (bend i) (axtor j) = 0 ∧ s.K2₆ (axtor j) (bend i) = 0 := by
    fin_cases i <;> fin_cases j <;> exact ⟨rfl, rfl⟩
  have hKa : s.Kaf₆ (bend i) (axtor j) = 0 ∧ s.Kaf₆ (axtor j) (bend i) = 0 := by
    fin_cases i <;> fin_cases j <;> exact ⟨rfl, rfl⟩
  have hKt : s.Ktq₆ (bend i) (axtor j) = 0 ∧ s.Ktq₆ (axtor j) (bend i) = 0 := by
    fin_cases i <;> fin_cases j <;> exact ⟨rfl, rfl⟩
  have hKm : s.Kam₆ (bend i) (axtor j) = 0 ∧ s.Kam₆ (axtor j) (bend i) = 0 := by
    fin_cases i <;> fin_cases j <;> exact ⟨rfl, rfl⟩
  have hKs : s.Kts₆ (bend i) (axtor j) = 0 ∧ s.Kts₆ (axtor j) (bend i) = 0 := by
    fin_cases i <;> fin_cases j <;> exact ⟨rfl, rfl⟩
  have hG : s.Glit₆ (bend i) (axtor j) = 0 ∧ s.Glit₆ (axtor j) (bend i) = 0 := by
    fin_cases i <;> fin_cases j <;> exact ⟨rfl, rfl⟩
  have hM : s.M₆ (bend i) (axtor j) = 0 ∧ s.M₆ (axtor j) (bend i) = 0 := by
    unfold ShaftElement.M₆
    split_ifs <;> simp [hMt, hMr, hMa, hMs]
  have hK : s.K₆ (bend i) (axtor j) = 0 ∧ s.K₆ (axtor j) (bend i) = 0 := by
    unfold ShaftElement.K₆
    simp [hK1, hK2, hKa, hKt, hKm, hKs]
  have hC : s.C₆ (bend i) (axtor j) = 0 ∧ s.C₆ (axtor j) (bend i) = 0 := by
    unfold ShaftElement.C₆
    simp [hM, hK]
  have hG' : s.G₆ (bend i) (axtor j) = 0 ∧ s.G₆ (axtor j) (bend i) = 0 := by
    unfold ShaftElement.G₆
    split_ifs <;> simp [hG]
  exact ⟨hM.1, hM.2, hK.1, hK.2, hC.1, hC.2, hG'.1, hG'.2⟩

/-- The axial–torsional block of `M()` and `K()` of the 6-dof element (dof order: axial and
torsional at the left node, axial and torsional at the right node): linear bar and linear torsion
elements with the mean of the end sections. -/
theorem axtor_blocks (s : ShaftElement) :
    s.M₆.submatrix axtor axtor = (s.material.rho * s.L / 6) •
      !![2 * s.Ae₆, 0, s.Ae₆, 0; 0, 2 * s.Je₆, 0, s.Je₆;
         s.Ae₆, 0, 2 * s.Ae₆, 0; 0, s.Je₆, 0, 2 * s.Je₆] ∧
    s.K₆.submatrix axtor axtor = s.L⁻¹ •
      !![s.material.E * s.Ae₆, 0, -(s.material.E * s.Ae₆), 0;
         0, s.material.G_s * s.Je₆, 0, -(s.material.G_s * s.Je₆);
         -(s.material.E * s.Ae₆), 0, s.material.E * s.Ae₆, 0;
         0, -(s.material.G_s * s.Je₆), 0, s.material.G_s * s.Je₆] := by
  have hMt : s.Mt₆.submatrix axtor axtor = 0 := by
    ext i j; fin_cases i <;> fin_cases j <;> rfl
  have hMr : s.Mr₆.submatrix axtor axtor = 0 := by
    ext i j; fin_cases i <;> fin_cases j <;> rfl
  have hK1 : s.K1₆.submatrix axtor axtor = 0 := by
    ext i j; fin_cases i <;> fin_cases j <;> rfl
  have hK2 : s.K2₆.submatrix axtor axtor = 0 := by
    ext i j; fin_cases i <;> fin_cases j <;> rfl
  have hKa : s.Kaf₆.submatrix axtor axtor = 0 := by
    ext i j; fin_cases i <;> fin_cases j <;> rfl
  have hKt : s.Ktq₆.submatrix axtor axtor = 0 := by
    ext i j; fin_cases i <;> fin_cases j <;> rfl
  have hMa : s.Mam₆.submatrix axtor axtor = !![2, 0, 1, 0; 0, 0, 0, 0; 1, 0, 2, 0; 0, 0, 0, 0] := by
    ext i j; fin_cases i <;> fin_cases j <;> rfl
  have hMs : s.Mts₆.submatrix axtor axtor = !![0, 0, 0, 0; 0, 2, 0, 1; 0, 0, 0, 0; 0, 1, 0, 2] := by
    ext i j; fin_cases i <;> fin_cases j <;> rfl
  have hKm : s.Kam₆.submatrix axtor axtor
      = !![1, 0, -1, 0; 0, 0, 0, 0; -1, 0, 1, 0; 0, 0, 0, 0] := by
    ext i j; fin_cases i <;> fin_cases j <;> rfl
  have hKs : s.Kts₆.submatrix axtor axtor
      = !![0, 0, 0, 0; 0, 1, 0, -1; 0, 0, 0, 0; 0, -1, 0, 1] := by
    ext i j; fin_cases i <;> fin_cases j <;> rfl
  constructor
  · have : s.M₆.submatrix axtor axtor = (s.material.rho * s.Ae₆ * s.L / 6) •
        !![2, 0, 1, 0; 0, 0, 0, 0; 1, 0, 2, 0; 0, 0, 0, 0]
        + (s.material.rho * s.Je₆ * s.L / 6) •
        !![0, 0, 0, 0; 0, 2, 0, 1; 0, 0, 0, 0; 0, 1, 0, 2] := by
      unfold ShaftElement.M₆
      split_ifs <;>
        simp [Matrix.submatrix_add, Matrix.submatrix_smul, hMt, hMr, hMa, hMs]
    rw [this]
    ext i j; fin_cases i <;> fin_cases j <;> simp <;> ring
  · have : s.K₆.submatrix axtor axtor = (s.material.E * s.Ae₆ / s.L) •
        !![1, 0, -1, 0; 0, 0, 0, 0; -1, 0, 1, 0; 0, 0, 0, 0]
        + (s.material.G_s * s.Je₆ / s.L) •
        !![0, 0, 0, 0; 0, 1, 0, -1; 0, 0, 0, 0; 0, -1, 0, 1] := by
      unfold ShaftElement.K₆
      simp [Matrix.submatrix_add, Matrix.submatrix_smul, hK1, hK2, hKa, hKt, hKm, hKs]
    rw [this]
    ext i j; fin_cases i <;> fin_cases j <;> simp <;> ring

/-- **C11** a rigid axial translation `dz` and a rigid spin `dθ` of the whole element need no force
on any of the twelve dofs. -/
theorem C11_rigid_free (s : ShaftElement) (dz dθ : ℝ) :
    s.K₆ *ᵥ ![0, 0, dz, 0, 0, dθ, 0, 0, dz, 0, 0, dθ] = 0 := by
  have hsum : ∀ i, (s.K₆ *ᵥ ![0, 0, dz, 0, 0, dθ, 0, 0, dz, 0, 0, dθ]) i
      = dz * (s.K₆ i 2 + s.K₆ i 8) + dθ * (s.K₆ i 5 + s.K₆ i 11) := by
    intro i
    simp [mulVec, dotProduct, Fin.sum_univ_succ]
    ring
  ext i
  rw [hsum]
  have hcase : (∃ a, i = bend a) ∨ ∃ b, i = axtor b := by
    fin_cases i
    exacts [Or.inl ⟨0, rfl⟩, Or.inl ⟨1, rfl⟩, Or.inr ⟨0, rfl⟩, Or.inl ⟨2, rfl⟩, Or.inl ⟨3, rfl⟩,
      Or.inr ⟨1, rfl⟩, Or.inl ⟨4, rfl⟩, Or.inl ⟨5, rfl⟩, Or.inr ⟨2, rfl⟩, Or.inl ⟨6, rfl⟩,
      Or.inl ⟨7, rfl⟩, Or.inr ⟨3, rfl⟩]
  rcases hcase with ⟨a, rfl⟩ | ⟨b, rfl⟩
  · have h0 := (C11_uncoupled s a 0).2.2.1
    have h1 := (C11_uncoupled s a 1).2.2.1
    have h2 := (C11_uncoupled s a 2).2.2.1
    have h3 := (C11_uncoupled s a 3).2.2.1
    change s.K₆ (bend a) 2 = 0 at h0
    change s.K₆ (bend a) 5 = 0 at h1
    change s.K₆ (bend a) 8 = 0 at h2
    change s.K₆ (bend a) 11 = 0 at h3
    simp [h0, h1, h2, h3]
  · have h := (axtor_blocks s).2
    have h0 := congrFun (congrFun h b) 0
    have h1 := congrFun (congrFun h b) 1
    have h2 := congrFun (congrFun h b) 2
    have h3 := congrFun (congrFun h b) 3
    change s.K₆ (axtor b) 2 = _ at h0
    change s.K₆ (axtor b) 5 = _ at h1
    change s.K₆ (axtor b) 8 = _ at h2
    change s.K₆ (axtor b) 11 = _ at h3
    rw [h0, h1, h2, h3]
    fin_cases b <;> simp

theorem rigid_axial_inertia (s : ShaftElement) (dz dθ : ℝ) :
    ![0, 0, dz, 0, 0, dθ, 0, 0, dz, 0, 0, dθ] ⬝ᵥ
        (s.M₆ *ᵥ ![0, 0, dz, 0, 0, dθ, 0, 0, dz, 0, 0, dθ])
      = s.material.rho * s.L * s.Ae₆ * dz ^ 2 + s.material.rho * s.L * s.Je₆ * dθ ^ 2 := by
  have hsum : ![0, 0, dz, 0, 0, dθ, 0, 0, dz, 0, 0, dθ] ⬝ᵥ
        (s.M₆ *ᵥ ![0, 0, dz, 0, 0, dθ, 0, 0, dz, 0, 0, dθ])
      = ![dz, dθ, dz, dθ] ⬝ᵥ (s.M₆.submatrix axtor axtor *ᵥ ![dz, dθ, dz, dθ]) := by
    simp [mulVec, dotProduct, Fin.sum_univ_succ, axtor]
  rw [hsum, (axtor_blocks s).1]
  simp [mulVec, dotProduct, Fin.sum_univ_succ]
  ring

/-- **C11** the exact condition under which the rigid axial inertia is the element mass: the outer
and inner tapers have the same magnitude. -/
theorem C11_axial_mass_iff (s : ShaftElement) (hs : s.Built) (hρ : s.material.rho ≠ 0) :
    ![0, 0, 1, 0, 0, 0, 0, 0, 1, 0, 0, 0] ⬝ᵥ (s.M₆ *ᵥ ![0, 0, 1, 0, 0, 0, 0, 0, 1, 0, 0, 0]) = s.m ↔
      (s.odr - s.odl) ^ 2 = (s.idr - s.idl) ^ 2 := by
  have f := built_facts hs
  rw [rigid_axial_inertia s 1 0]
  have : s.material.rho * s.L * s.Ae₆ * 1 ^ 2 + s.material.rho * s.L * s.Je₆ * 0 ^ 2 - s.m
      = s.material.rho * s.L * π / 24 * ((s.odr - s.odl) ^ 2 - (s.idr - s.idl) ^ 2) := by
    unfold ShaftElement.Ae₆ ShaftElement.m ShaftElement.volume ShaftElement.outer
      ShaftElement.inner ShaftElement.A_l ShaftElement.A_r
    ring
  have hL := f.L
  have hπ := pi_pos.ne'
  rw [← sub_eq_zero, this, mul_eq_zero, sub_eq_zero]
  constructor
  · rintro (h | h)
    · exact absurd h (by positivity)
    · exact h
  · exact Or.inr

/-- **C11** the rigid spin inertia is `Im` for cylindrical elements, and rigid axial inertia is `m`
(`_partial`: for tapered elements both are false, see `C11_false`). -/
theorem C11_rigid_inertia_partial (s : ShaftElement) (hs : s.Built)
    (ho : s.odl = s.odr) (hi : s.idl = s.idr) (dz dθ : ℝ) :
    ![0, 0, dz, 0, 0, dθ, 0, 0, dz, 0, 0, dθ] ⬝ᵥ
        (s.M₆ *ᵥ ![0, 0, dz, 0, 0, dθ, 0, 0, dz, 0, 0, dθ])
      = s.material.rho * (∫ x in (0)..s.L, s.beam.area x) * dz ^ 2
        + (∫ x in (0)..s.L, s.material.rho * (2 * s.beam.inertia x)) * dθ ^ 2 := by
  have f := built_facts hs
  rw [← (C04_volume s hs).1, ← C04_Im s hs, rigid_axial_inertia]
  have hm : s.m / s.volume = s.material.rho := by
    unfold ShaftElement.m; exact mul_div_cancel_right₀ _ f.volume
  have h1 : s.material.rho * s.volume = s.material.rho * s.L * s.Ae₆ := by
    unfold ShaftElement.Ae₆ ShaftElement.volume ShaftElement.outer
      ShaftElement.inner ShaftElement.A_l ShaftElement.A_r
    rw [ho, hi]; ring
  have h2 : s.Im = s.material.rho * s.L * s.Je₆ := by
    unfold ShaftElement.Im
    rw [hm]
    unfold ShaftElement.Je₆ ShaftElement.Ie_l ShaftElement.Ie_r ShaftElement.roj ShaftElement.rok
      ShaftElement.rij ShaftElement.rik
    rw [ho, hi]; ring
  rw [h1, h2]

/-- **C11** is false for tapered elements: the 6-dof element of `exShaft` does not carry its own
mass axially. -/
theorem C11_false : ∃ s : ShaftElement, s.Built ∧ s.beam.Physical ∧
    ![0, 0, 1, 0, 0, 0, 0, 0, 1, 0, 0, 0] ⬝ᵥ (s.M₆ *ᵥ ![0, 0, 1, 0, 0, 0, 0, 0, 1, 0, 0, 0]) ≠ s.m := by
  refine ⟨exShaft, exShaft_built, exShaft_physical, fun h => ?_⟩
  have := (C11_axial_mass_iff exShaft exShaft_built (by norm_num [exShaft, exMaterial])).1 h
  norm_num [exShaft] at this

/-- **C11** the 6-dof mass matrix is symmetric and positive definite for physical elements. -/
theorem C11_mass_posDef (s : ShaftElement) (hs : s.Built) (hp : s.beam.Physical) :
    s.M₆ᵀ = s.M₆ ∧ ∀ u : Fin 12 → ℝ, u ≠ 0 → 0 < u ⬝ᵥ (s.M₆ *ᵥ u) := by
  constructor
  · have h1 : s.Mt₆ᵀ = s.Mt₆ := by ext i j; fin_cases i <;> fin_cases j <;> rfl
    have h2 : s.Mr₆ᵀ = s.Mr₆ := by ext i j; fin_cases i <;> fin_cases j <;> rfl
    have h3 : s.Mam₆ᵀ = s.Mam₆ := by ext i j; fin_cases i <;> fin_cases j <;> rfl
    have h4 : s.Mts₆ᵀ = s.Mts₆ := by ext i j; fin_cases i <;> fin_cases j <;> rfl
    unfold ShaftElement.M₆
    split_ifs <;> simp [Matrix.transpose_add, Matrix.transpose_smul, h1, h2, h3, h4]
  · intro u hu
    have hsplit : u ⬝ᵥ (s.M₆ *ᵥ u) = (u ∘ bend) ⬝ᵥ (s.M *ᵥ (u ∘ bend))
        + (u ∘ axtor) ⬝ᵥ (s.M₆.submatrix axtor axtor *ᵥ (u ∘ axtor)) := by
      have hs1 : ∀ g : Fin 12 → ℝ, ∑ i, g i = (∑ a, g (bend a)) + ∑ b, g (axtor b) := by
        intro g
        simp [Fin.sum_univ_succ, bend, axtor]
        ring
      rw [← C10_mass]
      simp only [dotProduct, mulVec, hs1, Function.comp, Matrix.submatrix_apply]
      congr 1
      · refine Finset.sum_congr rfl fun a _ => ?_
        congr 1
        rw [add_eq_left]
        exact Finset.sum_eq_zero fun b _ => by rw [(C11_uncoupled s a b).1, zero_mul]
      · refine Finset.sum_congr rfl fun b _ => ?_
        congr 1
        rw [add_eq_right]
        exact Finset.sum_eq_zero fun a _ => by rw [(C11_uncoupled s a b).2.1, zero_mul]
    rw [hsplit]
    have hL : 0 < s.L := hp.L_pos
    have hρ : 0 < s.material.rho := hp.rho_pos
    have hAe : 0 < s.Ae₆ := by
      have h1 := area_pos _ hp 0 le_rfl hp.L_pos.le
      have h2 := area_pos _ hp s.beam.L hp.L_pos.le le_rfl
      have hl : s.beam.L ≠ 0 := hp.L_pos.ne'
      have e1 : s.beam.area 0 = s.A_l := by
        simp [Beam.area, Beam.od, Beam.id, ShaftElement.beam, ShaftElement.A_l]
      have e2 : s.beam.area s.beam.L = s.A_r := by
        simp only [Beam.area, Beam.od, Beam.id, div_self hl]
        simp [ShaftElement.beam, ShaftElement.A_r]
      unfold ShaftElement.Ae₆
      rw [← e1, ← e2]; positivity
    have hJe : 0 < s.Je₆ := by
      have h1 := inertia_pos _ hp 0 le_rfl hp.L_pos.le
      have h2 := inertia_pos _ hp s.beam.L hp.L_pos.le le_rfl
      have hl : s.beam.L ≠ 0 := hp.L_pos.ne'
      have e1 : s.beam.inertia 0 = s.Ie_l := by
        simp [Beam.inertia, Beam.od, Beam.id, ShaftElement.beam, ShaftElement.Ie_l]
      have e2 : s.beam.inertia s.beam.L = s.Ie_r := by
        simp only [Beam.inertia, Beam.od, Beam.id, div_self hl]
        simp [ShaftElement.beam, ShaftElement.Ie_r]
      unfold ShaftElement.Je₆
      rw [← e1, ← e2]; positivity
    have hq : ∀ v : Fin 4 → ℝ, v ⬝ᵥ (s.M₆.submatrix axtor axtor *ᵥ v)
        = s.material.rho * s.L / 6 * (s.Ae₆ * (v 0 ^ 2 + v 2 ^ 2 + (v 0 + v 2) ^ 2)
          + s.Je₆ * (v 1 ^ 2 + v 3 ^ 2 + (v 1 + v 3) ^ 2)) := by
      intro v
      rw [(axtor_blocks s).1]
      simp [mulVec, dotProduct, Fin.sum_univ_succ]
      ring
    rw [hq]
    by_cases hb : u ∘ bend = 0
    · rw [hb, zero_dotProduct, zero_add]
      have hne : u ∘ axtor ≠ 0 := by
        intro ha
        apply hu
        funext i
        have b := fun k => congrFun hb k
        have a := fun k => congrFun ha k
        simp only [Function.comp, Pi.zero_apply] at a b
        fin_cases i
        exacts [b 0, b 1, a 0, b 2, b 3, a 1, b 4, b 5, a 2, b 6, b 7, a 3]
      generalize u ∘ axtor = v at hne
      refine mul_pos (by positivity) ?_
      by_contra hcon
      push Not at hcon
      have p1 : 0 ≤ s.Ae₆ * (v 0 ^ 2 + v 2 ^ 2 + (v 0 + v 2) ^ 2) := by positivity
      have p2 : 0 ≤ s.Je₆ * (v 1 ^ 2 + v 3 ^ 2 + (v 1 + v 3) ^ 2) := by positivity
      have z1 : s.Ae₆ * (v 0 ^ 2 + v 2 ^ 2 + (v 0 + v 2) ^ 2) = 0 := by linarith
      have z2 : s.Je₆ * (v 1 ^ 2 + v 3 ^ 2 + (v 1 + v 3) ^ 2) = 0 := by linarith
      have y1 := (mul_eq_zero.1 z1).resolve_left hAe.ne'
      have y2 := (mul_eq_zero.1 z2).resolve_left hJe.ne'
      have v0 : v 0 ^ 2 = 0 := by nlinarith [sq_nonneg (v 0), sq_nonneg (v 2), sq_nonneg (v 0 + v 2)]
      have v2 : v 2 ^ 2 = 0 := by nlinarith [sq_nonneg (v 0), sq_nonneg (v 2), sq_nonneg (v 0 + v 2)]
      have v1 : v 1 ^ 2 = 0 := by nlinarith [sq_nonneg (v 1), sq_nonneg (v 3), sq_nonneg (v 1 + v 3)]
      have v3 : v 3 ^ 2 = 0 := by nlinarith [sq_nonneg (v 1), sq_nonneg (v 3), sq_nonneg (v 1 + v 3)]
      apply hne
      funext k
      fin_cases k
      exacts [pow_eq_zero_iff two_ne_zero |>.1 v0, pow_eq_zero_iff two_ne_zero |>.1 v1,
        pow_eq_zero_iff two_ne_zero |>.1 v2, pow_eq_zero_iff two_ne_zero |>.1 v3]
    · have h1 := C05_mass_posDef s hs hp (u ∘ bend) hb
      have h2 : 0 ≤ s.material.rho * s.L / 6 * (s.Ae₆ * ((u ∘ axtor) 0 ^ 2 + (u ∘ axtor) 2 ^ 2
          + ((u ∘ axtor) 0 + (u ∘ axtor) 2) ^ 2) + s.Je₆ * ((u ∘ axtor) 1 ^ 2 + (u ∘ axtor) 3 ^ 2
          + ((u ∘ axtor) 1 + (u ∘ axtor) 3) ^ 2)) := by positivity
      linarith

/-- **C09** for the 6-dof class: `G()` is skew-symmetric. -/
theorem C09_gyro6_skew (s : ShaftElement) : s.G₆ᵀ = -s.G₆ := by
  have h : s.Glit₆ᵀ = - s.Glit₆ := by
    ext i j; fin_cases i <;> fin_cases j <;> simp [ShaftElement.Glit₆]
  unfold ShaftElement.G₆
  split_ifs <;> simp [Matrix.transpose_smul, h]

/-- Rotational-acceleration matrix `Kst` (used for transient runs): for cylindrical Euler–Bernoulli
elements its skew part is the gyroscopic matrix, `G = Kstᵀ - Kst`. -/
theorem C09_Kst_gyro (s : ShaftElement) (hφ : s.phi = 0) (ho : s.odl = s.odr) (hi : s.idl = s.idr)
    (hg : s.gyroscopic = true) : s.G₆ = s.Kst₆ᵀ - s.Kst₆ := by
  have hI : s.Ie_r = s.Ie_l := by simp [ShaftElement.Ie_r, ShaftElement.Ie_l, ho, hi]
  have ha2 : s.a2 = 0 := by
    simp [ShaftElement.a2, ShaftElement.delta_ro, ShaftElement.delta_ri, ShaftElement.rok,
      ShaftElement.roj, ShaftElement.rik, ShaftElement.rij, ho, hi]
  have hb2 : s.b2 = 0 := by
    simp [ShaftElement.b2, ShaftElement.delta_ro, ShaftElement.delta_ri, ShaftElement.rok,
      ShaftElement.roj, ShaftElement.rik, ShaftElement.rij, ho, hi]
  have hga : s.gama = 0 := by
    simp [ShaftElement.gama, ShaftElement.delta_ro, ShaftElement.delta_ri, ShaftElement.rok,
      ShaftElement.roj, ShaftElement.rik, ShaftElement.rij, ho, hi]
  have hde : s.delta = 0 := by
    simp [ShaftElement.delta, ShaftElement.delta_ro, ShaftElement.delta_ri, ShaftElement.rok,
      ShaftElement.roj, ShaftElement.rik, ShaftElement.rij, ho, hi]
  have e1 : s.g1₆ = 252 := by simp [ShaftElement.g1₆, ha2, hb2, hga, hde]
  have e2 : s.g2₆ = 21 * s.L := by simp [ShaftElement.g2₆, ha2, hb2, hga, hde, hφ]
  have e3 : s.g3₆ = 21 * s.L := by simp [ShaftElement.g3₆, ha2, hb2, hga, hde, hφ]
  have e4 : s.g4₆ = 28 * s.L ^ 2 := by simp [ShaftElement.g4₆, ha2, hb2, hga, hde, hφ]
  have e5 : s.g5₆ = 7 * s.L ^ 2 := by simp [ShaftElement.g5₆, ha2, hb2, hga, hde, hφ]
  have e6 : s.g6₆ = 28 * s.L ^ 2 := by simp [ShaftElement.g6₆, ha2, hb2, hga, hde, hφ]
  have key : s.Glit₆ = 7 • (s.KstLit₆ᵀ - s.KstLit₆) := by
    ext i j
    fin_cases i <;> fin_cases j <;>
      simp [ShaftElement.Glit₆, ShaftElement.KstLit₆, e1, e2, e3, e4, e5, e6] <;> ring
  simp only [ShaftElement.G₆, ShaftElement.Kst₆, hg, if_true, key, hφ, hI,
    Matrix.transpose_smul, ← smul_sub]
  rw [← Nat.cast_smul_eq_nsmul ℝ, smul_smul]
  congr 1
  push_cast
  ring

/-- Non-vacuity: a cylindrical element meeting the hypotheses of the `_partial` theorems. -/
noncomputable def exCyl : ShaftElement :=
  { exShaft with odr := 1 / 20, idr := 1 / 100, shear_effects := false }

example : exCyl.Built ∧ exCyl.beam.Physical ∧ 1 + exCyl.phi ≠ 0 ∧ exCyl.odl = exCyl.odr ∧
    exCyl.idl = exCyl.idr ∧ exCyl.phi = 0 ∧ exCyl.gyroscopic = true := by
  have hp : exCyl.beam.Physical := by
    constructor <;> norm_num [exCyl, exShaft, exMaterial, ShaftElement.beam]
  have hb : exCyl.Built := facts_built (physical_facts hp (Or.inr rfl))
  exact ⟨hb, hp, (one_add_phi_pos (built_facts hb) hp).ne', rfl, rfl,
    by simp [ShaftElement.phi, exCyl], rfl⟩

end Ross.Props
