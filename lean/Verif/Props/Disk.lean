import Mathlib.LinearAlgebra.Matrix.PosDef
import Mathlib.Tactic.FinCases
import Verif.Lemmas.ListRes
import Verif.Model.Disk
import Verif.Spec.Disk

/-! # C03: disks -/

namespace Ross.Props

open Real intervalIntegral Matrix Spec

/-- **C03** mass and inertias of a disk built from geometry are the volume integrals over the hollow
cylinder. -/
theorem C03_from_geometry (n : ℕ) (mat : Material) (w i_d o_d : ℝ) (tag : Option String) (sf : ℝ)
    (color : String) :
    let d := DiskElement.fromGeometry n mat w i_d o_d tag sf color
    d.m = cylinderMass mat.rho w i_d o_d ∧ d.Ip = cylinderPolar mat.rho w i_d o_d ∧
      d.Id = cylinderDiametral mat.rho w i_d o_d ∧ d.n = n ∧ d.tag = tag ∧ d.scale_factor = sf ∧
      d.color = color := by
  refine ⟨?_, ?_, ?_, rfl, rfl, rfl, rfl⟩
  · simp only [DiskElement.fromGeometry, DiskElement.init, cylinderMass, cylinderIntegral,
      intervalIntegral.integral_const_mul, integral_id, intervalIntegral.integral_const,
      smul_eq_mul]
    rw [intervalIntegral.integral_const_mul, integral_id]
    ring
  · have h1 : ∀ r : ℝ, mat.rho * r ^ 2 * r = mat.rho * r ^ 3 := fun r => by ring
    simp only [DiskElement.fromGeometry, DiskElement.init, cylinderPolar, cylinderIntegral, h1,
      intervalIntegral.integral_const_mul, integral_pow, integral_const, smul_eq_mul]
    push_cast
    ring
  · have h1 : ∀ z θ : ℝ, (∫ r in (i_d / 2)..(o_d / 2), mat.rho * ((r * sin θ) ^ 2 + z ^ 2) * r)
        = mat.rho * (((o_d / 2) ^ 4 - (i_d / 2) ^ 4) / 4) * sin θ ^ 2
          + mat.rho * z ^ 2 * (((o_d / 2) ^ 2 - (i_d / 2) ^ 2) / 2) := by
      intro z θ
      have h2 : ∀ r : ℝ, mat.rho * ((r * sin θ) ^ 2 + z ^ 2) * r
          = mat.rho * sin θ ^ 2 * r ^ 3 + mat.rho * z ^ 2 * r ^ 1 := fun r => by ring
      simp only [h2]
      rw [integral_add (Continuous.intervalIntegrable (by fun_prop) _ _)
        (Continuous.intervalIntegrable (by fun_prop) _ _), intervalIntegral.integral_const_mul,
        intervalIntegral.integral_const_mul, integral_pow, integral_pow]
      push_cast
      ring
    have h3 : ∀ z : ℝ, (∫ θ in (0)..(2 * π), mat.rho * (((o_d / 2) ^ 4 - (i_d / 2) ^ 4) / 4)
          * sin θ ^ 2 + mat.rho * z ^ 2 * (((o_d / 2) ^ 2 - (i_d / 2) ^ 2) / 2))
        = mat.rho * (((o_d / 2) ^ 4 - (i_d / 2) ^ 4) / 4) * π
          + 2 * π * (mat.rho * (((o_d / 2) ^ 2 - (i_d / 2) ^ 2) / 2)) * z ^ 2 := by
      intro z
      rw [integral_add (Continuous.intervalIntegrable (by fun_prop) _ _)
        (Continuous.intervalIntegrable (by fun_prop) _ _), intervalIntegral.integral_const_mul,
        integral_sin_sq, integral_const]
      simp
      ring
    simp only [DiskElement.fromGeometry, DiskElement.init, cylinderDiametral, cylinderIntegral, h1,
      h3]
    rw [integral_add (Continuous.intervalIntegrable (by fun_prop) _ _)
      (Continuous.intervalIntegrable (by fun_prop) _ _), intervalIntegral.integral_const,
      intervalIntegral.integral_const_mul, integral_pow]
    simp only [smul_eq_mul]
    push_cast
    ring

/-- **C03** a physical disk has positive mass and inertias, and the diametral inertia exceeds half
the polar one. -/
theorem C03_positive (n : ℕ) (mat : Material) (w i_d o_d : ℝ) (tag : Option String) (sf : ℝ)
    (color : String) (hρ : 0 < mat.rho) (hw : 0 < w) (hi : 0 ≤ i_d) (ho : i_d < o_d) :
    let d := DiskElement.fromGeometry n mat w i_d o_d tag sf color
    0 < d.m ∧ 0 < d.Ip ∧ d.Ip / 2 < d.Id := by
  have hm : 0 < mat.rho * π * w * (o_d ^ 2 - i_d ^ 2) / 4 := by
    have : 0 < o_d ^ 2 - i_d ^ 2 := by nlinarith
    have := pi_pos
    positivity
  have h2 : 0 < o_d ^ 2 + i_d ^ 2 := by
    have : 0 < o_d := hi.trans_lt ho
    positivity
  refine ⟨hm, ?_, ?_⟩
  · simp only [DiskElement.fromGeometry, DiskElement.init]; positivity
  · simp only [DiskElement.fromGeometry, DiskElement.init]
    have : 0 < 1 / 12 * (mat.rho * π * w * (o_d ^ 2 - i_d ^ 2) / 4) * w ^ 2 := by positivity
    linarith

/-- **C03** kinetic energy: the mass matrix carries the mass on both translations and the diametral
inertia on both rotations; symmetric, and positive definite for positive data. -/
theorem C03_mass (d : DiskElement) :
    (∀ u : Fin 4 → ℝ, u ⬝ᵥ d.M *ᵥ u
      = d.m * (u 0 ^ 2 + u 1 ^ 2) + d.Id * (u 2 ^ 2 + u 3 ^ 2)) ∧ d.Mᵀ = d.M ∧
    (0 < d.m → 0 < d.Id → d.M.PosDef) ∧ (d.M.PosDef → 0 < d.m ∧ 0 < d.Id) := by
  have h1 : ∀ u : Fin 4 → ℝ, u ⬝ᵥ d.M *ᵥ u
      = d.m * (u 0 ^ 2 + u 1 ^ 2) + d.Id * (u 2 ^ 2 + u 3 ^ 2) := by
    intro u
    simp [DiskElement.M, dotProduct, mulVec, Fin.sum_univ_four]
    ring
  have h2 : d.Mᵀ = d.M := by
    ext i j; fin_cases i <;> fin_cases j <;> rfl
  refine ⟨h1, h2, fun hm hI => ?_, fun h => ?_⟩
  · refine PosDef.of_dotProduct_mulVec_pos (by rw [IsHermitian, conjTranspose_eq_transpose_of_trivial, h2]) ?_
    intro u hu
    rw [star_trivial, h1]
    by_contra hn
    push Not at hn
    have e0 : 0 ≤ d.m * (u 0 ^ 2 + u 1 ^ 2) := by positivity
    have e1 : 0 ≤ d.Id * (u 2 ^ 2 + u 3 ^ 2) := by positivity
    have f0 : u 0 ^ 2 + u 1 ^ 2 = 0 := by
      have : d.m * (u 0 ^ 2 + u 1 ^ 2) = 0 := by linarith
      exact (mul_eq_zero.1 this).resolve_left hm.ne'
    have f1 : u 2 ^ 2 + u 3 ^ 2 = 0 := by
      have : d.Id * (u 2 ^ 2 + u 3 ^ 2) = 0 := by linarith
      exact (mul_eq_zero.1 this).resolve_left hI.ne'
    apply hu
    ext i
    fin_cases i <;> simp <;> nlinarith [sq_nonneg (u 0), sq_nonneg (u 1), sq_nonneg (u 2),
      sq_nonneg (u 3)]
  · have a := h.dotProduct_mulVec_pos (x := ![1, 0, 0, 0])
      (by intro h; simpa using congrFun h 0)
    have b := h.dotProduct_mulVec_pos (x := ![0, 0, 1, 0])
      (by intro h; simpa using congrFun h 2)
    rw [star_trivial, h1] at a b
    simp at a b
    exact ⟨a, b⟩

/-- **C03** gyroscopic couple: with spin, an angular velocity `(α', β')` meets the couple
`(Ip β', -Ip α')`; the matrix is skew-symmetric, so it does no work; there is no stiffness and no
damping. -/
theorem C03_gyro (d : DiskElement) :
    (∀ v : Fin 4 → ℝ, d.G *ᵥ v = ![0, 0, d.Ip * v 3, -d.Ip * v 2]) ∧ d.Gᵀ = -d.G ∧
    (∀ v : Fin 4 → ℝ, v ⬝ᵥ d.G *ᵥ v = 0) ∧ d.K = 0 ∧ d.C = 0 := by
  refine ⟨?_, ?_, ?_, rfl, rfl⟩
  · intro v; ext i
    fin_cases i <;> simp [DiskElement.G, mulVec, dotProduct, Fin.sum_univ_four]
  · ext i j; fin_cases i <;> fin_cases j <;> simp [DiskElement.G]
  · intro v
    simp [DiskElement.G, mulVec, dotProduct, Fin.sum_univ_four]
    ring

/-- Bending dofs of a 6-dof node. -/
def bend6 : Fin 4 → Fin 6 := ![0, 1, 3, 4]

/-- **C03** the 6-dof disk restricted to the bending dofs is the 4-dof disk. -/
theorem C03_six_bending (d : DiskElement) :
    d.M₆.submatrix bend6 bend6 = d.M ∧ d.K₆.submatrix bend6 bend6 = d.K ∧
    d.C₆.submatrix bend6 bend6 = d.C ∧ d.G₆.submatrix bend6 bend6 = d.G := by
  refine ⟨?_, ?_, ?_, ?_⟩ <;>
    (ext i j; fin_cases i <;> fin_cases j <;> rfl)

/-- **C03** 6-dof disk: the axial translation carries the mass and the spin the polar inertia;
gyroscopic and transient matrices: `G = Kdtᵀ - Kdt`, skew-symmetric. -/
theorem C03_six (d : DiskElement) :
    (∀ u : Fin 6 → ℝ, u ⬝ᵥ d.M₆ *ᵥ u = d.m * (u 0 ^ 2 + u 1 ^ 2 + u 2 ^ 2)
      + d.Id * (u 3 ^ 2 + u 4 ^ 2) + d.Ip * u 5 ^ 2) ∧ d.M₆ᵀ = d.M₆ ∧
    (∀ v : Fin 6 → ℝ, d.G₆ *ᵥ v = ![0, 0, 0, d.Ip * v 4, -d.Ip * v 3, 0]) ∧
    d.G₆ᵀ = -d.G₆ ∧ d.G₆ = d.Kdt₆ᵀ - d.Kdt₆ ∧ d.K₆ = 0 ∧ d.C₆ = 0 := by
  refine ⟨?_, ?_, ?_, ?_, ?_, rfl, rfl⟩
  · intro u
    simp [DiskElement.M₆, dotProduct, mulVec, Fin.sum_univ_six]
    ring
  · ext i j; fin_cases i <;> fin_cases j <;> rfl
  · intro v; ext i
    fin_cases i <;> simp [DiskElement.G₆, mulVec, dotProduct, Fin.sum_univ_six]
  · ext i j; fin_cases i <;> fin_cases j <;> simp [DiskElement.G₆]
  · ext i j; fin_cases i <;> fin_cases j <;> simp [DiskElement.G₆, DiskElement.Kdt₆]

/-- **C03** a table with equally long columns gives one disk per row, in order, with the row's
values. -/
theorem C03_from_table (rows : List (ℕ × ℝ × ℝ × ℝ)) :
    DiskElement.fromColumns (rows.map (·.1)) (rows.map (·.2.1)) (rows.map (·.2.2.1))
      (rows.map (·.2.2.2)) none none none
    = .ok (rows.map fun r => ⟨r.1, r.2.1, r.2.2.1, r.2.2.2, none, 1, "Firebrick"⟩) := by
  unfold DiskElement.fromColumns
  rw [mapM_ok_iff]
  apply List.ext_getElem (by simp)
  intro i h1 h2
  simp only [List.length_map, List.length_range] at h1
  simp [h1, DiskElement.init]

/-- Non-vacuity: the documentation's disk (steel, 70 mm wide, 50/280 mm) is physical. -/
example : ∃ d : DiskElement, d = DiskElement.fromGeometry 0 ⟨"Steel", 7810, 211e9, 81.2e9, 0.3, ""⟩
    (7 / 100) (1 / 20) (7 / 25) ∧ d.M.PosDef ∧ d.G ≠ 0 := by
  refine ⟨_, rfl, ?_, ?_⟩
  · have h := C03_positive 0 ⟨"Steel", 7810, 211e9, 81.2e9, 0.3, ""⟩ (7 / 100) (1 / 20) (7 / 25) none
      1 "Firebrick" (by norm_num) (by norm_num) (by norm_num) (by norm_num)
    exact (C03_mass _).2.2.1 h.1 (by have := h.2.1; have := h.2.2; linarith)
  · have h := C03_positive 0 ⟨"Steel", 7810, 211e9, 81.2e9, 0.3, ""⟩ (7 / 100) (1 / 20) (7 / 25) none
      1 "Firebrick" (by norm_num) (by norm_num) (by norm_num) (by norm_num)
    intro h0
    have h1 := congrFun (congrFun h0 2) 3
    simp only [DiskElement.G] at h1
    exact h.2.1.ne' (by simpa using h1)

end Ross.Props
