import Mathlib.Analysis.Calculus.Deriv.Pi
import Verif.Spec.State
import Verif.Lemmas.State
import Verif.Lemmas.Passive

/-! # C23, C47: state-space form and stability -/

namespace Ross.Props

open Ross Ross.Spec Ross.StateLemmas Ross.BearingLemmas Ross.Rotor Ross.AssemblyLemmas Ross.RotorLemmas Matrix

variable {r : Rotor} {Ω : ℝ} {f : Option ℝ} {sync : Bool}
  {A : Matrix (Fin r.ndof ⊕ Fin r.ndof) (Fin r.ndof ⊕ Fin r.ndof) ℝ}
  {M K C G : Matrix (Fin r.ndof) (Fin r.ndof) ℝ}

/-- **C23** the state matrix can be computed exactly when the four matrices can and the mass matrix is
invertible. The excitation frequency defaults to the speed. -/
theorem C23_exists_iff : (∃ A, r.A Ω f sync = .ok A) ↔ ∃ M K C G,
    r.M (some (f.getD Ω)) sync = .ok M ∧ r.K (f.getD Ω) = .ok K ∧ r.C (f.getD Ω) = .ok C ∧
    r.G = .ok G ∧ M.det ≠ 0 := by
  constructor
  · rintro ⟨A, h⟩
    obtain ⟨M, K, C, G, h1, h2, h3, h4, h5, -⟩ := A_ok.1 h
    exact ⟨M, K, C, G, h1, h2, h3, h4, h5⟩
  · rintro ⟨M, K, C, G, h1, h2, h3, h4, h5⟩
    have hu : IsUnit M.det := isUnit_iff_ne_zero.2 h5
    exact ⟨_, A_ok.2 ⟨M, K, C, G, h1, h2, h3, h4, h5, M⁻¹ * -K, M⁻¹ * -(C + Ω • G),
      by rw [← Matrix.mul_assoc, Matrix.mul_nonsing_inv _ hu, Matrix.one_mul],
      by rw [← Matrix.mul_assoc, Matrix.mul_nonsing_inv _ hu, Matrix.one_mul], rfl⟩⟩

theorem blocks (hA : r.A Ω f sync = .ok A) (hM : r.M (some (f.getD Ω)) sync = .ok M)
    (hK : r.K (f.getD Ω) = .ok K) (hC : r.C (f.getD Ω) = .ok C) (hG : r.G = .ok G) :
    M.det ≠ 0 ∧ ∃ X Y, M * X = -K ∧ M * Y = -(C + Ω • G) ∧ A = fromBlocks 0 1 X Y := by
  obtain ⟨M', K', C', G', h1, h2, h3, h4, h5, h6⟩ := A_ok.1 hA
  rw [hM] at h1; rw [hK] at h2; rw [hC] at h3; rw [hG] at h4
  cases h1; cases h2; cases h3; cases h4
  exact ⟨h5, h6⟩

/-- **C23** pointwise: `A (q, v) = (q', v')` says that `q' = v` and that the acceleration `v'` obeys
the equation of motion. -/
theorem C23_state (hA : r.A Ω f sync = .ok A) (hM : r.M (some (f.getD Ω)) sync = .ok M)
    (hK : r.K (f.getD Ω) = .ok K) (hC : r.C (f.getD Ω) = .ok C) (hG : r.G = .ok G)
    (q v q' v' : Fin r.ndof → ℝ) :
    A *ᵥ Sum.elim q v = Sum.elim q' v' ↔
      q' = v ∧ M *ᵥ v' + (C + Ω • G) *ᵥ v + K *ᵥ q = 0 := by
  obtain ⟨hd, X, Y, hX, hY, rfl⟩ := blocks hA hM hK hC hG
  exact block_row hd hX hY q v q' v'

/-- **C23** trajectories: displacements `q` and velocities `v` solve `x' = A x` at time `t` iff `v` is
the derivative of `q` and the equation of motion holds. -/
theorem C23_motion (hA : r.A Ω f sync = .ok A) (hM : r.M (some (f.getD Ω)) sync = .ok M)
    (hK : r.K (f.getD Ω) = .ok K) (hC : r.C (f.getD Ω) = .ok C) (hG : r.G = .ok G)
    (q v : ℝ → Fin r.ndof → ℝ) (t : ℝ) :
    HasDerivAt (fun t => Sum.elim (q t) (v t)) (A *ᵥ Sum.elim (q t) (v t)) t ↔
      HasDerivAt q (v t) t ∧ ∃ a, HasDerivAt v a t ∧
        M *ᵥ a + (C + Ω • G) *ᵥ v t + K *ᵥ q t = 0 := by
  have key : ∀ q' v' : Fin r.ndof → ℝ,
      HasDerivAt (fun t => Sum.elim (q t) (v t)) (Sum.elim q' v') t ↔
        HasDerivAt q q' t ∧ HasDerivAt v v' t := by
    intro q' v'
    simp only [hasDerivAt_pi]
    exact ⟨fun h => ⟨fun i => h (.inl i), fun i => h (.inr i)⟩,
      fun h i => by cases i with
        | inl i => exact h.1 i
        | inr i => exact h.2 i⟩
  constructor
  · intro h
    have e : A *ᵥ Sum.elim (q t) (v t) = Sum.elim ((A *ᵥ Sum.elim (q t) (v t)) ∘ Sum.inl)
      ((A *ᵥ Sum.elim (q t) (v t)) ∘ Sum.inr) := (Sum.elim_comp_inl_inr _).symm
    obtain ⟨h1, h2⟩ := (C23_state hA hM hK hC hG _ _ _ _).1 e
    rw [e, key] at h
    rw [h1] at h
    exact ⟨h.1, _, h.2, h2⟩
  · rintro ⟨h1, a, h2, h3⟩
    rw [(C23_state hA hM hK hC hG (q t) (v t) (v t) a).2 ⟨rfl, h3⟩, key]
    exact ⟨h1, h2⟩

theorem cplx_mul {l m n : Type} [Fintype m] (A : Matrix l m ℝ) (B : Matrix m n ℝ) :
    cplx (A * B) = cplx A * cplx B := by
  ext i j; simp [cplx, Matrix.mul_apply]

theorem cplx_det {N : ℕ} (A : Matrix (Fin N) (Fin N) ℝ) : (cplx A).det = (A.det : ℂ) :=
  (RingHom.map_det Complex.ofRealHom A).symm

/-- **C23** eigenpairs: the eigenvectors of `A` are exactly the vectors `(v, s v)` for the modes `v` of
`s² M + s (C + Ω G) + K`, with the same eigenvalue. -/
theorem C23_eigen (hA : r.A Ω f sync = .ok A) (hM : r.M (some (f.getD Ω)) sync = .ok M)
    (hK : r.K (f.getD Ω) = .ok K) (hC : r.C (f.getD Ω) = .ok C) (hG : r.G = .ok G)
    (s : ℂ) (x : Fin r.ndof ⊕ Fin r.ndof → ℂ) :
    IsEigen A s x ↔ ∃ v, x = Sum.elim v (s • v) ∧ IsMode M (C + Ω • G) K s v := by
  obtain ⟨hd, X, Y, hX, hY, rfl⟩ := blocks hA hM hK hC hG
  have hd' : (cplx M).det ≠ 0 := by rw [cplx_det]; exact_mod_cast hd
  have hX' : cplx M * cplx X = -cplx K := by
    rw [← cplx_mul, hX]; ext i j; simp [cplx]
  have hY' : cplx M * cplx Y = -cplx (C + Ω • G) := by
    rw [← cplx_mul, hY]; ext i j; simp [cplx]
  have hB : cplx (fromBlocks (0 : Matrix (Fin r.ndof) (Fin r.ndof) ℝ) 1 X Y) =
      fromBlocks (0 : Matrix (Fin r.ndof) (Fin r.ndof) ℂ) 1 (cplx X) (cplx Y) := by
    unfold cplx; rw [fromBlocks_map]
    congr 1
    ext i j; by_cases h : i = j <;> simp [h, Matrix.one_apply]
  obtain ⟨q, v, rfl⟩ : ∃ q v, x = Sum.elim q v := ⟨_, _, (Sum.elim_comp_inl_inr x).symm⟩
  have hs : s • Sum.elim q v = Sum.elim (s • q) (s • v) := by
    ext i; cases i <;> simp
  unfold IsEigen IsMode dynStiff
  rw [hB, hs, block_row hd' hX' hY']
  constructor
  · rintro ⟨hne, rfl, h⟩
    refine ⟨q, rfl, ?_, ?_⟩
    · rintro rfl; exact hne (by ext i; cases i <;> simp)
    · rw [add_mulVec, add_mulVec, smul_mulVec, smul_mulVec, ← h]
      simp only [mulVec_smul, smul_smul, pow_two]
  · rintro ⟨w, e, hw, h⟩
    rw [Sum.elim_eq_iff] at e
    obtain ⟨rfl, rfl⟩ := e
    refine ⟨fun h0 => hw ?_, rfl, ?_⟩
    · ext i; exact congrFun h0 (.inl i)
    · rw [← h, add_mulVec, add_mulVec, smul_mulVec, smul_mulVec]
      simp only [mulVec_smul, smul_smul, pow_two]

end Ross.Props
