import Verif.Lemmas.Diag
import Verif.Props.ModeSelection

/-! # C49: rotors without damping have a complete set of modes; C24, C48 for such rotors -/

namespace Ross.Props

open Ross Ross.Spec Ross.BearingLemmas Ross.DynamicsLemmas Ross.StateLemmas Matrix Rotor
open scoped ComplexOrder

variable {r : Rotor} {la : Lapack} {ω Ω : ℝ} {N : ℕ} {pd : Pandas} {fuel : ℕ} {a : RotorArgs}
  {A : Matrix (Fin r.ndof ⊕ Fin r.ndof) (Fin r.ndof ⊕ Fin r.ndof) ℝ}

theorem skew_of_form {C : Matrix (Fin N) (Fin N) ℝ} (h : ∀ v, v ⬝ᵥ (C *ᵥ v) = 0) : Cᵀ = -C := by
  ext i j
  have h1 := h (Pi.single i 1 + Pi.single j 1)
  have h2 := h (Pi.single i 1)
  have h3 := h (Pi.single j 1)
  simp only [mulVec_add, dotProduct_add, add_dotProduct, mulVec_single_one, single_one_dotProduct, Matrix.col_apply]
    at h1 h2 h3
  rw [Matrix.transpose_apply, Matrix.neg_apply]
  linarith

/-- **C49** A passive rotor without damping that is held by its bearings has, at every speed, a complete set of
independent modes, all of them undamped oscillations. -/
theorem C49_complete (h : init pd fuel a = some (.ok r)) (hf : ∀ e ∈ r.elements, Fits r.number_dof e)
    (hp : Passive r ω) (hA : r.A Ω (some ω) = .ok A) (hu : ∀ C, r.C ω = .ok C → ∀ v, v ⬝ᵥ (C *ᵥ v) = 0)
    (hk : ∀ K, r.K ω = .ok K → ∀ v ≠ 0, 0 < v ⬝ᵥ (K *ᵥ v)) :
    ∃ l, EigOk A l ∧ (columns l).det ≠ 0 ∧ ∀ p ∈ l, p.1.re = 0 := by
  obtain ⟨M, K, C, G, hM, hK, hC, hG, -, X, Y, hX, hY, hAe⟩ := A_ok.1 hA
  simp only [Option.getD_some] at hM hK hC
  obtain ⟨f1, f2, -⟩ := C47_forms h hf hp
  have hCs := skew_of_form (hu C hC)
  have hGs := C18_gyro_skew h hG
  set D := C + Ω • G with hD
  have hDs : Dᵀ = -D := by rw [hD, transpose_add, transpose_smul, hCs, hGs]; simp; abel
  have hMs := (f1 M hM).1
  have hKs := (f2 K hK).1
  have hct : ∀ B : Matrix (Fin r.ndof) (Fin r.ndof) ℝ, (cplx B)ᴴ = cplx Bᵀ := by
    intro B; ext i j; simp [cplx]
  let E : Matrix (Fin r.ndof ⊕ Fin r.ndof) (Fin r.ndof ⊕ Fin r.ndof) ℂ := fromBlocks (cplx K) 0 0 (cplx M)
  have hAc : cplx A = fromBlocks 0 1 (cplx X) (cplx Y) := by
    rw [hAe]
    ext (i | i) (j | j) <;> simp [cplx, Matrix.one_apply, apply_ite]
  have hneg : ∀ B : Matrix (Fin r.ndof) (Fin r.ndof) ℝ, cplx (-B) = -cplx B := by
    intro B; ext i j; simp [cplx]
  have hEA : E * cplx A = fromBlocks 0 (cplx K) (-cplx K) (-cplx D) := by
    rw [hAc, fromBlocks_multiply]
    simp only [Matrix.mul_zero, Matrix.zero_mul, Matrix.mul_one, zero_add, add_zero, ← cplx_mul, hX, hY, hneg]
  have hE : E.PosDef := by
    refine .of_dotProduct_mulVec_pos ?_ fun x hx => ?_
    · unfold Matrix.IsHermitian
      rw [fromBlocks_conjTranspose, hct, hct, hMs, hKs]
      simp [E]
    · obtain ⟨u, v, rfl⟩ : ∃ u v, x = Sum.elim u v := ⟨_, _, (Sum.elim_comp_inl_inr x).symm⟩
      have e : star (Sum.elim u v) ⬝ᵥ (E *ᵥ Sum.elim u v) = herm K u + herm M v := by
        have es : star (Sum.elim u v) = Sum.elim (star u) (star v) := by
          ext (i | i) <;> simp
        rw [es, fromBlocks_mulVec, sumElim_dotProduct_sumElim]
        simp [herm]
      rw [e, Complex.lt_def]
      refine ⟨?_, ?_⟩
      · rw [Complex.zero_re, Complex.add_re]
        have hKn := herm_nonneg (f2 K hK).2 u
        by_cases hv : v = 0
        · have hu0 : u ≠ 0 := by
            rintro rfl
            apply hx
            ext (i | i) <;> simp [hv]
          have h1 := herm_pos (hk K hK) hu0
          rw [hv]
          simpa [herm] using h1
        · exact add_pos_of_nonneg_of_pos hKn (herm_pos (f1 M hM).2 hv)
      · simp [herm_symm hMs, herm_symm hKs]
  have hs : (E * cplx A)ᴴ = -(E * cplx A) := by
    rw [hEA, fromBlocks_conjTranspose, fromBlocks_neg]
    simp only [conjTranspose_neg, conjTranspose_zero, hct, hKs, hDs, hneg, neg_zero, neg_neg]
  obtain ⟨P, d, hPd, hPe⟩ := skew_diag hE hs
  obtain ⟨l, h1, h2, h3⟩ := eig_of_diag hPd hPe
  refine ⟨l, h1, h2, fun p hp => ?_⟩
  obtain ⟨k, hk⟩ := h3 p hp
  rw [hk]; simp

/-- The solver returns independent eigenvectors whenever there is a complete set of them. -/
def Full (la : Lapack) : Prop := ∀ {N : ℕ} (A : Matrix (Fin N ⊕ Fin N) (Fin N ⊕ Fin N) ℝ),
  (∃ l, EigOk A l ∧ (columns l).det ≠ 0) → (columns (la.eig A)).det ≠ 0

theorem lapack_full_exists : ∃ la, LapackOk la ∧ Full la := by
  classical
  obtain ⟨la, hla⟩ := lapack_exists
  refine ⟨⟨fun A => if h : ∃ l, EigOk A l ∧ (columns l).det ≠ 0 then h.choose else la.eig A, fun _ _ => none⟩,
    ⟨fun A => ?_, fun _ _ _ h => by simp at h⟩, fun A h => ?_⟩
  · by_cases h : ∃ l, EigOk A l ∧ (columns l).det ≠ 0
    · simp only [dif_pos h]; exact h.choose_spec.1
    · simp only [dif_neg h]; exact hla.eig A
  · simp only [dif_pos h]; exact h.choose_spec.2

/-- With independent eigenvectors the transfer matrix exists. -/
theorem transfer_exists (hla : LapackOk la) (hA : r.A ω = .ok A) (hN : 0 < r.ndof)
    (hd : (columns (la.eig A)).det ≠ 0) : ∃ H, r.transfer_matrix la ω = .ok H := by
  obtain ⟨-, hlen⟩ := eig_conj (hla.eig A)
  have hlen' : (la.eig A).length = r.ndof + r.ndof := by omega
  obtain ⟨s, hs⟩ := lti_exists hA
  obtain ⟨idx, hidx, -⟩ := C36_index (l := (la.eig A).map Prod.fst) (n := r.ndof) (by simpa using hlen)
  have hne : la.eig A ≠ [] := by intro h; rw [h] at hlen; simp at hlen; omega
  obtain ⟨l, hl⟩ : ∃ l, sorted (la.eig A) = .ok l := by
    unfold sorted
    rw [hidx]
    simp only [bind, Except.bind]
    rw [if_neg hne]
    exact ⟨_, rfl⟩
  have hp := (sorted_ok hl).1
  have hll : l.length = r.ndof + r.ndof := by rw [hp.length_eq, hlen']
  have hdet : (columns l).det ≠ 0 := by
    rw [columns_det_iff hll]
    rw [columns_det_iff hlen'] at hd
    have : {x | ∃ p ∈ l, p.2 = x} = {x | ∃ p ∈ la.eig A, p.2 = x} := by
      ext x
      simp only [Set.mem_setOf_eq, hp.mem_iff]
    rw [this, hd]
  have he : r.eigen la ω 12 none true false = .ok l := by
    unfold eigen
    simp only [hA, bind, Except.bind, Bool.false_eq_true, if_false, if_true]
    exact hl
  unfold transfer_matrix
  simp only [hs, he, bind, Except.bind]
  exact ⟨_, modalSum_ok.2 ⟨hll, hdet, _, rfl, rfl⟩⟩

/-- **C24**, **C49** For a passive undamped rotor held by its bearings the transfer matrix exists at every speed and,
where the dynamic stiffness is not singular, is its inverse. -/
theorem C49_transfer (hla : LapackOk la) (hfull : Full la) (h : init pd fuel a = some (.ok r))
    (hf : ∀ e ∈ r.elements, Fits r.number_dof e) (hp : Passive r ω) (hN : 0 < r.ndof)
    (hu : ∀ C, r.C ω = .ok C → ∀ v, v ⬝ᵥ (C *ᵥ v) = 0)
    (hk : ∀ K, r.K ω = .ok K → ∀ v ≠ 0, 0 < v ⬝ᵥ (K *ᵥ v)) (hA : r.A ω (some ω) = .ok A) :
    ∃ H M K C G, r.transfer_matrix la ω = .ok H ∧ r.M (some ω) = .ok M ∧ r.K ω = .ok K ∧ r.C ω = .ok C ∧
      r.G = .ok G ∧ ((dynStiff M (C + ω • G) K (Complex.I * ω)).det ≠ 0 →
        dynStiff M (C + ω • G) K (Complex.I * ω) * H = 1) := by
  obtain ⟨l, hl, hd, -⟩ := C49_complete h hf hp hA hu hk
  have hA' : r.A ω = .ok A := by simpa [Rotor.A] using hA
  obtain ⟨H, hH⟩ := transfer_exists hla hA' hN (hfull A ⟨l, hl, hd⟩)
  obtain ⟨M, K, C, G, hM, hK, hC, hG, -⟩ := A_ok.1 hA'
  exact ⟨H, M, K, C, G, hH, hM, hK, hC, hG, C24_transfer hla hH hM hK hC hG⟩

/-- A rotor on two bearings for which the transfer matrix exists at every speed, and at frequency 0 is the inverse of
the stiffness: the hypotheses of `C24_transfer`, `C24_freq_response` and `C49_transfer` can be met. -/
example : ∃ la r, LapackOk la ∧ init RotorLemmas.exPandas 10 (twoArgs 0 0) = some (.ok r) ∧
    (∀ ω, ∃ H, r.transfer_matrix la ω = .ok H) ∧ (∃ res, r.run_freq_response la [0, 1, 100] = .ok res) ∧
    ∃ H M K C G, r.transfer_matrix la 0 = .ok H ∧ r.M (some 0) = .ok M ∧ r.K 0 = .ok K ∧ r.C 0 = .ok C ∧
      r.G = .ok G ∧ (dynStiff M (C + (0 : ℝ) • G) K (Complex.I * (0 : ℝ))).det ≠ 0 ∧ cplx K * H = 1 := by
  obtain ⟨la, hla, hfull⟩ := lapack_full_exists
  obtain ⟨r, h1, h2, h3, h4, h5, h6, h7⟩ := two_undamped
  have key : ∀ ω, ∃ H M K C G, r.transfer_matrix la ω = .ok H ∧ r.M (some ω) = .ok M ∧ r.K ω = .ok K ∧ r.C ω = .ok C ∧
      r.G = .ok G ∧ ((dynStiff M (C + ω • G) K (Complex.I * ω)).det ≠ 0 →
        dynStiff M (C + ω • G) K (Complex.I * ω) * H = 1) := by
    intro ω
    obtain ⟨A, hA⟩ := h7 ω ω
    exact C49_transfer hla hfull h1 h2 (h3 ω) h4 (h6 ω) (h5 ω) hA
  have key' : ∀ ω, ∃ H, r.transfer_matrix la ω = .ok H := fun ω => by
    obtain ⟨H, -, -, -, -, hH, -⟩ := key ω; exact ⟨H, hH⟩
  refine ⟨la, r, hla, h1, key', ?_, ?_⟩
  · obtain ⟨H0, e0⟩ := key' 0
    obtain ⟨H1, e1⟩ := key' 1
    obtain ⟨H2, e2⟩ := key' 100
    simp only [run_freq_response, List.mapM_cons, List.mapM_nil, e0, e1, e2, bind, Except.bind, pure, Except.pure]
    exact ⟨_, rfl⟩
  · obtain ⟨H, M, K, C, G, hH, hM, hK, hC, hG, hd⟩ := key 0
    have e : dynStiff M (C + (0 : ℝ) • G) K (Complex.I * (0 : ℝ)) = cplx K := by simp [dynStiff]
    rw [e] at hd
    have hKd : (cplx K).det ≠ 0 := by
      rw [cplx_det]
      exact_mod_cast det_of_pos (h5 0 K hK)
    exact ⟨H, M, K, C, G, hH, hM, hK, hC, hG, by rwa [e], hd hKd⟩

/-- `run_modal` with the dense solver returns for it at every speed (`C48_modal`, `C36_eigen`). -/
example : ∃ la r, LapackOk la ∧ init RotorLemmas.exPandas 10 (twoArgs 1 10) = some (.ok r) ∧
    ∀ Ω, ∃ m M K C G, r.run_modal la Ω 12 false = .ok m ∧ r.M (some Ω) = .ok M ∧ r.K Ω = .ok K ∧
      r.C Ω = .ok C ∧ r.G = .ok G := by
  obtain ⟨la, hla⟩ := lapack_exists
  obtain ⟨r, h1, h2, -, -, -, -, -, -, -, h8⟩ := two_facts 1 10 (by norm_num) (by norm_num)
  refine ⟨la, r, hla, h1, fun Ω => ?_⟩
  obtain ⟨A, hA⟩ := h8 Ω Ω
  have hA' : r.A Ω = .ok A := by simpa [Rotor.A] using hA
  obtain ⟨M, K, C, G, hM, hK, hC, hG, -⟩ := A_ok.1 hA'
  obtain ⟨-, hlen⟩ := eig_conj (hla.eig A)
  obtain ⟨idx, hidx, -⟩ := C36_index (l := (la.eig A).map Prod.fst) (n := r.ndof) (by simpa using hlen)
  have hN : 0 < r.ndof := by rw [RotorLemmas.ndof_eq (RotorLemmas.init_ok h1), h2, Ross.Spec.size]; omega
  have hne : la.eig A ≠ [] := by intro h; rw [h] at hlen; simp at hlen; omega
  obtain ⟨l, hl⟩ : ∃ l, sorted (la.eig A) = .ok l := by
    unfold sorted
    rw [hidx]
    simp only [bind, Except.bind]
    rw [if_neg hne]
    exact ⟨_, rfl⟩
  unfold run_modal eigen
  simp only [hA', hl, bind, Except.bind, Bool.false_eq_true, if_false, if_true, pure, Except.pure]
  exact ⟨_, M, K, C, G, rfl, hM, hK, hC, hG⟩

/-- The hypotheses of `C25_selected` on eigenvalues can be met: a solver and a system whose eigenvalues, rounded, have
distinct imaginary parts. -/
example : ∃ la, LapackOk la ∧ ((la.eig twoOsc.A).map fun p => (caround10 p.1).im).Nodup := by
  classical
  obtain ⟨la, hla⟩ := lapack_exists
  refine ⟨la, hla, ?_⟩
  have hdet : (columns twoPairs).det ≠ 0 := by
    intro h0
    have := congrArg det twoPairs_inv
    rw [det_mul, h0, zero_mul, det_one] at this
    exact zero_ne_one this
  have h1 := eigOk_of rfl twoPairs_eigen hdet
  have hp : ((la.eig twoOsc.A).map Prod.fst).Perm (twoPairs.map Prod.fst) := by
    rw [← Multiset.coe_eq_coe, (hla.eig _).values, h1.values]
  have e : ((la.eig twoOsc.A).map fun p => (caround10 p.1).im) =
      ((la.eig twoOsc.A).map Prod.fst).map fun z => (caround10 z).im := by rw [List.map_map]; rfl
  rw [e, (hp.map _).nodup_iff]
  have e : ∀ n : ℤ, around10 n = n := by
    intro n
    have : ((n : ℝ) * 10 ^ 10) = ((n * 10 ^ 10 : ℤ) : ℝ) := by push_cast; ring
    unfold around10 rint
    rw [this, Int.floor_intCast]
    simp
    ring
  have e1 := e 1; have e2 := e 2
  push_cast at e1 e2
  simp [twoPairs, caround10, around10_neg, e1, e2]
  norm_num

end Ross.Props
