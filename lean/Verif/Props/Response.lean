import Verif.Lemmas.Response
import Verif.Props.Modal

/-! # C24, C25: frequency response -/

namespace Ross.Props

open Ross Ross.Spec Ross.BearingLemmas Ross.DynamicsLemmas Ross.StateLemmas Matrix Rotor

variable {r : Rotor} {la : Lapack} {ω : ℝ} {N : ℕ}

theorem mapM_get {α β : Type} {f : α → Res β} {l : List α} {m : List β} (h : l.mapM f = .ok m) :
    m.length = l.length ∧ ∀ k (hk : k < l.length), ∃ y, m[k]? = some y ∧ f l[k] = .ok y := by
  rw [mapM_ok_iff] at h
  have hlen : m.length = l.length := by simpa using (congrArg List.length h).symm
  refine ⟨hlen, fun k hk => ⟨m[k], List.getElem?_eq_getElem _, ?_⟩⟩
  have := congrArg (·[k]?) h
  simpa [hk, hlen] using this

theorem lti_ok {s : Lti r.ndof} (h : r.lti ω = .ok s) : ∃ M K C B2, r.M (some ω) = .ok M ∧ r.K ω = .ok K ∧
    r.C ω = .ok C ∧ r.A ω = .ok s.A ∧ M * B2 = 1 ∧ s.B = fromRows 0 B2 ∧ s.C = fromCols 1 0 ∧ s.D = 0 := by
  unfold lti at h
  obtain ⟨A, hA, h⟩ := bind_ok.1 h
  obtain ⟨M, hM, h⟩ := bind_ok.1 h
  obtain ⟨B2, hB, h⟩ := bind_ok.1 h
  obtain ⟨K, hK, h⟩ := bind_ok.1 h
  obtain ⟨MK, hMK, h⟩ := bind_ok.1 h
  obtain ⟨C, hC, h⟩ := bind_ok.1 h
  obtain ⟨MC, hMC, h⟩ := bind_ok.1 h
  cases h
  refine ⟨M, K, C, B2, hM, hK, hC, ?_, (laSolve_ok.1 hB).2, rfl, ?_, ?_⟩
  · simpa [Rotor.A] using hA
  · simp
  · simp

theorem lti_exists {A : Matrix (Fin r.ndof ⊕ Fin r.ndof) (Fin r.ndof ⊕ Fin r.ndof) ℝ} (hA : r.A ω = .ok A) :
    ∃ s, r.lti ω = .ok s := by
  obtain ⟨M, K, C, G, hM, hK, hC, hG, hd, -⟩ := A_ok.1 hA
  simp only [Option.getD_none] at hM hK hC
  have hu : IsUnit M.det := isUnit_iff_ne_zero.2 hd
  have hs : ∀ B : Matrix (Fin r.ndof) (Fin r.ndof) ℝ, laSolve M B = .ok (M⁻¹ * B) := by
    intro B; rw [laSolve_ok]; exact ⟨hd, by rw [← Matrix.mul_assoc, Matrix.mul_nonsing_inv _ hu, Matrix.one_mul]⟩
  have hA' : r.A ω (some ω) = .ok A := by simpa [Rotor.A] using hA
  unfold lti
  simp only [Option.getD_none, hA', hM, hK, hC, hs, bind, Except.bind, pure, Except.pure]
  exact ⟨_, rfl⟩

/-- What `transfer_matrix` computes, in terms of the eigenpairs in the order of `C36_index`. -/
theorem transfer_ok {modes : Option (List ℤ)} {H : Matrix (Fin r.ndof) (Fin r.ndof) ℂ}
    (h : r.transfer_matrix la ω none modes = .ok H) :
    ∃ s l idx, r.lti ω = .ok s ∧ l.Perm (la.eig s.A) ∧ sorted (la.eig s.A) = .ok l ∧
      l.length = r.ndof + r.ndof ∧ (columns l).det ≠ 0 ∧ modeIdx r.ndof modes = .ok idx ∧
      H = (idx.map (contrib s ω l)).sum := by
  unfold transfer_matrix at h
  obtain ⟨s, hs, h⟩ := bind_ok.1 h
  obtain ⟨l, hl, h⟩ := bind_ok.1 h
  obtain ⟨h1, h2, idx, h3, h4⟩ := modalSum_ok.1 h
  obtain ⟨M, K, C, B2, -, -, -, hA, -, -, -, hD⟩ := lti_ok hs
  unfold eigen at hl
  obtain ⟨A, hA', hl⟩ := bind_ok.1 hl
  rw [hA] at hA'
  cases hA'
  simp only [Bool.false_eq_true, if_false, if_true] at hl
  refine ⟨s, l, idx, hs, (sorted_ok hl).1, hl, h1, h2, h3, ?_⟩
  rw [h4, hD]
  ext i j; simp [toC]

/-- **C24** The transfer matrix is the inverse of the dynamic stiffness `K - ω² M + j ω (C + ω G)` at the speed
and frequency `ω`. -/
theorem C24_transfer (hla : LapackOk la) {H : Matrix (Fin r.ndof) (Fin r.ndof) ℂ}
    (h : r.transfer_matrix la ω = .ok H) {M K C G : Matrix (Fin r.ndof) (Fin r.ndof) ℝ}
    (hM : r.M (some ω) = .ok M) (hK : r.K ω = .ok K) (hC : r.C ω = .ok C) (hG : r.G = .ok G)
    (hd : (dynStiff M (C + ω • G) K (Complex.I * ω)).det ≠ 0) :
    dynStiff M (C + ω • G) K (Complex.I * ω) * H = 1 := by
  obtain ⟨s, l, idx, hs, hp, -, hl, hdet, hidx, rfl⟩ := transfer_ok h
  obtain ⟨M', K', C', B2, hM', hK', hC', hA, hB2, hB, hCm, -⟩ := lti_ok hs
  rw [hM] at hM'; rw [hK] at hK'; rw [hC] at hC'
  cases hM'; cases hK'; cases hC'
  cases hidx
  have hv : ∀ p ∈ l, IsEigen s.A p.1 p.2 := fun p hpl => (hla.eig s.A).vectors p (hp.mem_iff.1 hpl)
  have hne : ∀ p ∈ l, p.1 ≠ Complex.I * ω := by
    intro p hpl he
    have := hv p hpl
    rw [C23_eigen (f := none) (sync := false) hA hM hK hC hG, he] at this
    obtain ⟨v, -, hv0, hv1⟩ := this
    exact hd (Matrix.exists_mulVec_eq_zero_iff.1 ⟨v, hv0, hv1⟩)
  obtain ⟨S, hS, hsum⟩ := full_sum (s := s) hl hdet hv hne
  rw [hsum, hCm, hB]
  obtain ⟨hdM, X, Y, hX, hY, hAb⟩ := blocks (f := none) (sync := false) hA hM hK hC hG
  set W := S * toC (fromRows 0 B2) with hW
  have e0 : ((Complex.I * ω) • (1 : Matrix _ _ ℂ) - cplx s.A) * W = toC (fromRows 0 B2) := by
    rw [hW, ← Matrix.mul_assoc, hS, Matrix.one_mul]
  obtain ⟨W1, W2, hW12⟩ : ∃ W1 W2, W = fromRows W1 W2 := ⟨_, _, (fromRows_toRows W).symm⟩
  have hAc : cplx s.A = fromBlocks 0 1 (cplx X) (cplx Y) := by
    rw [hAb]; ext (i | i) (j | j) <;> simp [cplx, Matrix.one_apply, apply_ite]
  have hBc : toC (fromRows (0 : Matrix (Fin r.ndof) (Fin r.ndof) ℝ) B2) = fromRows 0 (cplx B2) := by
    ext (i | i) j <;> simp [toC, cplx]
  rw [hW12, hAc, hBc, Matrix.sub_mul, Matrix.smul_mul, Matrix.one_mul, fromBlocks_mul_fromRows] at e0
  have e1 : (Complex.I * ω) • W1 = W2 := by
    ext i j
    have := congrFun (congrFun e0 (Sum.inl i)) j
    simp only [Matrix.sub_apply, Matrix.smul_apply, fromRows_apply_inl, Matrix.zero_mul, Matrix.one_mul,
      Matrix.add_apply, Matrix.zero_apply, zero_add] at this
    rw [Matrix.smul_apply]
    exact sub_eq_zero.1 this
  have e2 : (Complex.I * ω) • W2 - (cplx X * W1 + cplx Y * W2) = cplx B2 := by
    ext i j
    have := congrFun (congrFun e0 (Sum.inr i)) j
    simpa only [Matrix.sub_apply, Matrix.smul_apply, fromRows_apply_inr] using this
  have hH : toC (fromCols (1 : Matrix (Fin r.ndof) (Fin r.ndof) ℝ) 0) * S * toC (fromRows 0 B2) = W1 := by
    rw [Matrix.mul_assoc, ← hW, hW12]
    have : toC (fromCols (1 : Matrix (Fin r.ndof) (Fin r.ndof) ℝ) (0 : Matrix (Fin r.ndof) (Fin r.ndof) ℝ)) =
        fromCols 1 0 := by
      ext i (j | j) <;> simp [toC, Matrix.one_apply, apply_ite]
    rw [this, fromCols_mul_fromRows, Matrix.one_mul, Matrix.zero_mul, add_zero]
  rw [hH]
  have e3 := congrArg (cplx M * ·) e2
  have hX' : cplx M * cplx X = -cplx K := by
    rw [← cplx_mul, hX]; ext i j; simp [cplx]
  have hY' : cplx M * cplx Y = -cplx (C + ω • G) := by
    rw [← cplx_mul, hY]; ext i j; simp [cplx]
  have hB' : cplx M * cplx B2 = 1 := by
    rw [← cplx_mul, hB2]; ext i j; simp [cplx, Matrix.one_apply, apply_ite]
  simp only [Matrix.mul_sub, Matrix.mul_add, ← Matrix.mul_assoc, hX', hY', hB', ← e1] at e3
  rw [← e3, dynStiff, Matrix.add_mul, Matrix.add_mul]
  simp only [Matrix.mul_smul, Matrix.smul_mul, Matrix.neg_mul, smul_smul]
  module

/-- **C24** `run_freq_response` gives for every frequency of the range, in order, the transfer matrix `H`, the velocity
response `j ω H` and the acceleration response `(j ω)² H`. -/
theorem C24_freq_response {speeds : List ℝ} {modes : Option (List ℤ)} {res : List (FreqResp r.ndof)}
    (h : r.run_freq_response la speeds modes = .ok res) : res.length = speeds.length ∧
    ∀ k (hk : k < speeds.length), ∃ R, res[k]? = some R ∧
      r.transfer_matrix la speeds[k] none modes = .ok R.freq_resp ∧
      R.velc_resp = (Complex.I * speeds[k]) • R.freq_resp ∧
      R.accl_resp = (Complex.I * speeds[k]) ^ 2 • R.freq_resp := by
  unfold run_freq_response at h
  obtain ⟨hlen, hget⟩ := mapM_get h
  refine ⟨hlen, fun k hk => ?_⟩
  obtain ⟨R, hR, hf⟩ := hget k hk
  refine ⟨R, hR, ?_⟩
  obtain ⟨H, hH, hf⟩ := bind_ok.1 hf
  cases hf
  refine ⟨hH, rfl, ?_⟩
  rw [mul_pow, Complex.I_sq, neg_one_mul]

end Ross.Props
