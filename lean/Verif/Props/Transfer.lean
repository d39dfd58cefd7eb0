import Verif.Model.Export
import Verif.Props.FreqPlot
import Verif.Lemmas.Place

/-! # C113, C114: excitation at another frequency than the speed, and exported matrices -/

namespace Ross.Props

open Ross Ross.Spec Ross.BearingLemmas Ross.DynamicsLemmas Ross.StateLemmas Ross.RotorLemmas Ross.PlaceLemmas Matrix Rotor

variable {r : Rotor} {la : Lapack} {Ω f : ℝ}

/-- **C113** for a rotor whose matrices do not depend on frequency the excitation frequency is ignored. -/
theorem C113_ignored (hM : r.M (some f) = r.M (some Ω)) (hK : r.K f = r.K Ω) (hC : r.C f = r.C Ω)
    (modes : Option (List ℤ)) : r.transfer_matrix la Ω (some f) modes = r.transfer_matrix la Ω none modes := by
  unfold transfer_matrix eigen Rotor.A
  simp only [Option.getD_some, Option.getD_none]
  rw [hM, hK, hC]

/-- **C113** at an excitation frequency equal to the speed the transfer matrix inverts the dynamic stiffness. -/
theorem C113_equal_partial (hla : LapackOk la) {H : Matrix (Fin r.ndof) (Fin r.ndof) ℂ}
    (h : r.transfer_matrix la Ω (some Ω) = .ok H) {M K C G : Matrix (Fin r.ndof) (Fin r.ndof) ℝ}
    (hM : r.M (some Ω) = .ok M) (hK : r.K Ω = .ok K) (hC : r.C Ω = .ok C) (hG : r.G = .ok G)
    (hd : (dynStiff M (C + Ω • G) K (Complex.I * Ω)).det ≠ 0) :
    dynStiff M (C + Ω • G) K (Complex.I * Ω) * H = 1 :=
  C24_transfer hla (by rw [← h, C113_ignored rfl rfl rfl]) hM hK hC hG hd

/-- **C113** for a rotor whose matrices do not depend on frequency, the transfer matrix at any excitation frequency other than
plus or minus the speed is not the inverse of the dynamic stiffness at this frequency. -/
theorem C113_frequency_false (hla : LapackOk la) {H : Matrix (Fin r.ndof) (Fin r.ndof) ℂ} (hN : 0 < r.ndof)
    (h : r.transfer_matrix la Ω (some f) = .ok H) {M K C G : Matrix (Fin r.ndof) (Fin r.ndof) ℝ}
    (hM : ∀ ω, r.M (some ω) = .ok M) (hK : ∀ ω, r.K ω = .ok K) (hC : ∀ ω, r.C ω = .ok C) (hG : r.G = .ok G)
    (hd : (dynStiff M (C + Ω • G) K (Complex.I * Ω)).det ≠ 0) (h1 : f ≠ Ω) (h2 : f ≠ -Ω) :
    dynStiff M (C + Ω • G) K (Complex.I * f) * H ≠ 1 := by
  rw [C113_ignored ((hM f).trans (hM Ω).symm) ((hK f).trans (hK Ω).symm) ((hC f).trans (hC Ω).symm)] at h
  have e1 := C24_transfer hla h (hM Ω) (hK Ω) (hC Ω) hG hd
  intro e2
  obtain ⟨s, l, idx, hs, -⟩ := transfer_ok h
  obtain ⟨M', K', C', B2, hM', -, -, -, hB2, -⟩ := lti_ok hs
  rw [hM] at hM'
  cases hM'
  have e3 : dynStiff M (C + Ω • G) K (Complex.I * f) = dynStiff M (C + Ω • G) K (Complex.I * Ω) := by
    have hH : H * dynStiff M (C + Ω • G) K (Complex.I * Ω) = 1 := mul_eq_one_comm.1 e1
    rw [← Matrix.mul_one (dynStiff M (C + Ω • G) K (Complex.I * f)), ← hH, ← Matrix.mul_assoc, e2, Matrix.one_mul]
  have hM0 : M = 0 := by
    ext i j
    have := congrArg Complex.re (congrFun (congrFun e3 i) j)
    simp [dynStiff, cplx, mul_pow, ← Complex.ofReal_pow] at this
    rcases this with h3 | h3
    · rcases sq_eq_sq_iff_eq_or_eq_neg.1 h3 with h3 | h3
      · exact absurd h3 h1
      · exact absurd h3 h2
    · exact h3
  rw [hM0, Matrix.zero_mul] at hB2
  have := congrFun (congrFun hB2 ⟨0, hN⟩) ⟨0, hN⟩
  simp at this

/-- **C114** the exported matrices are those of the equation of motion at the speed: their dynamic stiffness inverts the
transfer matrix. -/
theorem C114_response (hla : LapackOk la) {H : Matrix (Fin r.ndof) (Fin r.ndof) ℂ} (h : r.transfer_matrix la Ω = .ok H)
    {x : MatFile r.ndof} (hx : r.saveMat Ω = .ok x) (hd : (dynStiff x.M (x.C + Ω • x.G) x.K (Complex.I * Ω)).det ≠ 0) :
    dynStiff x.M (x.C + Ω • x.G) x.K (Complex.I * Ω) * H = 1 := by
  unfold saveMat at hx
  obtain ⟨M, hM, hx⟩ := bind_ok.1 hx
  obtain ⟨K, hK, hx⟩ := bind_ok.1 hx
  obtain ⟨C, hC, hx⟩ := bind_ok.1 hx
  obtain ⟨G, hG, hx⟩ := bind_ok.1 hx
  cases hx
  exact C24_transfer hla h hM hK hC hG hd

/-- **C114** the eigenvalues of the rotor are those of the exported matrices, also when the frequency is not the speed. -/
theorem C114_modes {x : MatFile r.ndof} (hx : r.saveMat Ω (some f) = .ok x)
    {A : Matrix (Fin r.ndof ⊕ Fin r.ndof) (Fin r.ndof ⊕ Fin r.ndof) ℝ} (hA : r.A Ω (some f) = .ok A) (s : ℂ)
    (w : Fin r.ndof ⊕ Fin r.ndof → ℂ) :
    IsEigen A s w ↔ ∃ v, w = Sum.elim v (s • v) ∧ IsMode x.M (x.C + Ω • x.G) x.K s v := by
  unfold saveMat at hx
  obtain ⟨M, hM, hx⟩ := bind_ok.1 hx
  obtain ⟨K, hK, hx⟩ := bind_ok.1 hx
  obtain ⟨C, hC, hx⟩ := bind_ok.1 hx
  obtain ⟨G, hG, hx⟩ := bind_ok.1 hx
  cases hx
  exact C23_eigen (f := some f) (sync := false) hA hM hK hC hG s w

/-- A rotor on two bearings at rest: the transfer matrix for an excitation at 100 rad/s is not the inverse of the dynamic
stiffness at this frequency. -/
example : ∃ (la : Lapack) (r : Rotor) (H : Matrix (Fin r.ndof) (Fin r.ndof) ℂ) (x : MatFile r.ndof),
    LapackOk la ∧ r.transfer_matrix la 0 (some 100) = .ok H ∧ 0 < r.ndof ∧ r.saveMat 0 = .ok x ∧
    (dynStiff x.M (x.C + (0 : ℝ) • x.G) x.K (Complex.I * (0 : ℝ))).det ≠ 0 ∧
    dynStiff x.M (x.C + (0 : ℝ) • x.G) x.K (Complex.I * (100 : ℝ)) * H ≠ 1 := by
  obtain ⟨la, r, hla, h1, M, K, C, G, hc, hG, hd, -, ω, res, -, hres, -⟩ := two_runs
  unfold run_freq_response at hres
  rw [List.mapM_cons] at hres
  obtain ⟨X, hX, -⟩ := bind_ok.1 hres
  obtain ⟨H, hH, -⟩ := bind_ok.1 hX
  have hM := fun ω => (hc ω).1
  have hK := fun ω => (hc ω).2.1
  have hC := fun ω => (hc ω).2.2
  have hN : 0 < r.ndof := by
    obtain ⟨r', g1, -, -, g4, -⟩ := two_undamped
    obtain rfl : r = r' := by rw [h1] at g1; simpa using g1
    exact g4
  have hH' : r.transfer_matrix la 0 (some 100) = .ok H := by
    rw [← hH]
    exact C113_ignored ((hM _).trans (hM _).symm) ((hK _).trans (hK _).symm) ((hC _).trans (hC _).symm) none
  refine ⟨la, r, H, ⟨M, K, C, G, r.nodes_pos⟩, hla, hH', hN, ?_, hd,
    C113_frequency_false hla hN hH' hM hK hC hG hd (by norm_num) (by norm_num)⟩
  simp only [saveMat, Option.getD_none, hM, hK, hC, hG, bind, Except.bind, pure, Except.pure]

end Ross.Props
