import Verif.Model.FreqPlot
import Verif.Spec.FreqPlot
import Verif.Props.Response
import Verif.Props.Undamped
import Verif.Lemmas.Readout

/-!
# C107: plots of frequency responses
-/

namespace Ross.Props

open Ross Ross.Spec Matrix Rotor

variable {r : Rotor} {la : Lapack}

theorem entries_ok (resp : List (FreqResp r.ndof)) (k : RespKind) (inp out : Fin r.ndof) :
    r.freqEntries resp (some k) inp out = .ok (resp.map fun x => x.get k inp out) := by
  unfold freqEntries
  simp

theorem get_rated {speeds : List ℝ} {modes : Option (List ℤ)} {res : List (FreqResp r.ndof)}
    (h : r.run_freq_response la speeds modes = .ok res) {i : ℕ} (hi : i < speeds.length) :
    ∃ R H, res[i]? = some R ∧ r.transfer_matrix la speeds[i] none modes = .ok H ∧
      ∀ k a b, R.get k a b = rated speeds[i] (H a b) k := by
  obtain ⟨-, hg⟩ := C24_freq_response h
  obtain ⟨R, hR, hH, hv, ha⟩ := hg i hi
  refine ⟨R, _, hR, hH, fun k a b => ?_⟩
  cases k with
  | displacement => rfl
  | velocity => show R.velc_resp a b = _; rw [hv]; rfl
  | acceleration => show R.accl_resp a b = _; rw [ha]; rfl

/-- A matrix with a right inverse: the columns of the inverse are the responses to unit forces. -/
theorem unit_response {n : Type} [Fintype n] [DecidableEq n] {D H : Matrix n n ℂ} (h : D * H = 1) {inp : n}
    {x : n → ℂ} (hx : UnitResponse D inp x) (out : n) : x out = H out inp := by
  have h' : H * D = 1 := _root_.mul_eq_one_comm.1 h
  have : x = H *ᵥ Pi.single inp 1 := by
    rw [← hx, Matrix.mulVec_mulVec, h', Matrix.one_mulVec]
  rw [this, Matrix.mulVec_single_one]
  rfl

/-- C107: the curve for `inp` and `out` is the motion at `inp` under a unit force at `out`. -/
theorem C107_swapped (hla : LapackOk la) {speeds : List ℝ} {res : List (FreqResp r.ndof)}
    (h : r.run_freq_response la speeds = .ok res) {i : ℕ} (hi : i < speeds.length)
    {M K C G : Matrix (Fin r.ndof) (Fin r.ndof) ℝ}
    (hM : r.M (some speeds[i]) = .ok M) (hK : r.K speeds[i] = .ok K) (hC : r.C speeds[i] = .ok C) (hG : r.G = .ok G)
    (hd : (dynStiff M (C + speeds[i] • G) K (Complex.I * speeds[i])).det ≠ 0)
    {inp out : Fin r.ndof} {x : Fin r.ndof → ℂ}
    (hx : UnitResponse (dynStiff M (C + speeds[i] • G) K (Complex.I * speeds[i])) out x)
    (k : RespKind) (f : ℝ) (u : PhaseUnits) :
    ∃ A P B, r.freqMagnitude res (some k) f inp out = .ok A ∧ r.freqPhase res (some k) u inp out = .ok P ∧
      r.freqPolar res (some k) f u inp out = .ok B ∧
      A.length = speeds.length ∧ P.length = speeds.length ∧ B = A.zip P ∧
      A[i]? = some (f * ‖rated speeds[i] (x inp) k‖) ∧ P[i]? = some (shownPhase u (rated speeds[i] (x inp) k)) := by
  obtain ⟨R, H, hR, hH, hg⟩ := get_rated h hi
  obtain ⟨hl, -⟩ := C24_freq_response h
  have e := unit_response (C24_transfer hla hH hM hK hC hG hd) hx inp
  unfold freqMagnitude freqPhase freqPolar
  rw [entries_ok]
  refine ⟨_, _, _, rfl, rfl, rfl, by simp [hl], by simp [hl], ?_, ?_, ?_⟩
  · rw [List.zip_map']
  · simp [hR, hg, e]
  · simp [hR, hg, e]

/-- C107: when the dynamic stiffness is symmetric, that is the motion at `out` under a unit force at `inp`. -/
theorem C107_response_partial (hla : LapackOk la) {speeds : List ℝ} {res : List (FreqResp r.ndof)}
    (h : r.run_freq_response la speeds = .ok res) {i : ℕ} (hi : i < speeds.length)
    {M K C G : Matrix (Fin r.ndof) (Fin r.ndof) ℝ}
    (hM : r.M (some speeds[i]) = .ok M) (hK : r.K speeds[i] = .ok K) (hC : r.C speeds[i] = .ok C) (hG : r.G = .ok G)
    (hd : (dynStiff M (C + speeds[i] • G) K (Complex.I * speeds[i])).det ≠ 0)
    (hs : (dynStiff M (C + speeds[i] • G) K (Complex.I * speeds[i]))ᵀ =
      dynStiff M (C + speeds[i] • G) K (Complex.I * speeds[i]))
    {inp out : Fin r.ndof} {x : Fin r.ndof → ℂ}
    (hx : UnitResponse (dynStiff M (C + speeds[i] • G) K (Complex.I * speeds[i])) inp x)
    (k : RespKind) (f : ℝ) (u : PhaseUnits) :
    ∃ A P B, r.freqMagnitude res (some k) f inp out = .ok A ∧ r.freqPhase res (some k) u inp out = .ok P ∧
      r.freqPolar res (some k) f u inp out = .ok B ∧ B = A.zip P ∧
      A[i]? = some (f * ‖rated speeds[i] (x out) k‖) ∧ P[i]? = some (shownPhase u (rated speeds[i] (x out) k)) := by
  obtain ⟨R, H, hR, hH, hg⟩ := get_rated h hi
  have hDH := C24_transfer hla hH hM hK hC hG hd
  have hy : UnitResponse (dynStiff M (C + speeds[i] • G) K (Complex.I * speeds[i])) out (H *ᵥ Pi.single out 1) := by
    unfold UnitResponse
    rw [Matrix.mulVec_mulVec, hDH, Matrix.one_mulVec]
  obtain ⟨A, P, B, h1, h2, h3, -, -, h4, h5, h6⟩ := C107_swapped hla h hi hM hK hC hG hd hy (inp := inp) k f u
  have hsym : Hᵀ = H := by
    have h1 : H * dynStiff M (C + speeds[i] • G) K (Complex.I * speeds[i]) = 1 := _root_.mul_eq_one_comm.1 hDH
    have h2 : dynStiff M (C + speeds[i] • G) K (Complex.I * speeds[i]) * Hᵀ = 1 := by
      have := congrArg Matrix.transpose h1
      rwa [Matrix.transpose_mul, hs, Matrix.transpose_one] at this
    calc Hᵀ = H * dynStiff M (C + speeds[i] • G) K (Complex.I * speeds[i]) * Hᵀ := by rw [h1, one_mul]
      _ = H := by rw [Matrix.mul_assoc, h2, mul_one]
  have e : (H *ᵥ Pi.single out 1) inp = x out := by
    rw [unit_response hDH hx out, Matrix.mulVec_single_one]
    show H inp out = H out inp
    conv_lhs => rw [← hsym]
    rfl
  rw [e] at h5 h6
  exact ⟨A, P, B, h1, h2, h3, h4, h5, h6⟩

theorem phase_inj {z w : ℂ} (h1 : ‖z‖ = ‖w‖) (h2 : shownPhase ⟨true, 1⟩ z = shownPhase ⟨true, 1⟩ w) : z = w := by
  have key : ∀ z : ℂ, z = ‖z‖ * Complex.exp (shownPhase ⟨true, 1⟩ z * Complex.I) := by
    intro z
    unfold shownPhase
    simp only [one_mul]
    split_ifs with h
    · rw [Complex.ofReal_add, add_mul, Complex.exp_add]
      push_cast
      rw [Complex.exp_two_pi_mul_I, mul_one, Complex.norm_mul_exp_arg_mul_I]
    · rw [Complex.norm_mul_exp_arg_mul_I]
  rw [key z, key w, h1, h2]

/-- C107 fails whenever the dynamic stiffness is not symmetric: for some `inp` and `out`, the motion at `out` under a
unit force at `inp` differs in amplitude or phase from what is plotted. -/
theorem C107_response_false (hla : LapackOk la) {speeds : List ℝ} {res : List (FreqResp r.ndof)}
    (h : r.run_freq_response la speeds = .ok res) {i : ℕ} (hi : i < speeds.length)
    {M K C G : Matrix (Fin r.ndof) (Fin r.ndof) ℝ}
    (hM : r.M (some speeds[i]) = .ok M) (hK : r.K speeds[i] = .ok K) (hC : r.C speeds[i] = .ok C) (hG : r.G = .ok G)
    (hd : (dynStiff M (C + speeds[i] • G) K (Complex.I * speeds[i])).det ≠ 0)
    (hs : (dynStiff M (C + speeds[i] • G) K (Complex.I * speeds[i]))ᵀ ≠
      dynStiff M (C + speeds[i] • G) K (Complex.I * speeds[i])) :
    ∃ (inp out : Fin r.ndof) (x : Fin r.ndof → ℂ) (A P : List ℝ),
      UnitResponse (dynStiff M (C + speeds[i] • G) K (Complex.I * speeds[i])) inp x ∧
      r.freqMagnitude res (some .displacement) 1 inp out = .ok A ∧
      r.freqPhase res (some .displacement) ⟨true, 1⟩ inp out = .ok P ∧
      (A[i]? ≠ some ‖x out‖ ∨ P[i]? ≠ some (shownPhase ⟨true, 1⟩ (x out))) := by
  obtain ⟨R, H, hR, hH, hg⟩ := get_rated h hi
  have hDH := C24_transfer hla hH hM hK hC hG hd
  have hy : ∀ o, UnitResponse (dynStiff M (C + speeds[i] • G) K (Complex.I * speeds[i])) o (H *ᵥ Pi.single o 1) := by
    intro o
    unfold UnitResponse
    rw [Matrix.mulVec_mulVec, hDH, Matrix.one_mulVec]
  have hH' : Hᵀ ≠ H := by
    intro e
    apply hs
    have h1 : H * dynStiff M (C + speeds[i] • G) K (Complex.I * speeds[i]) = 1 := _root_.mul_eq_one_comm.1 hDH
    have h2 : H * (dynStiff M (C + speeds[i] • G) K (Complex.I * speeds[i]))ᵀ = 1 := by
      have := congrArg Matrix.transpose hDH
      rwa [Matrix.transpose_mul, e, Matrix.transpose_one] at this
    calc (dynStiff M (C + speeds[i] • G) K (Complex.I * speeds[i]))ᵀ
        = dynStiff M (C + speeds[i] • G) K (Complex.I * speeds[i]) * H *
          (dynStiff M (C + speeds[i] • G) K (Complex.I * speeds[i]))ᵀ := by rw [hDH, one_mul]
      _ = _ := by rw [Matrix.mul_assoc, h2, mul_one]
  obtain ⟨inp, out, hne⟩ : ∃ inp out, H inp out ≠ H out inp := by
    by_contra hc
    push Not at hc
    exact hH' (by ext a b; exact hc b a)
  obtain ⟨A, P, B, h1, h2, -, -, -, -, h5, h6⟩ :=
    C107_swapped hla h hi hM hK hC hG hd (hy out) (inp := inp) .displacement 1 ⟨true, 1⟩
  refine ⟨inp, out, _, A, P, hy inp, h1, h2, ?_⟩
  by_contra hc
  push Not at hc
  rw [h5, h6] at hc
  have e1 : (H *ᵥ Pi.single out 1) inp = H inp out := by rw [Matrix.mulVec_single_one]; rfl
  have e2 : (H *ᵥ Pi.single inp 1) out = H out inp := by rw [Matrix.mulVec_single_one]; rfl
  simp only [rated, e1, e2, one_mul, Option.some.injEq] at hc
  exact hne (phase_inj hc.1 hc.2)

/-- With symmetric mass, damping and stiffness, that happens at every speed as soon as there is a gyroscopic matrix. -/
theorem C107_gyro_false {N : ℕ} {M K C G : Matrix (Fin N) (Fin N) ℝ} {ω : ℝ} (hM : Mᵀ = M) (hK : Kᵀ = K)
    (hC : Cᵀ = C) (hG : Gᵀ = -G) (h0 : G ≠ 0) (hω : ω ≠ 0) :
    (dynStiff M (C + ω • G) K (Complex.I * ω))ᵀ ≠ dynStiff M (C + ω • G) K (Complex.I * ω) := by
  intro e
  apply h0
  ext a b
  have hab := congrFun (congrFun e a) b
  have m := congrFun (congrFun hM a) b
  have kk := congrFun (congrFun hK a) b
  have c := congrFun (congrFun hC a) b
  have g := congrFun (congrFun hG a) b
  simp only [Matrix.transpose_apply, Matrix.neg_apply] at m kk c g
  simp only [dynStiff, cplx, Matrix.transpose_apply, Matrix.add_apply, Matrix.smul_apply, Matrix.map_apply,
    smul_eq_mul, m, kk, c, g] at hab
  push_cast at hab
  have hz : (2 * Complex.I * (ω : ℂ) ^ 2) * (G a b : ℂ) = 0 := by linear_combination -hab
  have h2 : (2 * Complex.I * (ω : ℂ) ^ 2) ≠ 0 := by
    refine mul_ne_zero (mul_ne_zero two_ne_zero Complex.I_ne_zero) (pow_ne_zero 2 ?_)
    exact_mod_cast hω
  have := (mul_eq_zero.1 hz).resolve_left h2
  exact_mod_cast this

/-- C107: phases in radians lie in the first turn. -/
theorem C107_phase_radian (z : ℂ) : IsPhase (2 * Real.pi) (shownPhase ⟨true, 1⟩ z) z := by
  have hp := Real.pi_pos
  have h1 := Complex.neg_pi_lt_arg z
  have h2 := Complex.arg_le_pi z
  have key : ∀ p : ℝ, Complex.exp (Complex.I * (2 * Real.pi * (p / (2 * Real.pi)) : ℝ)) = Complex.exp (p * Complex.I) := by
    intro p
    rw [mul_div_cancel₀ _ (by positivity), mul_comm]
  unfold IsPhase
  rw [key]
  unfold shownPhase
  simp only [one_mul, if_true]
  split_ifs with h
  · refine ⟨by linarith, by linarith, ?_⟩
    rw [Complex.ofReal_add, add_mul, Complex.exp_add]
    push_cast
    rw [Complex.exp_two_pi_mul_I, mul_one, Complex.norm_mul_exp_arg_mul_I]
  · refine ⟨by linarith, by linarith, ?_⟩
    rw [Complex.norm_mul_exp_arg_mul_I]

/-- C107: phases in degrees lie in the first turn. -/
theorem C107_phase_degree (z : ℂ) : IsPhase 360 (shownPhase ⟨false, 180 / Real.pi⟩ z) z := by
  have hp := Real.pi_pos
  have h1 := Complex.neg_pi_lt_arg z
  have h2 := Complex.arg_le_pi z
  have hf : 0 < 180 / Real.pi := by positivity
  have e : 180 / Real.pi * Real.pi = 180 := div_mul_cancel₀ _ hp.ne'
  have l1 : -180 < 180 / Real.pi * Complex.arg z := by
    have := mul_lt_mul_of_pos_left h1 hf
    linarith
  have l2 : 180 / Real.pi * Complex.arg z ≤ 180 := by
    have := mul_le_mul_of_nonneg_left h2 hf.le
    linarith
  have hx : 2 * Real.pi * (180 / Real.pi * Complex.arg z / 360) = Complex.arg z := by
    field_simp
    ring
  unfold IsPhase shownPhase
  simp only [Bool.false_eq_true, if_false]
  split_ifs with h
  · refine ⟨by linarith, by linarith, ?_⟩
    rw [show 2 * Real.pi * ((180 / Real.pi * Complex.arg z + 360) / 360) = Complex.arg z + 2 * Real.pi by
      rw [add_div, mul_add, hx]; ring]
    rw [mul_comm Complex.I, Complex.ofReal_add, add_mul, Complex.exp_add]
    push_cast
    rw [Complex.exp_two_pi_mul_I, mul_one, Complex.norm_mul_exp_arg_mul_I]
  · refine ⟨by linarith, by linarith, ?_⟩
    rw [hx, mul_comm Complex.I, Complex.norm_mul_exp_arg_mul_I]

/-- C107 fails for other units of angles: negative phases are increased by 360 whatever the unit.  In turns, a lag of a
quarter turn is shown as `359.75`, not `0.75`. -/
theorem C107_phase_false : shownPhase ⟨false, 1 / (2 * Real.pi)⟩ (-Complex.I) = 359.75 ∧
    IsPhase 1 0.75 (-Complex.I) := by
  have hp := Real.pi_pos
  have e : 1 / (2 * Real.pi) * -(Real.pi / 2) = -(1 / 4) := by field_simp; ring
  constructor
  · unfold shownPhase
    simp only [Complex.arg_neg_I, e, Bool.false_eq_true, if_false]
    norm_num
  · refine ⟨by norm_num, by norm_num, ?_⟩
    rw [show 2 * Real.pi * ((0.75 : ℝ) / 1) = 2 * Real.pi + -(Real.pi / 2) by ring, mul_comm Complex.I,
      Complex.ofReal_add, add_mul, Complex.exp_add]
    push_cast
    rw [Complex.exp_two_pi_mul_I, one_mul, neg_mul, Complex.exp_neg, Complex.exp_pi_div_two_mul_I]
    simp

/-- C107: units of other dimensions are refused. -/
theorem C107_units (resp : List (FreqResp r.ndof)) (f : ℝ) (u : PhaseUnits) (inp out : ℕ) :
    r.freqMagnitude resp none f inp out = .error .valueError ∧ r.freqPhase resp none u inp out = .error .valueError ∧
    r.freqPolar resp none f u inp out = .error .valueError := ⟨rfl, rfl, rfl⟩

/-! ### Names -/

variable {pd : Pandas} {fuel : ℕ} {a : RotorArgs} {six : Bool} {N : ℕ}

/-- C107: a curve of a degree of freedom of a shaft node is named after the node and the direction. -/
theorem C107_label_partial (hw : WellFormed six N a) (h : init pd fuel a = some (.ok r)) {l : String} {n : ℕ}
    (hl : l ∈ nodeLetters r.number_dof) (hn : n ≤ N) :
    r.dofLabel (slot r.number_dof N (l, n)) = (n, some (greek l)) := by
  unfold dofLabel slot dofDict
  simp only [if_pos hn]
  rcases (ReadoutLemmas.ndof_eq' hw h).1 with e | e <;> rw [e] at hl ⊢ <;>
    simp only [nodeLetters, List.mem_cons, List.not_mem_nil, or_false, if_true, if_false,
      show ¬ (6 = 4) by norm_num] at hl ⊢
  · rcases hl with rfl | rfl | rfl | rfl <;> simp [List.idxOf_cons, greek] <;> omega
  · rcases hl with rfl | rfl | rfl | rfl | rfl | rfl <;> simp [List.idxOf_cons, greek] <;> omega

/-- C107 fails for supports, which have half as many degrees of freedom: the displacement of the second support in `x` is
called a rotation of the first one. -/
theorem C107_label_false (hw : WellFormed six N a) (h : init pd fuel a = some (.ok r)) :
    r.dofLabel (slot r.number_dof N ("x", N + 2)) = (N + 1, some "α") := by
  unfold dofLabel slot dofDict supportLetters
  simp only [show ¬ (N + 2 ≤ N) by omega, if_false, show N + 2 - N - 1 = 1 by omega, mul_one]
  rcases (ReadoutLemmas.ndof_eq' hw h).1 with e | e <;> rw [e]
  · simp [List.idxOf_cons]
    omega
  · simp [List.idxOf_cons]
    omega

/-! ### The theorems apply -/

theorem assemble_congr {N : ℕ} {mat mat' : Elm → Res LMat} {l : List (Elm × Dict DofKey ℕ)}
    (h : ∀ x ∈ l, mat x.1 = mat' x.1) : assemble N mat l = assemble N mat' l := by
  unfold assemble
  generalize (0 : Matrix (Fin N) (Fin N) ℝ) = A
  induction l generalizing A with
  | nil => rfl
  | cons x l ih =>
    rw [List.foldlM_cons, List.foldlM_cons, h x List.mem_cons_self]
    congr 1
    funext B
    exact ih (fun y hy => h y (List.mem_cons_of_mem _ hy)) B

theorem exGyro_pos (t : Option String) :
    0 < ({ exShaft with n := some 0, tag := t, alpha := 0, beta := 0 } : ShaftElement).G 0 1 := by
  have hp := Real.pi_pos
  set s : ShaftElement := { exShaft with n := some 0, tag := t, alpha := 0, beta := 0 } with hs
  have hI : 0 < s.Ie_l := by
    simp only [hs, ShaftElement.Ie_l, exShaft]
    have : (0 : ℝ) < (1 / 20) ^ 4 - (1 / 100) ^ 4 := by norm_num
    positivity
  have e : s.roj = 1 / 40 ∧ s.delta_ro = 1 / 40 ∧ s.rij = 1 / 200 ∧ s.delta_ri = -(1 / 200) := by
    simp only [hs, ShaftElement.roj, ShaftElement.delta_ro, ShaftElement.rij, ShaftElement.delta_ri, ShaftElement.rok,
      ShaftElement.rik, exShaft]
    norm_num
  obtain ⟨e1, e2, e3, e4⟩ := e
  have hφ : 1 + s.phi ≠ 0 := by
    have := ShaftLemmas.physical_facts exShaft_physical (Or.inr rfl)
    exact (ShaftLemmas.one_add_phi_pos this exShaft_physical).ne'
  have hg : 0 < s.g1 := by
    unfold ShaftElement.g1 ShaftElement.a2 ShaftElement.b2 ShaftElement.gama ShaftElement.delta
    rw [e1, e2, e3, e4]
    norm_num
    positivity
  have hr : 0 < s.material.rho := by simp [hs, exShaft, exMaterial]
  have hL : 0 < s.L := by simp [hs, exShaft]
  have hG : s.G = (s.material.rho * s.Ie_l * 2 / (210 * s.L * (1 + s.phi) ^ 2)) • s.Glit := by
    unfold ShaftElement.G
    exact if_pos rfl
  have : s.Glit 0 1 = s.g1 := rfl
  rw [hG, Matrix.smul_apply, smul_eq_mul, this]
  positivity

/-- Non-vacuity of `C107_response_partial` (at rest), `C107_swapped`, `C107_response_false` and `C107_gyro_false` (at some
speed): the rotor on two bearings without damping. -/
theorem two_runs : ∃ la r, LapackOk la ∧ init RotorLemmas.exPandas 10 (twoArgs 0 0) = some (.ok r) ∧
    ∃ (M K C G : Matrix (Fin r.ndof) (Fin r.ndof) ℝ), (∀ ω, r.M (some ω) = .ok M ∧ r.K ω = .ok K ∧ r.C ω = .ok C) ∧
      r.G = .ok G ∧ (dynStiff M (C + (0 : ℝ) • G) K (Complex.I * (0 : ℝ))).det ≠ 0 ∧
      (dynStiff M (C + (0 : ℝ) • G) K (Complex.I * (0 : ℝ)))ᵀ = dynStiff M (C + (0 : ℝ) • G) K (Complex.I * (0 : ℝ)) ∧
      ∃ ω res, ω ≠ 0 ∧ r.run_freq_response la [0, ω] = .ok res ∧
        (dynStiff M (C + ω • G) K (Complex.I * ω)).det ≠ 0 ∧
        (dynStiff M (C + ω • G) K (Complex.I * ω))ᵀ ≠ dynStiff M (C + ω • G) K (Complex.I * ω) := by
  obtain ⟨la, hla, hfull⟩ := lapack_full_exists
  obtain ⟨r, h1, h2, h3, h4, h5, h6, h7⟩ := two_undamped
  obtain ⟨r', g1, g2, g3, -, -, g6, gdk, -, g9, -⟩ := two_facts 0 0 le_rfl le_rfl
  obtain rfl : r = r' := by rw [h1] at g1; simpa using g1
  have hb := RotorLemmas.init_ok h1
  have key : ∀ ω, ∃ H, r.transfer_matrix la ω = .ok H := by
    intro ω
    obtain ⟨A, hA⟩ := h7 ω ω
    obtain ⟨H, -, -, -, -, hH, -⟩ := C49_transfer hla hfull h1 h2 (h3 ω) h4 (h6 ω) (h5 ω) hA
    exact ⟨H, hH⟩
  obtain ⟨A, hA⟩ := h7 0 0
  obtain ⟨-, M, K, C, G, -, hM, hK, hC, hG, -⟩ := C49_transfer hla hfull h1 h2 (h3 0) h4 (h6 0) (h5 0) hA
  have hsh : ∀ e ∈ r.shaft, ∃ t, e = ⟨false, { exShaft with n := some 0, tag := t, alpha := 0, beta := 0 }⟩ := by
    intro e he
    rw [hb.shaft] at he
    have := (RotorLemmas.parts_sh_perm (twoArgs 0 0)).mem_iff.1 he
    simp only [parts, numberShaft, twoArgs, Nest.flattenAll, Nest.flatten, List.append_nil,
      List.mapIdx_cons, List.mapIdx_nil, List.mem_cons, List.not_mem_nil, or_false] at this
    exact ⟨_, this⟩
  have helm : ∀ e ∈ r.elements, (∃ s, e = .shaft ⟨false, s⟩ ∧ s.alpha = 0 ∧ s.beta = 0) ∨
      ∃ n t, e = .brg (.brg false { RotorLemmas.exBrg n none 1e6 0 with tag := t }) := by
    intro e he
    rcases (RotorLemmas.mem_elements hb e).1 he with ⟨s, hs, rfl⟩ | ⟨s, hs, rfl⟩ | ⟨s, hs, rfl⟩ | ⟨p, hp, rfl⟩
    · obtain ⟨e1, e2, e3⟩ := g6 s hs
      obtain ⟨six, s⟩ := s
      simp only at e1 e2 e3
      subst e3
      exact Or.inl ⟨s, rfl, e1, e2⟩
    · rw [gdk] at hs; cases hs
    · obtain ⟨n, t, rfl⟩ := g9 s hs
      exact Or.inr ⟨n, t, rfl⟩
    · rw [g3] at hp; cases hp
  have hcM : ∀ ω, r.M (some ω) = .ok M := by
    intro ω
    rw [← hM]
    refine assemble_congr fun x hx => ?_
    rcases helm _ (RotorLemmas.placed_mem hb hx) with ⟨s, hs, -⟩ | ⟨n, t, hs⟩ <;> rw [hs]
    · rfl
    · simp [Elm.Msync, Elm.M, Elm.K, Elm.C, BearingElement.M, BearingElement.K, BearingElement.C, RotorLemmas.exBrg,
        RotorLemmas.constCoeff, Coeff.eval]
  have hcK : ∀ ω, r.K ω = .ok K := by
    intro ω
    rw [← hK]
    refine assemble_congr fun x hx => ?_
    rcases helm _ (RotorLemmas.placed_mem hb (List.mem_of_mem_filter hx)) with ⟨s, hs, -⟩ | ⟨n, t, hs⟩ <;> rw [hs]
    · rfl
    · simp [Elm.Msync, Elm.M, Elm.K, Elm.C, BearingElement.M, BearingElement.K, BearingElement.C, RotorLemmas.exBrg,
        RotorLemmas.constCoeff, Coeff.eval]
  have hcC : ∀ ω, r.C ω = .ok C := by
    intro ω
    rw [← hC]
    refine assemble_congr fun x hx => ?_
    rcases helm _ (RotorLemmas.placed_mem hb (List.mem_of_mem_filter hx)) with ⟨s, hs, -⟩ | ⟨n, t, hs⟩ <;> rw [hs]
    · rfl
    · simp [Elm.Msync, Elm.M, Elm.K, Elm.C, BearingElement.M, BearingElement.K, BearingElement.C, RotorLemmas.exBrg,
        RotorLemmas.constCoeff, Coeff.eval]
  have hMs := ((C47_forms h1 h2 (h3 0)).1 M hM).1
  have hKs := ((C47_forms h1 h2 (h3 0)).2.1 K hK).1
  have hCs : Cᵀ = C := by
    refine (C18_symm h1 0).2.2 C hC fun e he E hE => ?_
    rcases helm e he with ⟨s, rfl, e1, e2⟩ | ⟨n, t, rfl⟩
    · obtain rfl : (⟨8, s.C⟩ : LMat) = E := Except.ok.inj hE
      simp [ShaftElement.C, e1, e2]
    · obtain rfl := Except.ok.inj hE
      ext i j
      fin_cases i <;> fin_cases j <;> rfl
  have hGs : Gᵀ = -G := C18_gyro_skew h1 hG
  have hG0 : G ≠ 0 := by
    rintro rfl
    obtain ⟨-, hw⟩ := C18_gyro h1 h2 hG
    have h0 := hw (Pi.single 0 1) (Pi.single 1 1)
    have hz : bilin (0 : Matrix (Fin r.ndof) (Fin r.ndof) ℝ) (Pi.single 0 1) (Pi.single 1 1) = 0 := by simp [bilin]
    rw [hz, g2] at h0
    have hend : shaftEnd r = 1 := ReadoutLemmas.end_eq (twoArgs_wf 0 0) h1
    have hs : ∀ t, workOf 4 (shaftEnd r) Elm.G
        (.shaft ⟨false, { exShaft with n := some 0, tag := t, alpha := 0, beta := 0 }⟩) (Pi.single 0 1) (Pi.single 1 1) =
        ({ exShaft with n := some 0, tag := t, alpha := 0, beta := 0 } : ShaftElement).G 0 1 := by
      intro t
      have hg : globalOf 4 1 (.shaft ⟨false, { exShaft with n := some 0, tag := t, alpha := 0, beta := 0 }⟩) =
          [0, 1, 2, 3, 4, 5, 6, 7] := by
        simp [globalOf, attach, Elm.n, nodeLetters, dofsAt, slot, List.idxOf_cons]
      rw [hend]
      simp only [workOf, Elm.G, elemBilin]
      rw [hg]
      simp [Fin.sum_univ_eight]
    have hnn : ∀ e ∈ r.elements, 0 ≤ workOf 4 (shaftEnd r) Elm.G e (Pi.single 0 1) (Pi.single 1 1) := by
      intro e he
      rcases (RotorLemmas.mem_elements hb e).1 he with ⟨s, hs', rfl⟩ | ⟨s, hs', rfl⟩ | ⟨s, hs', rfl⟩ | ⟨p, hp, rfl⟩
      · obtain ⟨t, rfl⟩ := hsh s hs'
        rw [hs]
        exact (exGyro_pos t).le
      · rw [gdk] at hs'; cases hs'
      · obtain ⟨n, t, rfl⟩ := g9 s hs'
        have hE : BearingElement.G { RotorLemmas.exBrg n none 1e6 0 with tag := t } = .ok ⟨2, 0⟩ := by
          rfl
        simp only [workOf, Elm.G]
        rw [hE]
        simp [elemBilin]
      · rw [g3] at hp; cases hp
    obtain ⟨s, hs', -⟩ := ((ReadoutLemmas.full_of_wf (twoArgs_wf 0 0) h1).nodes 0).2 (by norm_num)
    have hle := List.single_le_sum (l := r.elements.map fun e =>
      workOf 4 (shaftEnd r) Elm.G e (Pi.single 0 1) (Pi.single 1 1)) (by
        intro x hx
        obtain ⟨e, he, rfl⟩ := List.mem_map.1 hx
        exact hnn e he) _ (List.mem_map.2 ⟨_, (RotorLemmas.mem_elements hb _).2 (Or.inl ⟨s, hs', rfl⟩), rfl⟩)
    obtain ⟨t, rfl⟩ := hsh s hs'
    rw [← h0, hs] at hle
    exact absurd (exGyro_pos t) (not_lt.2 hle)
  have hKd : (cplx K).det ≠ 0 := by
    rw [cplx_det]
    exact_mod_cast det_of_pos (h5 0 K hK)
  have e0 : dynStiff M (C + (0 : ℝ) • G) K (Complex.I * (0 : ℝ)) = cplx K := by simp [dynStiff]
  have hcont : Continuous fun ω : ℝ => (dynStiff M (C + ω • G) K (Complex.I * ω)).det := by
    apply Continuous.matrix_det
    refine continuous_matrix fun i j => ?_
    simp only [dynStiff, cplx, Matrix.add_apply, Matrix.smul_apply, Matrix.map_apply, smul_eq_mul]
    fun_prop
  obtain ⟨ω, hω, hne⟩ : ∃ ω : ℝ, (dynStiff M (C + ω • G) K (Complex.I * ω)).det ≠ 0 ∧ ω ≠ 0 := by
    have h1 : ∀ᶠ ω : ℝ in nhdsWithin (0 : ℝ) {0}ᶜ, (dynStiff M (C + ω • G) K (Complex.I * ω)).det ≠ 0 :=
      (hcont.continuousAt.eventually_ne (by rw [e0]; exact hKd)).filter_mono nhdsWithin_le_nhds
    have h2 : ∀ᶠ ω in nhdsWithin (0 : ℝ) {0}ᶜ, ω ≠ 0 := eventually_mem_nhdsWithin
    exact (h1.and h2).exists
  refine ⟨la, r, hla, h1, M, K, C, G, fun ω => ⟨hcM ω, hcK ω, hcC ω⟩, hG, by rwa [e0], ?_, ω, ?_⟩
  · rw [e0]
    ext i j
    exact congrArg Complex.ofReal (congrFun (congrFun hKs i) j)
  · obtain ⟨H0, q0⟩ := key 0
    obtain ⟨H1, q1⟩ := key ω
    simp only [run_freq_response, List.mapM_cons, List.mapM_nil, q0, q1, bind, Except.bind, pure, Except.pure]
    exact ⟨_, hne, rfl, hω, C107_gyro_false hMs hKs hCs hGs hG0 hne⟩

end Ross.Props
