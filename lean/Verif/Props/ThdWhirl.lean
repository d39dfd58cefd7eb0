import Verif.Props.ThdLund
import Verif.Spec.ThdOil

/-!
# The whirls of a film that is not full of oil (C99)
-/

namespace Ross.ThdLemmas

open Real Thd Thd.THD Stencil Spec.Fluid Spec.Thd Filter Topology

variable {B : THD} {J : Journal} {n_p : ℕ} {mu : ℕ → ℕ → ℝ} {D : ℝ → ℝ} {a b : ℝ} {Js : ℝ → Journal}

theorem oil_eq (na nc : ℕ) (t0 β κ : ℝ) (h h' : ℝ → ℝ) (θ0 : ℝ) (θ mu P : ℕ → ℕ → ℝ) (i j : ℕ) :
    oilExcess na nc t0 β κ h h' θ0 θ mu P i j = padExcess na nc t0 β κ h h' mu P i j +
      ((θ i j - 1) * (h (t0 + (j + 1) * (β / nc)) / (2 * β) * (1 / na)) -
        (oilBefore θ0 (θ i) j - 1) * (h (t0 + j * (β / nc)) / (2 * β) * (1 / na)) +
        (θ i j - 1) * (h' (t0 + (j + 1 / 2) * (β / nc)) * (1 / nc * (1 / na)))) := by
  unfold oilExcess padExcess excess oilAround Spec.Thd.around
  push_cast
  ring

/-- What the part of the film that is no oil takes from the right-hand side. -/
noncomputable def lack (B : THD) (D : ℝ → ℝ) (n_p : ℕ) (θ0 : ℝ) (θ : ℕ → ℕ → ℝ) (i j : ℕ) : ℝ :=
  (θ i j - 1) * (D (B.jj n_p j + 0.5 * B.dtheta) / (2 * B.betha_s) * B.dZ) -
    (oilBefore θ0 (θ i) j - 1) * (D (B.jj n_p j - 0.5 * B.dtheta) / (2 * B.betha_s) * B.dZ)

theorem oil_deriv (hm : Moves B J n_p D a b Js) (h0 : Js 0 = J) (h2a : 2 ≤ B.elements_axial)
    (h2c : 2 ≤ B.elements_circumferential) (θ0 : ℝ) (θ P x : ℕ → ℕ → ℝ) {i j : ℕ} (hi : i < B.elements_axial)
    (hj : j < B.elements_circumferential) :
    HasDerivAt (fun s => oilExcess B.elements_axial B.elements_circumferential (B.thetaI n_p) (B.betha_s_dg * π / 180)
      ((B.journal_radius / B.axial_length) ^ 2) (B.film (Js s) n_p)
      (fun t => -((Js s).Xpt * cos t + (Js s).Ypt * sin t)) θ0 θ mu (fun i j => P i j + s * x i j) i j)
      (-(a * op B.elements_axial B.elements_circumferential (B.CDW D J n_p mu) (B.CDE D J n_p mu) (B.CDN D J n_p mu)
          (B.CDS D J n_p mu) 2 2 2 P i j) +
        op B.elements_axial B.elements_circumferential (B.CW J n_p mu) (B.CE J n_p mu) (B.CN J n_p mu)
          (B.CS J n_p mu) 2 2 2 x i j +
        (a * (B.dZ / (2 * B.betha_s) * (D (B.jj n_p j + 0.5 * B.dtheta) - D (B.jj n_p j - 0.5 * B.dtheta))) +
        b * (D (B.jj n_p j) * B.dY * B.dZ)) +
        (a * lack B D n_p θ0 θ i j + b * ((θ i j - 1) * (D (B.jj n_p j) * B.dY * B.dZ)))) 0 := by
  simp only [oil_eq]
  refine (excess_deriv hm h0 h2a h2c P x hi hj).fun_add ?_
  simp only [hm.film, hm.rate]
  have e1 : B.thetaI n_p + ((j : ℝ) + 1) * (B.betha_s_dg * π / 180 / B.elements_circumferential) =
      B.jj n_p j + 0.5 * B.dtheta := by
    unfold jj dtheta betha_s
    ring
  have e2 : B.thetaI n_p + ((j : ℝ) + 1 / 2) * (B.betha_s_dg * π / 180 / B.elements_circumferential) = B.jj n_p j := by
    unfold jj dtheta betha_s
    ring
  have e3 : B.thetaI n_p + (j : ℝ) * (B.betha_s_dg * π / 180 / B.elements_circumferential) =
      B.jj n_p j - 0.5 * B.dtheta := by
    unfold jj dtheta betha_s
    ring
  rw [e1, e2, e3]
  have := linear_deriv ((θ i j - 1) * (B.film J n_p (B.jj n_p j + 0.5 * B.dtheta) / (2 * (B.betha_s_dg * π / 180)) *
        (1 / B.elements_axial)) -
      (oilBefore θ0 (θ i) j - 1) * (B.film J n_p (B.jj n_p j - 0.5 * B.dtheta) / (2 * (B.betha_s_dg * π / 180)) *
        (1 / B.elements_axial)) +
      (θ i j - 1) * (-(J.Xpt * cos (B.jj n_p j) + J.Ypt * sin (B.jj n_p j)) *
        (1 / B.elements_circumferential * (1 / B.elements_axial))))
    (a * lack B D n_p θ0 θ i j + b * ((θ i j - 1) * (D (B.jj n_p j) * B.dY * B.dZ)))
  refine this.congr_of_eventuallyEq (Eventually.of_forall fun s => ?_)
  unfold lack dY dZ betha_s
  dsimp only
  ring

/-- The right-hand side, in any film. -/
theorem lund_B_oil (h2a : 2 ≤ B.elements_axial) (h2c : 2 ≤ B.elements_circumferential) (inj : ℝ) (F : LundFilm)
    {i j : ℕ} (hi : i < B.elements_axial) (hj : j < B.elements_circumferential) :
    B.lund_B inj D n_p F (i * B.elements_circumferential + j) =
      ((-op B.elements_axial B.elements_circumferential (B.CDW D F.J n_p F.mu) (B.CDE D F.J n_p F.mu)
        (B.CDN D F.J n_p F.mu) (B.CDS D F.J n_p F.mu) 2 2 2 F.P i j +
        B.dZ / (2 * B.betha_s) * (D (B.jj n_p j + 0.5 * B.dtheta) - D (B.jj n_p j - 0.5 * B.dtheta)) +
        lack B D n_p F.theta_vol_groove F.Theta_vol i j +
        (if j = 0 then 2 * B.CDW D F.J n_p F.mu i j * inj else 0) : ℝ) : ℂ) +
      ((lund_gamma * (F.Theta_vol i j * (D (B.jj n_p j) * B.dY * B.dZ)) : ℝ) : ℂ) * Complex.I := by
  unfold lund_B lack oilBefore
  dsimp only
  rw [rowD_sum h2a h2c F.P hi hj, index_div hj, index_mod hj]
  unfold KDW KDP
  split_ifs with h
  · push_cast
    ring
  · push_cast
    ring

theorem oil_residual {inj d : ℝ} {F : LundFilm} (ho : Open B F.J n_p F.mu) (h2a : 2 ≤ B.elements_axial)
    (h2c : 2 ≤ B.elements_circumferential) {x : ℕ → ℂ} {i j : ℕ} (hi : i < B.elements_axial)
    (hj : j < B.elements_circumferential) (hP : 0 < F.P i j)
    (hd : ∀ k < B.elements_axial * B.elements_circumferential, ‖B.lund_sweep inj D n_p F x k - x k‖ ≤ d) :
    ‖∑ c ∈ Finset.range (B.elements_axial * B.elements_circumferential),
        (B.Mat_coef F.J n_p F.mu (i * B.elements_circumferential + j) c : ℂ) * B.lund_sweep inj D n_p F x c -
      B.lund_B inj D n_p F (i * B.elements_circumferential + j)‖ ≤
    (B.CE F.J n_p F.mu i j + B.CN F.J n_p F.mu i j) * d := by
  rw [lund_sweep_eq] at hd ⊢
  have hk := index_lt hi hj
  have hd0 : 0 ≤ d := (norm_nonneg _).trans (hd _ hk)
  refine (GaussSeidel.residual_le x hk ?_ (entry_signs ho h2a h2c hk).1.ne hd).trans
    (mul_le_mul_of_nonneg_right (after_sum ho h2a h2c hi hj) hd0)
  show 0 < F.P _ _
  rw [index_div hj, index_mod hj]
  exact hP

theorem oil_re {F : LundFilm} (h2a : 2 ≤ B.elements_axial) (h2c : 2 ≤ B.elements_circumferential) (x : ℕ → ℂ)
    {i j : ℕ} (hi : i < B.elements_axial) (hj : j < B.elements_circumferential) :
    (∑ c ∈ Finset.range (B.elements_axial * B.elements_circumferential),
        (B.Mat_coef F.J n_p F.mu (i * B.elements_circumferential + j) c : ℂ) * x c -
      B.lund_B 0 D n_p F (i * B.elements_circumferential + j)).re =
    -(-(op B.elements_axial B.elements_circumferential (B.CDW D F.J n_p F.mu) (B.CDE D F.J n_p F.mu)
          (B.CDN D F.J n_p F.mu) (B.CDS D F.J n_p F.mu) 2 2 2 F.P i j) +
        op B.elements_axial B.elements_circumferential (B.CW F.J n_p F.mu) (B.CE F.J n_p F.mu) (B.CN F.J n_p F.mu)
          (B.CS F.J n_p F.mu) 2 2 2 (fun i j => (x (i * B.elements_circumferential + j)).re) i j +
        (B.dZ / (2 * B.betha_s) * (D (B.jj n_p j + 0.5 * B.dtheta) - D (B.jj n_p j - 0.5 * B.dtheta))) +
        lack B D n_p F.theta_vol_groove F.Theta_vol i j) := by
  rw [lund_B_oil h2a h2c 0 F hi hj, Complex.sub_re, Complex.re_sum]
  simp only [Complex.re_ofReal_mul]
  rw [mat_sum h2a h2c (fun c => (x c).re) hi hj, mul_zero, ite_self, add_zero, Complex.add_re, Complex.ofReal_re,
    Complex.re_ofReal_mul, Complex.I_re, mul_zero, add_zero]
  ring

theorem oil_im {F : LundFilm} (h2a : 2 ≤ B.elements_axial) (h2c : 2 ≤ B.elements_circumferential) (x : ℕ → ℂ)
    {i j : ℕ} (hi : i < B.elements_axial) (hj : j < B.elements_circumferential) :
    (∑ c ∈ Finset.range (B.elements_axial * B.elements_circumferential),
        (B.Mat_coef F.J n_p F.mu (i * B.elements_circumferential + j) c : ℂ) * x c -
      B.lund_B 0 D n_p F (i * B.elements_circumferential + j)).im =
    -(lund_gamma * (op B.elements_axial B.elements_circumferential (B.CW F.J n_p F.mu) (B.CE F.J n_p F.mu)
          (B.CN F.J n_p F.mu) (B.CS F.J n_p F.mu) 2 2 2
          (fun i j => (x (i * B.elements_circumferential + j)).im / lund_gamma) i j +
        F.Theta_vol i j * (D (B.jj n_p j) * B.dY * B.dZ))) := by
  have hg : lund_gamma ≠ 0 := by unfold lund_gamma; norm_num
  rw [lund_B_oil h2a h2c 0 F hi hj, Complex.sub_im, Complex.im_sum]
  simp only [Complex.im_ofReal_mul]
  have e := mat_sum (J := F.J) (n_p := n_p) (mu := F.mu) h2a h2c (fun c => (x c).im) hi hj
  rw [e, Complex.add_im, Complex.ofReal_im, Complex.im_ofReal_mul, Complex.I_im, mul_one, zero_add]
  have e2 : op B.elements_axial B.elements_circumferential (B.CW F.J n_p F.mu) (B.CE F.J n_p F.mu) (B.CN F.J n_p F.mu)
      (B.CS F.J n_p F.mu) 2 2 2 (fun i j => (x (i * B.elements_circumferential + j)).im / lund_gamma) i j =
      op B.elements_axial B.elements_circumferential (B.CW F.J n_p F.mu) (B.CE F.J n_p F.mu) (B.CN F.J n_p F.mu)
      (B.CS F.J n_p F.mu) 2 2 2 (fun i j => (x (i * B.elements_circumferential + j)).im) i j / lund_gamma := by
    unfold op
    split_ifs <;> ring
  rw [e2]
  field_simp
  ring

end Ross.ThdLemmas

namespace Ross.Props

open Real Thd Thd.THD Stencil Spec.Fluid Spec.Thd ThdLemmas Filter Topology

/-- C99: where there is pressure in a film that is not full of oil everywhere, the mass of the oil stays conserved to first
order, up to the tolerance, when the journal is displaced, the pressure changes with the real part and the parts that are
oil do not change. -/
theorem C99_starved_displaced {B : THD} {F : LundFilm} {n_p : ℕ} {tol : ℝ} {fuel : ℕ} {w : Whirl}
    (htol : tol < 1) (hinj : B.injection_pressure = some 0) (h : B.lund_pad tol fuel n_p F = some (.ok w))
    (h2a : 2 ≤ B.elements_axial) (h2c : 2 ≤ B.elements_circumferential) (hfilm : ∀ t, 0 < B.film F.J n_p t)
    (hmu : ∀ i < B.elements_axial, ∀ j < B.elements_circumferential, 0 < F.mu i j) (harc : B.betha_s_dg ≠ 0)
    (hR : B.journal_radius ≠ 0) (hL : B.axial_length ≠ 0) {i j : ℕ} (hi : i < B.elements_axial)
    (hj : j < B.elements_circumferential) (hP : 0 < F.P i j) (x : Bool) :
    ∃ R, HasDerivAt (fun s => oilExcess B.elements_axial B.elements_circumferential (B.thetaI n_p)
        (B.betha_s_dg * π / 180) ((B.journal_radius / B.axial_length) ^ 2)
        (B.film (if x then { F.J with X := F.J.X + s } else { F.J with Y := F.J.Y + s }) n_p)
        (fun t => -(F.J.Xpt * cos t + F.J.Ypt * sin t)) F.theta_vol_groove F.Theta_vol F.mu
        (fun i j => F.P i j + s * ((if x then w.PX else w.PY) (i * B.elements_circumferential + j)).re) i j) R 0 ∧
      |R| ≤ (B.film F.J n_p (B.thetaI n_p + (j + 1) * (B.betha_s_dg * π / 180 / B.elements_circumferential)) ^ 3 /
          (12 * meanAfter B.elements_circumferential (F.mu i) j * (B.betha_s_dg * π / 180) ^ 2) *
          ((1 / B.elements_axial) / (1 / B.elements_circumferential)) +
        (B.journal_radius / B.axial_length) ^ 2 *
          B.film F.J n_p (B.thetaI n_p + (j + 1 / 2) * (B.betha_s_dg * π / 180 / B.elements_circumferential)) ^ 3 /
          (12 * meanAfter B.elements_axial (fun i => F.mu i j) i) *
          ((1 / B.elements_circumferential) / (1 / B.elements_axial))) * tol := by
  rw [← after_eq B F.J n_p F.mu]
  have ho := open_of hfilm hmu harc hR hL
  obtain ⟨X, Y, hX, hY, -, hd⟩ := last_pass htol hinj h
  cases x with
  | true =>
    refine ⟨_, oil_deriv (moves_X B F.J n_p) (by simp) h2a h2c F.theta_vol_groove F.Theta_vol F.P
      (fun i j => (w.PX (i * B.elements_circumferential + j)).re) hi hj, ?_⟩
    have := oil_residual (D := HX) ho h2a h2c hi hj hP (inj := 0) (x := X) (fun k hk => hX ▸ (hd k hk).1)
    refine le_trans ?_ this
    refine le_trans (le_of_eq ?_) (Complex.abs_re_le_norm _)
    rw [oil_re h2a h2c _ hi hj, abs_neg, ← hX]
    congr 1
    ring
  | false =>
    refine ⟨_, oil_deriv (moves_Y B F.J n_p) (by simp) h2a h2c F.theta_vol_groove F.Theta_vol F.P
      (fun i j => (w.PY (i * B.elements_circumferential + j)).re) hi hj, ?_⟩
    have := oil_residual (D := HY) ho h2a h2c hi hj hP (inj := 0) (x := Y) (fun k hk => hY ▸ (hd k hk).2)
    refine le_trans ?_ this
    refine le_trans (le_of_eq ?_) (Complex.abs_re_le_norm _)
    rw [oil_re h2a h2c _ hi hj, abs_neg, ← hY]
    congr 1
    ring

/-- C99: likewise when the journal moves and the pressure changes with the imaginary part, over the ratio of the
frequencies. -/
theorem C99_starved_moving {B : THD} {F : LundFilm} {n_p : ℕ} {tol : ℝ} {fuel : ℕ} {w : Whirl}
    (htol : tol < 1) (hinj : B.injection_pressure = some 0) (h : B.lund_pad tol fuel n_p F = some (.ok w))
    (h2a : 2 ≤ B.elements_axial) (h2c : 2 ≤ B.elements_circumferential) (hfilm : ∀ t, 0 < B.film F.J n_p t)
    (hmu : ∀ i < B.elements_axial, ∀ j < B.elements_circumferential, 0 < F.mu i j) (harc : B.betha_s_dg ≠ 0)
    (hR : B.journal_radius ≠ 0) (hL : B.axial_length ≠ 0) {i j : ℕ} (hi : i < B.elements_axial)
    (hj : j < B.elements_circumferential) (hP : 0 < F.P i j) (x : Bool) :
    ∃ R, HasDerivAt (fun s => oilExcess B.elements_axial B.elements_circumferential (B.thetaI n_p)
        (B.betha_s_dg * π / 180) ((B.journal_radius / B.axial_length) ^ 2) (B.film F.J n_p)
        (fun t => -((if x then F.J.Xpt + s else F.J.Xpt) * cos t + (if x then F.J.Ypt else F.J.Ypt + s) * sin t))
        F.theta_vol_groove F.Theta_vol F.mu
        (fun i j => F.P i j + s * (((if x then w.PX else w.PY) (i * B.elements_circumferential + j)).im / 0.001)) i j)
        R 0 ∧
      |R| ≤ (B.film F.J n_p (B.thetaI n_p + (j + 1) * (B.betha_s_dg * π / 180 / B.elements_circumferential)) ^ 3 /
          (12 * meanAfter B.elements_circumferential (F.mu i) j * (B.betha_s_dg * π / 180) ^ 2) *
          ((1 / B.elements_axial) / (1 / B.elements_circumferential)) +
        (B.journal_radius / B.axial_length) ^ 2 *
          B.film F.J n_p (B.thetaI n_p + (j + 1 / 2) * (B.betha_s_dg * π / 180 / B.elements_circumferential)) ^ 3 /
          (12 * meanAfter B.elements_axial (fun i => F.mu i j) i) *
          ((1 / B.elements_circumferential) / (1 / B.elements_axial))) * (tol / 0.001) := by
  rw [← after_eq B F.J n_p F.mu]
  have ho := open_of hfilm hmu harc hR hL
  obtain ⟨X, Y, hX, hY, -, hd⟩ := last_pass htol hinj h
  have hg : (0 : ℝ) < lund_gamma := by unfold lund_gamma; norm_num
  have eg : (0.001 : ℝ) = lund_gamma := rfl
  simp only [eg]
  cases x with
  | true =>
    refine ⟨_, oil_deriv (moves_Xpt B F.J n_p) (by simp) h2a h2c F.theta_vol_groove F.Theta_vol F.P
      (fun i j => (w.PX (i * B.elements_circumferential + j)).im / lund_gamma) hi hj, ?_⟩
    have := oil_residual (D := HX) ho h2a h2c hi hj hP (inj := 0) (x := X) (fun k hk => hX ▸ (hd k hk).1)
    have h2 := (Complex.abs_im_le_norm _).trans this
    rw [oil_im h2a h2c _ hi hj, abs_neg, ← hX, abs_mul, abs_of_pos hg] at h2
    rw [← mul_div_assoc, le_div_iff₀ hg, mul_comm |_|]
    refine le_trans (le_of_eq ?_) h2
    congr 2
    ring
  | false =>
    refine ⟨_, oil_deriv (moves_Ypt B F.J n_p) (by simp) h2a h2c F.theta_vol_groove F.Theta_vol F.P
      (fun i j => (w.PY (i * B.elements_circumferential + j)).im / lund_gamma) hi hj, ?_⟩
    have := oil_residual (D := HY) ho h2a h2c hi hj hP (inj := 0) (x := Y) (fun k hk => hY ▸ (hd k hk).2)
    have h2 := (Complex.abs_im_le_norm _).trans this
    rw [oil_im h2a h2c _ hi hj, abs_neg, ← hY, abs_mul, abs_of_pos hg] at h2
    rw [← mul_div_assoc, le_div_iff₀ hg, mul_comm |_|]
    refine le_trans (le_of_eq ?_) h2
    congr 2
    ring

/-- The sweeps of a bearing with a film that is not full of oil end, and there is pressure behind a cell that is half
empty. -/
example : ∃ (F : LundFilm) (fuel : ℕ) (w : Whirl), F.Theta_vol 0 0 = 1 / 2 ∧ F.theta_vol_groove = 1 / 2 ∧ 0 < F.P 0 1 ∧
    (∀ t, 0 < (exLund (some 0)).film F.J 0 t) ∧ (∀ i j, 0 < F.mu i j) ∧
    (exLund (some 0)).lund_pad 0.000001 fuel 0 F = some (.ok w) := by
  obtain ⟨n, hn⟩ := C99_ends (B := exLund (some 0)) (n_p := 0)
    (F := ⟨exDown, fun _ j => j, fun _ _ => 1, fun _ j => if j = 0 then 1 / 2 else 1, 1 / 2⟩) (tol := 0.000001)
    (by norm_num) rfl (le_refl 2) (le_refl 2) (exLund_open _)
    (fun _ _ _ _ => one_pos) (by show (90 : ℝ) ≠ 0; norm_num) (by show (1 : ℝ) ≠ 0; norm_num)
    (by show (1 : ℝ) ≠ 0; norm_num)
  obtain ⟨w, hw⟩ := hn n le_rfl
  exact ⟨_, n, w, rfl, rfl, by norm_num, exLund_open _, fun _ _ => one_pos, hw⟩

end Ross.Props
