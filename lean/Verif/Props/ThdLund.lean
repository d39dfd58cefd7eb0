import Verif.Lemmas.ThdLund
import Verif.Props.ThdCoefficients

/-!
# Coefficients of a thermohydrodynamic bearing from the pressure in a whirling film (C99)
-/

namespace Ross.ThdLemmas

open Real Thd Thd.THD Stencil Spec.Fluid Spec.Thd Filter Topology

variable {B : THD} {J : Journal} {n_p : ℕ} {mu : ℕ → ℕ → ℝ} {D : ℝ → ℝ}

theorem residual_re {P : ℕ → ℕ → ℝ} (h2a : 2 ≤ B.elements_axial) (h2c : 2 ≤ B.elements_circumferential) (x : ℕ → ℂ)
    {i j : ℕ} (hi : i < B.elements_axial) (hj : j < B.elements_circumferential) :
    (∑ c ∈ Finset.range (B.elements_axial * B.elements_circumferential),
        (B.Mat_coef J n_p mu (i * B.elements_circumferential + j) c : ℂ) * x c -
      B.lund_B 0 D n_p ⟨J, P, mu, fun _ _ => 1, 1⟩ (i * B.elements_circumferential + j)).re =
    -(-(op B.elements_axial B.elements_circumferential (B.CDW D J n_p mu) (B.CDE D J n_p mu) (B.CDN D J n_p mu)
          (B.CDS D J n_p mu) 2 2 2 P i j) +
        op B.elements_axial B.elements_circumferential (B.CW J n_p mu) (B.CE J n_p mu) (B.CN J n_p mu)
          (B.CS J n_p mu) 2 2 2 (fun i j => (x (i * B.elements_circumferential + j)).re) i j +
        (B.dZ / (2 * B.betha_s) * (D (B.jj n_p j + 0.5 * B.dtheta) - D (B.jj n_p j - 0.5 * B.dtheta)))) := by
  rw [lund_B_full h2a h2c 0 P hi hj, Complex.sub_re, Complex.re_sum]
  simp only [Complex.re_ofReal_mul]
  rw [mat_sum h2a h2c (fun c => (x c).re) hi hj, mul_zero, ite_self, add_zero, Complex.add_re, Complex.ofReal_re,
    Complex.re_ofReal_mul, Complex.I_re, mul_zero, add_zero]
  ring

theorem residual_im {P : ℕ → ℕ → ℝ} (h2a : 2 ≤ B.elements_axial) (h2c : 2 ≤ B.elements_circumferential) (x : ℕ → ℂ)
    {i j : ℕ} (hi : i < B.elements_axial) (hj : j < B.elements_circumferential) :
    (∑ c ∈ Finset.range (B.elements_axial * B.elements_circumferential),
        (B.Mat_coef J n_p mu (i * B.elements_circumferential + j) c : ℂ) * x c -
      B.lund_B 0 D n_p ⟨J, P, mu, fun _ _ => 1, 1⟩ (i * B.elements_circumferential + j)).im =
    -(lund_gamma * (op B.elements_axial B.elements_circumferential (B.CW J n_p mu) (B.CE J n_p mu) (B.CN J n_p mu)
          (B.CS J n_p mu) 2 2 2 (fun i j => (x (i * B.elements_circumferential + j)).im / lund_gamma) i j +
        D (B.jj n_p j) * B.dY * B.dZ)) := by
  have hg : lund_gamma ≠ 0 := by unfold lund_gamma; norm_num
  rw [lund_B_full h2a h2c 0 P hi hj, Complex.sub_im, Complex.im_sum]
  simp only [Complex.im_ofReal_mul]
  have e := mat_sum (J := J) (n_p := n_p) (mu := mu) h2a h2c (fun c => (x c).im) hi hj
  rw [e, Complex.add_im, Complex.ofReal_im, Complex.im_ofReal_mul, Complex.I_im, mul_one, zero_add]
  have e2 : op B.elements_axial B.elements_circumferential (B.CW J n_p mu) (B.CE J n_p mu) (B.CN J n_p mu)
      (B.CS J n_p mu) 2 2 2 (fun i j => (x (i * B.elements_circumferential + j)).im / lund_gamma) i j =
      op B.elements_axial B.elements_circumferential (B.CW J n_p mu) (B.CE J n_p mu) (B.CN J n_p mu)
      (B.CS J n_p mu) 2 2 2 (fun i j => (x (i * B.elements_circumferential + j)).im) i j / lund_gamma := by
    unfold op
    split_ifs <;> ring
  rw [e2]
  field_simp
  ring

/-- The conductances of a cell towards the cells that come after it. -/
theorem after_eq (B : THD) (J : Journal) (n_p : ℕ) (mu : ℕ → ℕ → ℝ) (i j : ℕ) :
    B.CE J n_p mu i j + B.CN J n_p mu i j =
      B.film J n_p (B.thetaI n_p + (j + 1) * (B.betha_s_dg * π / 180 / B.elements_circumferential)) ^ 3 /
          (12 * meanAfter B.elements_circumferential (mu i) j * (B.betha_s_dg * π / 180) ^ 2) *
          ((1 / B.elements_axial) / (1 / B.elements_circumferential)) +
        (B.journal_radius / B.axial_length) ^ 2 *
          B.film J n_p (B.thetaI n_p + (j + 1 / 2) * (B.betha_s_dg * π / 180 / B.elements_circumferential)) ^ 3 /
          (12 * meanAfter B.elements_axial (fun i => mu i j) i) *
          ((1 / B.elements_circumferential) / (1 / B.elements_axial)) := by
  have hE : meanAfter B.elements_circumferential (mu i) j = B.MU_e mu i j := by
    unfold meanAfter Spec.Thd.mean MU_e
    by_cases h : j = B.elements_circumferential - 1
    · simp [h]
    · simp only [h, decide_false, if_false, Bool.false_eq_true]; ring
  have hN : meanAfter B.elements_axial (fun i => mu i j) i = B.MU_n mu i j := by
    unfold meanAfter Spec.Thd.mean MU_n
    by_cases h : i = B.elements_axial - 1
    · simp [h]
    · simp only [h, decide_false, if_false, Bool.false_eq_true]; ring
  rw [hE, hN]
  have e1 : B.thetaI n_p + ((j : ℝ) + 1) * (B.betha_s_dg * π / 180 / B.elements_circumferential) =
      B.jj n_p j + 0.5 * B.dtheta := by
    unfold jj dtheta betha_s
    ring
  have e2 : B.thetaI n_p + ((j : ℝ) + 1 / 2) * (B.betha_s_dg * π / 180 / B.elements_circumferential) = B.jj n_p j := by
    unfold jj dtheta betha_s
    ring
  rw [e1, e2]
  unfold CE CN dZ dY betha_s
  ring

theorem residual_re_inj {P : ℕ → ℕ → ℝ} (inj : ℝ) (h2a : 2 ≤ B.elements_axial) (h2c : 2 ≤ B.elements_circumferential)
    (x : ℕ → ℂ) {i j : ℕ} (hi : i < B.elements_axial) (hj : j < B.elements_circumferential) :
    (∑ c ∈ Finset.range (B.elements_axial * B.elements_circumferential),
        (B.Mat_coef J n_p mu (i * B.elements_circumferential + j) c : ℂ) * x c -
      B.lund_B inj D n_p ⟨J, P, mu, fun _ _ => 1, 1⟩ (i * B.elements_circumferential + j)).re =
    -(-(op B.elements_axial B.elements_circumferential (B.CDW D J n_p mu) (B.CDE D J n_p mu) (B.CDN D J n_p mu)
          (B.CDS D J n_p mu) 2 2 2 P i j) +
        op B.elements_axial B.elements_circumferential (B.CW J n_p mu) (B.CE J n_p mu) (B.CN J n_p mu)
          (B.CS J n_p mu) 2 2 2 (fun i j => (x (i * B.elements_circumferential + j)).re) i j +
        (B.dZ / (2 * B.betha_s) * (D (B.jj n_p j + 0.5 * B.dtheta) - D (B.jj n_p j - 0.5 * B.dtheta)))) -
      (if j = 0 then 2 * B.CDW D J n_p mu i j * inj else 0) := by
  rw [lund_B_full h2a h2c inj P hi hj, Complex.sub_re, Complex.re_sum]
  simp only [Complex.re_ofReal_mul]
  rw [mat_sum h2a h2c (fun c => (x c).re) hi hj, Complex.add_re, Complex.ofReal_re,
    Complex.re_ofReal_mul, Complex.I_re, mul_zero, add_zero]
  ring

theorem op_pos {na nc : ℕ} {w e n s : ℕ → ℕ → ℝ} {kE kN kS : ℝ} (hw : ∀ i < na, ∀ j < nc, 0 < w i j)
    (he : ∀ i < na, ∀ j < nc, 0 ≤ e i j) (hn : ∀ i < na, ∀ j < nc, 0 ≤ n i j) (hs : ∀ i < na, ∀ j < nc, 0 ≤ s i j)
    (kE0 : 0 ≤ kE) (kN0 : 0 ≤ kN) (kS0 : 0 ≤ kS) {t : ℕ → ℕ → ℝ}
    (h : ∀ i < na, ∀ j < nc, 0 < op na nc w e n s kE kN kS t i j) : ∀ i < na, ∀ j < nc, 0 < t i j := by
  have h0 := op_nonneg hw he hn hs kE0 kN0 kS0 fun i hi j hj => (h i hi j hj).le
  intro i hi j hj
  rcases (h0 i hi j hj).eq_or_lt with e0 | h1
  · have := h i hi j hj
    have g : ∀ (p : Prop) [Decidable p] (c a y : ℝ), 0 ≤ c → (¬p → 0 ≤ y) → c * (if p then a * 0 else 0 - y) ≤ 0 := by
      intro p _ c a y hc hy
      split_ifs with hp
      · simp
      · have := mul_nonneg hc (hy hp)
        linarith
    unfold op at this
    rw [← e0] at this
    have g1 := g (j = 0) (w i j) 2 (t i (j - 1)) (hw i hi j hj).le fun hp => h0 i hi (j - 1) (by omega)
    have g2 := g (j = nc - 1) (e i j) kE (t i (j + 1)) (he i hi j hj) fun hp => h0 i hi (j + 1) (by omega)
    have g3 := g (i = na - 1) (n i j) kN (t (i + 1) j) (hn i hi j hj) fun hp => h0 (i + 1) (by omega) j hj
    have g4 := g (i = 0) (s i j) kS (t (i - 1) j) (hs i hi j hj) fun hp => h0 (i - 1) (by omega) j hj
    linarith
  · exact h1

/-- A film that becomes thinner everywhere is under pressure everywhere. -/
theorem flooded_pos {solve} (hsp : SolverOk solve) (ho : Open B J n_p mu) {P : ℕ → ℕ → ℝ}
    (h : B.flooded solve J n_p mu = .ok P) (hs : ∀ j < B.elements_circumferential, B.source J n_p j < 0) :
    ∀ i < B.elements_axial, ∀ j < B.elements_circumferential, 0 < P i j := by
  obtain ⟨-, h2c, h2a, rfl⟩ := flooded_ok h
  have p := (balanced_iff h2a h2c).1 (solved_balance hsp ho h2a h2c)
  have := op_pos (fun i hi j hj => (ho.signs h2a h2c hi hj).1)
    (fun i hi j hj => (ho.signs h2a h2c hi hj).2.1.le)
    (fun i hi j hj => (ho.signs h2a h2c hi hj).2.2.1.le) (fun i hi j hj => (ho.signs h2a h2c hi hj).2.2.2.le)
    zero_le_two zero_le_two zero_le_two (fun i hi j hj => by rw [p i hi j hj]; linarith [hs j hj])
  exact fun i hi j hj => lt_max_of_lt_left (this i hi j hj)

/-- A bearing of four cells, with a pressure of the oil at the entry. -/
noncomputable def exLund (inj : Option ℝ) : THD := { Props.exThd "circular" 1 with injection_pressure := inj }

/-- A journal above which the film becomes thinner. -/
noncomputable def exDown : Journal := ⟨0, -(1 / 2), 0, 0⟩

theorem exLund_fields (inj : Option ℝ) : ∃ B, exLund inj = B ∧ B.elements_axial = 2 ∧ B.elements_circumferential = 2 ∧
    B.n_pad = 1 ∧ B.betha_s_dg = 90 ∧ B.journal_radius = 1 ∧ B.axial_length = 1 ∧ B.injection_pressure = inj ∧
    B.geometry = "circular" ∧ B.radial_clearance = 1 ∧ B.speed = 1 :=
  ⟨_, rfl, rfl, rfl, rfl, rfl, rfl, rfl, rfl, rfl, rfl, rfl⟩

theorem exLund_film (inj : Option ℝ) (t : ℝ) : (exLund inj).film exDown 0 t = 1 + 1 / 2 * sin t := by
  unfold THD.film
  rw [if_pos (show (exLund inj).geometry = "circular" from rfl)]
  unfold exDown
  ring

theorem exLund_open (inj : Option ℝ) (t : ℝ) : 0 < (exLund inj).film exDown 0 t := by
  rw [exLund_film]
  linarith [neg_one_le_sin t]

theorem exLund_source (inj : Option ℝ) : ∀ j < 2, (exLund inj).source exDown 0 j < 0 := by
  intro j hj
  unfold source
  rw [exLund_film, exLund_film]
  obtain ⟨B, hB, h1, h2, h3, h4, h5, h6, h7, -⟩ := exLund_fields inj
  have eX : exDown.Xpt = 0 := rfl
  have eY : exDown.Ypt = 0 := rfl
  rw [hB, eX, eY]
  have hb : B.betha_s = π / 2 := by unfold betha_s; rw [h4]; ring
  have hd : B.dtheta = π / 4 := by unfold dtheta; rw [hb, h2]; push_cast; ring
  have hZ : B.dZ = 1 / 2 := by unfold dZ; rw [h1]; push_cast; rfl
  have hI : B.thetaI 0 = 3 * π / 4 := by unfold thetaI; rw [h3, h4]; push_cast; ring
  have e1 : B.jj 0 j + 0.5 * B.dtheta = (π - π / 4 + j * (π / 4)) + π / 4 := by unfold jj; rw [hI, hd]; ring
  have e2 : B.jj 0 j - 0.5 * B.dtheta = π - π / 4 + j * (π / 4) := by unfold jj; rw [hI, hd]; ring
  rw [e1, e2, hb, hZ]
  have hp := Real.pi_pos
  have hs : sin (π - π / 4 + j * (π / 4) + π / 4) < sin (π - π / 4 + j * (π / 4)) := by
    interval_cases j
    · have a1 : π - π / 4 + ((0 : ℕ) : ℝ) * (π / 4) + π / 4 = π := by push_cast; ring
      have a2 : π - π / 4 + ((0 : ℕ) : ℝ) * (π / 4) = π - π / 4 := by push_cast; ring
      rw [a1, a2, sin_pi, sin_pi_sub]
      exact sin_pos_of_pos_of_lt_pi (by linarith) (by linarith)
    · have a1 : π - π / 4 + ((1 : ℕ) : ℝ) * (π / 4) + π / 4 = π / 4 + π := by push_cast; ring
      have a2 : π - π / 4 + ((1 : ℕ) : ℝ) * (π / 4) = π := by push_cast; ring
      rw [a1, a2, sin_pi, sin_add_pi, neg_lt_zero]
      exact sin_pos_of_pos_of_lt_pi (by linarith) (by linarith)
  have : 0 < 1 / 2 / (2 * (π / 2)) := by positivity
  nlinarith

theorem exLund_pressure (inj : Option ℝ) : ∃ solve, SolverOk solve ∧ ∃ P : ℕ → ℕ → ℝ,
    (exLund inj).flooded solve exDown 0 (fun _ _ => 1) = .ok P ∧ ∀ i < 2, ∀ j < 2, 0 < P i j := by
  obtain ⟨solve, hs⟩ := exists_solver
  obtain ⟨P, hP⟩ := flooded_eq (B := exLund inj) (solve := solve) (J := exDown) (n_p := 0)
    (mu := fun _ _ => 1) rfl (le_refl 2) (le_refl 2)
  have ho : Open (exLund inj) exDown 0 (fun _ _ => 1) := ⟨fun _ _ => exLund_open inj _, fun _ _ => exLund_open inj _,
    fun _ _ _ _ => one_pos, by show (90 : ℝ) ≠ 0; norm_num, by show (1 : ℝ) ≠ 0; norm_num, by show (1 : ℝ) ≠ 0; norm_num⟩
  exact ⟨solve, hs, P, hP, flooded_pos hs ho hP (exLund_source inj)⟩

/-- The sweeps come near the derivatives of the pressure. -/
theorem lund_close {solve} (hsp : SolverOk solve) (ho : Open B J n_p mu) (h2a : 2 ≤ B.elements_axial)
    (h2c : 2 ≤ B.elements_circumferential) {P : ℕ → ℕ → ℝ} (h : B.flooded solve J n_p mu = .ok P)
    (hpos : ∀ i < B.elements_axial, ∀ j < B.elements_circumferential, 0 < P i j) {Js Jv : ℝ → Journal}
    (hs : Moves B J n_p D 1 0 Js) (hs0 : Js 0 = J) (hv : Moves B J n_p D 0 1 Jv) (hv0 : Jv 0 = J) :
    ∃ K q v, 0 ≤ K ∧ PressureSlope B.elements_axial B.elements_circumferential (fun s => B.flooded solve (Js s) n_p mu) q ∧
      PressureSlope B.elements_axial B.elements_circumferential (fun s => B.flooded solve (Jv s) n_p mu) v ∧
      ∀ tol x, (∀ k < B.elements_axial * B.elements_circumferential,
        ‖B.lund_sweep 0 D n_p ⟨J, P, mu, fun _ _ => 1, 1⟩ x k - x k‖ ≤ tol) →
        ∀ i < B.elements_axial, ∀ j < B.elements_circumferential,
          |(B.lund_sweep 0 D n_p ⟨J, P, mu, fun _ _ => 1, 1⟩ x (i * B.elements_circumferential + j)).re - q i j| ≤
            K * tol ∧
          |(B.lund_sweep 0 D n_p ⟨J, P, mu, fun _ _ => 1, 1⟩ x (i * B.elements_circumferential + j)).im / lund_gamma -
            v i j| ≤ K * tol := by
  have hg : (0 : ℝ) < lund_gamma := by unfold lund_gamma; norm_num
  have hg1 : lund_gamma ≤ 1 := by unfold lund_gamma; norm_num
  obtain ⟨hfc, -, -, rfl⟩ := flooded_ok h
  dsimp only at hpos
  set N := B.elements_axial * B.elements_circumferential with hN
  have slope : ∀ {Jt : ℝ → Journal} {a b : ℝ}, Moves B J n_p D a b Jt → Jt 0 = J → ∀ q : ℕ → ℕ → ℝ,
      (∀ i < B.elements_axial, ∀ j < B.elements_circumferential,
        HasDerivAt (fun s => solve N (B.Mat_coef (Jt s) n_p mu) (B.b_P (Jt s) n_p)
          (i * B.elements_circumferential + j)) (q i j) 0) →
      PressureSlope B.elements_axial B.elements_circumferential (fun s => B.flooded solve (Jt s) n_p mu) q := by
    intro Jt a b hm hm0 q hq
    choose Ps hPs using fun s => flooded_eq (solve := solve) (J := Jt s) (mu := mu) hfc h2c h2a
    refine ⟨Ps, hPs, fun i hi j hj => ?_⟩
    obtain hd := hq i hi j hj
    refine hd.congr_of_eventuallyEq ?_
    have hpos0 : 0 < solve N (B.Mat_coef (Jt 0) n_p mu) (B.b_P (Jt 0) n_p) (i * B.elements_circumferential + j) := by
      rw [hm0]
      have := hpos i hi j hj
      by_contra hn
      rw [max_eq_right (not_lt.1 hn)] at this
      exact lt_irrefl _ this
    filter_upwards [hd.continuousAt.eventually_mem (lt_mem_nhds hpos0)] with s hs
    obtain ⟨-, -, -, e⟩ := flooded_ok (hPs s)
    rw [e]
    exact max_eq_left (le_of_lt hs)
  obtain ⟨q, hq⟩ := pressure_deriv hsp hs hs0 ho h2a h2c
  obtain ⟨v, hv'⟩ := pressure_deriv hsp hv hv0 ho h2a h2c
  obtain ⟨u, θ, hD⟩ := dominant ho h2a h2c
  have hPQ : ∀ i < B.elements_axial, ∀ j < B.elements_circumferential,
      max (solve N (B.Mat_coef J n_p mu) (B.b_P J n_p) (i * B.elements_circumferential + j)) 0 =
        solve N (B.Mat_coef J n_p mu) (B.b_P J n_p) (i * B.elements_circumferential + j) := by
    intro i hi j hj
    have := hpos i hi j hj
    refine max_eq_left ?_
    by_contra hn
    rw [max_eq_right (not_le.1 hn).le] at this
    exact lt_irrefl _ this
  let V := ∑ c ∈ Finset.range N, u c
  let m := ∑ c ∈ Finset.range N, (u c)⁻¹
  have hu : ∀ c < N, u c ≤ V := fun c hc =>
    Finset.single_le_sum (f := u) (fun c hc => (hD.pos c (Finset.mem_range.1 hc)).le) (Finset.mem_range.2 hc)
  have hm : ∀ c < N, (u c)⁻¹ ≤ m := fun c hc =>
    Finset.single_le_sum (f := fun c => (u c)⁻¹) (fun c hc => inv_nonneg.2 (hD.pos c (Finset.mem_range.1 hc)).le)
      (Finset.mem_range.2 hc)
  have hm0 : 0 ≤ m := Finset.sum_nonneg fun c hc => inv_nonneg.2 (hD.pos c (Finset.mem_range.1 hc)).le
  have hV0 : 0 ≤ V := Finset.sum_nonneg fun c hc => (hD.pos c (Finset.mem_range.1 hc)).le
  have h1 : 0 < 1 - θ := by linarith [hD.lt_one]
  have hK0 : 0 ≤ θ / (1 - θ) * m * V := mul_nonneg (mul_nonneg (div_nonneg hD.nonneg h1.le) hm0) hV0
  refine ⟨θ / (1 - θ) * m * V / lund_gamma, q, v, div_nonneg hK0 hg.le, slope hs hs0 q fun i hi j hj => (hq i hi j hj).1,
    slope hv hv0 v fun i hi j hj => (hv' i hi j hj).1, ?_⟩
  intro tol x hx i hi j hj
  have hk := index_lt hi hj
  have htol : 0 ≤ tol := (norm_nonneg _).trans (hx _ hk)
  have hsol := fun k hk => lund_solution (J := J) (n_p := n_p) (mu := mu) (D := D)
    (P := fun i j => max (solve N (B.Mat_coef J n_p mu) (B.b_P J n_p) (i * B.elements_circumferential + j)) 0)
    h2a h2c (q := q) (v := v) (fun i hi j hj => by
      rw [(hq i hi j hj).2, op_congr hPQ hi hj]
      ring) (fun i hi j hj => by
      rw [(hv' i hi j hj).2]
      ring) (k := k) hk
  rw [lund_sweep_eq] at hx ⊢
  have hdist := GaussSeidel.distance hD (x := x) (d := tol * m) (fun k hk _ => hsol k hk) (fun k hk hn => absurd (by
      have hc : 0 < B.elements_circumferential := by omega
      exact hpos _ ((Nat.div_lt_iff_lt_mul hc).2 hk) _ (Nat.mod_lt k hc)) hn) (fun c hc => by
      refine (hx c hc).trans ?_
      have hp := hD.pos c hc
      calc tol = tol * (u c)⁻¹ * u c := by field_simp
        _ ≤ tol * m * u c := mul_le_mul_of_nonneg_right (mul_le_mul_of_nonneg_left (hm c hc) htol) hp.le) _ hk
  rw [index_div hj, index_mod hj] at hdist
  have hb : θ / (1 - θ) * (tol * m) * u (i * B.elements_circumferential + j) ≤ θ / (1 - θ) * m * V * tol := by
    calc _ ≤ θ / (1 - θ) * (tol * m) * V :=
          mul_le_mul_of_nonneg_left (hu _ hk) (mul_nonneg (div_nonneg hD.nonneg h1.le) (mul_nonneg htol hm0))
      _ = _ := by ring
  have hall := hdist.trans hb
  constructor
  · have hre := (Complex.abs_re_le_norm _).trans hall
    rw [Complex.sub_re, Complex.add_re, Complex.ofReal_re, Complex.re_ofReal_mul, Complex.I_re, mul_zero, add_zero] at hre
    refine hre.trans (mul_le_mul_of_nonneg_right ?_ htol)
    rw [le_div_iff₀ hg]
    exact mul_le_of_le_one_right hK0 hg1
  · have him := (Complex.abs_im_le_norm _).trans hall
    rw [Complex.sub_im, Complex.add_im, Complex.ofReal_im, Complex.im_ofReal_mul, Complex.I_im, mul_one, zero_add] at him
    have e : ∀ y z : ℝ, y / lund_gamma - z = (y - lund_gamma * z) / lund_gamma := by
      intro y z
      field_simp
    rw [e, abs_div, abs_of_pos hg, div_mul_eq_mul_div, div_le_div_iff_of_pos_right hg]
    exact him

theorem trapz_abs {m : ℕ} {y x : ℕ → ℝ} {ε : ℝ} (h : ∀ q < m, |y q| ≤ ε) :
    |trapz m y x| ≤ (∑ q ∈ Finset.range (m - 1), |x (q + 1) - x q|) * ε := by
  unfold trapz
  rw [Finset.sum_mul]
  refine (Finset.abs_sum_le_sum_abs _ _).trans (Finset.sum_le_sum fun q hq => ?_)
  rw [Finset.mem_range] at hq
  have h1 := h q (by omega)
  have h2 := h (q + 1) (by omega)
  rw [mul_div_assoc, abs_mul]
  refine mul_le_mul_of_nonneg_left ?_ (abs_nonneg _)
  rw [abs_div, abs_two, div_le_iff₀ two_pos]
  exact (abs_add_le _ _).trans (by linarith)

theorem trapz_sub (m : ℕ) (y z x : ℕ → ℝ) : trapz m y x - trapz m z x = trapz m (fun q => y q - z q) x := by
  unfold trapz
  rw [← Finset.sum_sub_distrib]
  exact Finset.sum_congr rfl fun q _ => by ring

theorem trapz_mul (m : ℕ) (y x : ℕ → ℝ) (a : ℝ) : trapz m (fun q => a * y q) x = a * trapz m y x := by
  unfold trapz
  rw [Finset.mul_sum]
  exact Finset.sum_congr rfl fun q _ => by ring

theorem trapz_congr {m : ℕ} {y z x : ℕ → ℝ} (h : ∀ q < m, y q = z q) : trapz m y x = trapz m z x := by
  unfold trapz
  refine Finset.sum_congr rfl fun q hq => ?_
  rw [Finset.mem_range] at hq
  rw [h q (by omega), h (q + 1) (by omega)]

theorem trapz_deriv {m : ℕ} {y : ℝ → ℕ → ℝ} {y' x : ℕ → ℝ} (h : ∀ q < m, HasDerivAt (fun s => y s q) (y' q) 0) :
    HasDerivAt (fun s => trapz m (y s) x) (trapz m y' x) 0 := by
  unfold trapz
  refine HasDerivAt.fun_sum fun q hq => ?_
  rw [Finset.mem_range] at hq
  exact (((h q (by omega)).fun_add (h (q + 1) (by omega))).const_mul _).div_const _

theorem ctrapz_re (m : ℕ) (y : ℕ → ℂ) (x : ℕ → ℝ) : (ctrapz m y x).re = trapz m (fun q => (y q).re) x := by
  unfold ctrapz trapz
  rw [Complex.re_sum]
  refine Finset.sum_congr rfl fun q _ => ?_
  have : ((x (q + 1) - x q : ℝ) : ℂ) * (y q + y (q + 1)) / 2 =
      (((x (q + 1) - x q) / 2 : ℝ) : ℂ) * (y q + y (q + 1)) := by push_cast; ring
  rw [this, Complex.re_ofReal_mul, Complex.add_re]
  ring

theorem ctrapz_im (m : ℕ) (y : ℕ → ℂ) (x : ℕ → ℝ) : (ctrapz m y x).im = trapz m (fun q => (y q).im) x := by
  unfold ctrapz trapz
  rw [Complex.im_sum]
  refine Finset.sum_congr rfl fun q _ => ?_
  have : ((x (q + 1) - x q : ℝ) : ℂ) * (y q + y (q + 1)) / 2 =
      (((x (q + 1) - x q) / 2 : ℝ) : ℂ) * (y q + y (q + 1)) := by push_cast; ring
  rw [this, Complex.im_ofReal_mul, Complex.add_im]
  ring

/-- The integral over the pads of a pressure, weighted with `D`. -/
noncomputable def film_integral (B : THD) (D : ℝ → ℝ) (f : ℕ → ℕ → ℕ → ℝ) : ℝ :=
  trapz B.elements_axial (fun i => trapz (B.elements_circumferential * B.n_pad)
    (fun q => f i (q % B.elements_circumferential) (q / B.elements_circumferential) *
      D (B.Ytheta (q / B.elements_circumferential) (q % B.elements_circumferential)))
    (fun q => B.journal_radius * B.Ytheta (q / B.elements_circumferential) (q % B.elements_circumferential)))
    (fun i => B.axial_length * B.Z i)

theorem resultant_eq (P : ℕ → ℕ → ℕ → ℝ) :
    B.resultant P = (film_integral B HX (B.Pdim P), film_integral B HY (B.Pdim P)) := by
  unfold THD.resultant film_integral HX HY
  dsimp only
  have e : ∀ (f : ℕ → ℕ → ℝ) (x : ℕ → ℕ → ℝ) (z : ℕ → ℝ) (n m : ℕ), -trapz n (fun i => trapz m (f i) (x i)) z =
      trapz n (fun i => trapz m (fun q => -1 * f i q) (x i)) z := by
    intro f x z n m
    simp only [trapz_mul]
    ring
  rw [e, e]
  refine Prod.ext ?_ ?_ <;>
  · dsimp only
    congr 1
    funext i
    congr 1
    funext q
    ring

theorem integral_re (D : ℝ → ℝ) (x : ℕ → ℕ → ℂ) :
    (B.lund_integral D x).re = film_integral B D (fun i j p => (x p (i * B.elements_circumferential + j)).re *
      (B.reference_viscosity * B.speed * B.journal_radius ^ 2 / B.radial_clearance ^ 3)) := by
  unfold lund_integral film_integral
  dsimp only
  rw [ctrapz_re]
  simp only [ctrapz_re]
  have e : ∀ (z : ℂ) (a b c : ℝ), (z * (a : ℂ) / (b : ℂ) * (c : ℂ)).re = z.re * (a / b) * c := by
    intro z a b c
    have : z * (a : ℂ) / (b : ℂ) * (c : ℂ) = ((a / b * c : ℝ) : ℂ) * z := by push_cast; ring
    rw [this, Complex.re_ofReal_mul]
    ring
  simp only [e]
  congr 1
  · funext i
    congr 1
    funext q
    ring
  · funext i
    ring

theorem integral_im (D : ℝ → ℝ) (x : ℕ → ℕ → ℂ) :
    (B.lund_integral D x).im = film_integral B D (fun i j p => (x p (i * B.elements_circumferential + j)).im *
      (B.reference_viscosity * B.speed * B.journal_radius ^ 2 / B.radial_clearance ^ 3)) := by
  unfold lund_integral film_integral
  dsimp only
  rw [ctrapz_im]
  simp only [ctrapz_im]
  have e : ∀ (z : ℂ) (a b c : ℝ), (z * (a : ℂ) / (b : ℂ) * (c : ℂ)).im = z.im * (a / b) * c := by
    intro z a b c
    have : z * (a : ℂ) / (b : ℂ) * (c : ℂ) = ((a / b * c : ℝ) : ℂ) * z := by push_cast; ring
    rw [this, Complex.im_ofReal_mul]
    ring
  simp only [e]
  congr 1
  · funext i
    congr 1
    funext q
    ring
  · funext i
    ring

theorem film_integral_mul (D : ℝ → ℝ) (f : ℕ → ℕ → ℕ → ℝ) (a : ℝ) :
    film_integral B D (fun i j p => f i j p * a) = film_integral B D f * a := by
  unfold film_integral
  rw [mul_comm _ a, ← trapz_mul]
  congr 1
  funext i
  rw [← trapz_mul]
  congr 1
  funext q
  ring

theorem film_integral_deriv (D : ℝ → ℝ) {f : ℝ → ℕ → ℕ → ℕ → ℝ} {f' : ℕ → ℕ → ℕ → ℝ} 
    (h : ∀ i < B.elements_axial, ∀ j < B.elements_circumferential, ∀ p < B.n_pad,
      HasDerivAt (fun s => f s i j p) (f' i j p) 0) :
    HasDerivAt (fun s => film_integral B D (f s)) (film_integral B D f') 0 := by
  unfold film_integral
  refine trapz_deriv (y := fun s i => _) fun i hi => trapz_deriv (y := fun s q => _) fun q hq => ?_
  have hc : 0 < B.elements_circumferential := Nat.pos_of_ne_zero fun h => by simp [h] at hq
  exact (h i hi _ (Nat.mod_lt _ hc) _ ((Nat.div_lt_iff_lt_mul hc).2 (by rw [mul_comm]; exact hq))).mul_const _

theorem film_integral_close (B : THD) (D : ℝ → ℝ) (hD : ∀ t, |D t| ≤ 1) : ∃ C, 0 ≤ C ∧ ∀ f g ε,
    (∀ i < B.elements_axial, ∀ j < B.elements_circumferential, ∀ p < B.n_pad, |f i j p - g i j p| ≤ ε) →
    |film_integral B D f - film_integral B D g| ≤ C * ε := by
  refine ⟨(∑ i ∈ Finset.range (B.elements_axial - 1), |B.axial_length * B.Z (i + 1) - B.axial_length * B.Z i|) *
    ∑ q ∈ Finset.range (B.elements_circumferential * B.n_pad - 1),
      |B.journal_radius * B.Ytheta ((q + 1) / B.elements_circumferential) ((q + 1) % B.elements_circumferential) -
        B.journal_radius * B.Ytheta (q / B.elements_circumferential) (q % B.elements_circumferential)|,
    mul_nonneg (Finset.sum_nonneg fun _ _ => abs_nonneg _) (Finset.sum_nonneg fun _ _ => abs_nonneg _), ?_⟩
  intro f g ε h
  unfold film_integral
  rw [trapz_sub, mul_assoc]
  refine trapz_abs fun i hi => ?_
  rw [trapz_sub]
  refine trapz_abs fun q hq => ?_
  have hc : 0 < B.elements_circumferential := Nat.pos_of_ne_zero fun h => by simp [h] at hq
  have := h i hi _ (Nat.mod_lt q hc) _ ((Nat.div_lt_iff_lt_mul hc).2 (by rw [mul_comm]; exact hq))
  rw [← sub_mul, abs_mul]
  exact (mul_le_of_le_one_right (abs_nonneg _) (hD _)).trans this

theorem pads_ok {tol : ℝ} {fuel : ℕ} {F : ℕ → LundFilm} {l : List ℕ} {w : ℕ → Whirl}
    (h : B.lund_pads tol fuel F l = some (.ok w)) (hl : l.Nodup) :
    ∀ p ∈ l, B.lund_pad tol fuel p (F p) = some (.ok (w p)) := by
  induction l generalizing w with
  | nil => intro p hp; cases hp
  | cons a l ih =>
    unfold lund_pads at h
    cases h1 : B.lund_pad tol fuel a (F a) with
    | none => rw [h1] at h; cases h
    | some r =>
      cases r with
      | error e => rw [h1] at h; cases h
      | ok w1 =>
        rw [h1] at h
        cases h2 : B.lund_pads tol fuel F l with
        | none => rw [h2] at h; cases h
        | some r =>
          cases r with
          | error e => rw [h2] at h; cases h
          | ok ws =>
            rw [h2] at h
            cases h
            intro p hp
            by_cases hpa : p = a
            · rw [hpa, Function.update_self]
              exact h1
            · rw [Function.update_of_ne hpa]
              exact ih h2 (List.nodup_cons.1 hl).2 p ((List.mem_cons.1 hp).resolve_left hpa)

theorem scaled_slope {na nc : ℕ} {f : ℝ → Except PyErr (ℕ → ℕ → ℝ)} {q : ℕ → ℕ → ℝ} (h : PressureSlope na nc f q)
    {A : ℝ → ℕ → ℕ → ℝ} {r : ℝ} (hA : ∀ s, f (s / r) = .ok (A s)) {i j : ℕ} (hi : i < na) (hj : j < nc) :
    HasDerivAt (fun s => A s i j) (q i j / r) 0 := by
  obtain ⟨P, hP, hd⟩ := h
  have e : ∀ s, A s = P (s / r) := fun s => by
    have := (hA s).symm.trans (hP (s / r))
    exact Except.ok.inj this
  simp only [e]
  have h1 : HasDerivAt (fun s : ℝ => s / r) (1 / r) 0 := (hasDerivAt_id (0 : ℝ)).div_const r
  have := (hd i hi j hj).comp_of_eq (0 : ℝ) h1 (by simp)
  refine this.congr_deriv ?_
  ring

theorem HX_le (t : ℝ) : |HX t| ≤ 1 := by unfold HX; rw [abs_neg]; exact abs_cos_le_one t

theorem HY_le (t : ℝ) : |HY t| ≤ 1 := by unfold HY; rw [abs_neg]; exact abs_sin_le_one t

/-- The force of pressures with a slope. -/
theorem force_slope {f : ℕ → ℝ → Except PyErr (ℕ → ℕ → ℝ)} {q : ℕ → ℕ → ℕ → ℝ}
    (h : ∀ p < B.n_pad, PressureSlope B.elements_axial B.elements_circumferential (f p) (q p)) {r : ℝ}
    {A : ℝ → ℕ → ℕ → ℕ → ℝ} (hA : ∀ s, ∀ p < B.n_pad, f p (s / r) = .ok (pad (A s) p)) :
    Resists (fun s => B.resultant (A s))
      (-(film_integral B HX (fun i j p => q p i j) *
        (B.reference_viscosity * B.speed * B.journal_radius ^ 2 / B.radial_clearance ^ 2 / r)))
      (-(film_integral B HY (fun i j p => q p i j) *
        (B.reference_viscosity * B.speed * B.journal_radius ^ 2 / B.radial_clearance ^ 2 / r))) := by
  have key : ∀ i < B.elements_axial, ∀ j < B.elements_circumferential, ∀ p < B.n_pad,
      HasDerivAt (fun s => B.Pdim (A s) i j p) (q p i j *
        (B.reference_viscosity * B.speed * B.journal_radius ^ 2 / B.radial_clearance ^ 2 / r)) 0 := by
    intro i hi j hj p hp
    have := scaled_slope (A := fun s => pad (A s) p) (h p hp) (fun s => hA s p hp) hi hj
    unfold Pdim
    have h2 := ((((this.mul_const B.reference_viscosity).mul_const B.speed).mul_const
      (B.journal_radius ^ 2)).div_const (B.radial_clearance ^ 2))
    refine h2.congr_deriv ?_
    ring
  unfold Resists
  simp only [resultant_eq, neg_neg, ← film_integral_mul]
  exact ⟨film_integral_deriv HX key, film_integral_deriv HY key⟩

end Ross.ThdLemmas

namespace Ross.Props

open Real Thd Thd.THD Stencil Spec.Fluid Spec.Thd ThdLemmas Filter Topology

/-- C99: the sweeps over an open film end. -/
theorem C99_ends {B : THD} {n_p : ℕ} {F : LundFilm} {tol inj : ℝ} (htol : 0 < tol)
    (hinj : B.injection_pressure = some inj) (h2a : 2 ≤ B.elements_axial) (h2c : 2 ≤ B.elements_circumferential)
    (hfilm : ∀ t, 0 < B.film F.J n_p t)
    (hmu : ∀ i < B.elements_axial, ∀ j < B.elements_circumferential, 0 < F.mu i j) (harc : B.betha_s_dg ≠ 0)
    (hR : B.journal_radius ≠ 0) (hL : B.axial_length ≠ 0) :
    ∃ n, ∀ fuel ≥ n, ∃ w, B.lund_pad tol fuel n_p F = some (.ok w) :=
  pad_ends htol hinj (open_of hfilm hmu harc hR hL) h2a h2c

/-- C99: where there is no pressure, it does not change. -/
theorem C99_quiet {B : THD} {n_p : ℕ} {F : LundFilm} {tol inj : ℝ} {fuel : ℕ} {w : Whirl} (htol : tol < 1)
    (hinj : B.injection_pressure = some inj) (h : B.lund_pad tol fuel n_p F = some (.ok w)) {i j : ℕ}
    (hj : j < B.elements_circumferential) (hP : ¬0 < F.P i j) :
    w.PX (i * B.elements_circumferential + j) = 0 ∧ w.PY (i * B.elements_circumferential + j) = 0 := by
  obtain ⟨x, y, hX, hY, h0, -⟩ := last_pass htol hinj h
  have hk : ¬Loaded B F (i * B.elements_circumferential + j) := by
    unfold Loaded
    rw [index_div hj, index_mod hj]
    exact hP
  rw [hX, hY, lund_sweep_eq, lund_sweep_eq, GaussSeidel.sweep_inactive _ hk, GaussSeidel.sweep_inactive _ hk]
  exact h0 _ hk

/-- C99: where there is pressure, mass stays conserved to first order, up to the tolerance, when the journal is displaced
and the pressure changes with the real part. -/
theorem C99_displaced {B : THD} {J : Journal} {n_p : ℕ} {mu P : ℕ → ℕ → ℝ} {tol : ℝ} {fuel : ℕ} {w : Whirl}
    (htol : tol < 1) (hinj : B.injection_pressure = some 0)
    (h : B.lund_pad tol fuel n_p ⟨J, P, mu, fun _ _ => 1, 1⟩ = some (.ok w))
    (h2a : 2 ≤ B.elements_axial) (h2c : 2 ≤ B.elements_circumferential) (hfilm : ∀ t, 0 < B.film J n_p t)
    (hmu : ∀ i < B.elements_axial, ∀ j < B.elements_circumferential, 0 < mu i j) (harc : B.betha_s_dg ≠ 0)
    (hR : B.journal_radius ≠ 0) (hL : B.axial_length ≠ 0) {i j : ℕ} (hi : i < B.elements_axial)
    (hj : j < B.elements_circumferential) (hP : 0 < P i j) (x : Bool) :
    ∃ R, HasDerivAt (fun s => padExcess B.elements_axial B.elements_circumferential (B.thetaI n_p)
        (B.betha_s_dg * π / 180) ((B.journal_radius / B.axial_length) ^ 2)
        (B.film (if x then { J with X := J.X + s } else { J with Y := J.Y + s }) n_p)
        (fun t => -(J.Xpt * cos t + J.Ypt * sin t)) mu
        (fun i j => P i j + s * ((if x then w.PX else w.PY) (i * B.elements_circumferential + j)).re) i j) R 0 ∧
      |R| ≤ (B.film J n_p (B.thetaI n_p + (j + 1) * (B.betha_s_dg * π / 180 / B.elements_circumferential)) ^ 3 /
          (12 * meanAfter B.elements_circumferential (mu i) j * (B.betha_s_dg * π / 180) ^ 2) *
          ((1 / B.elements_axial) / (1 / B.elements_circumferential)) +
        (B.journal_radius / B.axial_length) ^ 2 *
          B.film J n_p (B.thetaI n_p + (j + 1 / 2) * (B.betha_s_dg * π / 180 / B.elements_circumferential)) ^ 3 /
          (12 * meanAfter B.elements_axial (fun i => mu i j) i) *
          ((1 / B.elements_circumferential) / (1 / B.elements_axial))) * tol := by
  rw [← after_eq B J n_p mu]
  have ho := open_of hfilm hmu harc hR hL
  obtain ⟨X, Y, hX, hY, -, hd⟩ := last_pass htol hinj h
  cases x with
  | true =>
    refine ⟨_, excess_deriv (moves_X B J n_p) (by simp) h2a h2c P
      (fun i j => (w.PX (i * B.elements_circumferential + j)).re) hi hj, ?_⟩
    have := lund_residual (D := HX) ho h2a h2c hi hj hP (inj := 0) (x := X) (fun k hk => hX ▸ (hd k hk).1)
    refine le_trans ?_ this
    refine le_trans (le_of_eq ?_) (Complex.abs_re_le_norm _)
    rw [residual_re h2a h2c _ hi hj, abs_neg, ← hX]
    congr 1
    ring
  | false =>
    refine ⟨_, excess_deriv (moves_Y B J n_p) (by simp) h2a h2c P
      (fun i j => (w.PY (i * B.elements_circumferential + j)).re) hi hj, ?_⟩
    have := lund_residual (D := HY) ho h2a h2c hi hj hP (inj := 0) (x := Y) (fun k hk => hY ▸ (hd k hk).2)
    refine le_trans ?_ this
    refine le_trans (le_of_eq ?_) (Complex.abs_re_le_norm _)
    rw [residual_re h2a h2c _ hi hj, abs_neg, ← hY]
    congr 1
    ring

/-- C99: likewise when the journal moves and the pressure changes with the imaginary part, over the ratio of the
frequencies. -/
theorem C99_moving {B : THD} {J : Journal} {n_p : ℕ} {mu P : ℕ → ℕ → ℝ} {tol : ℝ} {fuel : ℕ} {w : Whirl}
    (htol : tol < 1) (hinj : B.injection_pressure = some 0)
    (h : B.lund_pad tol fuel n_p ⟨J, P, mu, fun _ _ => 1, 1⟩ = some (.ok w))
    (h2a : 2 ≤ B.elements_axial) (h2c : 2 ≤ B.elements_circumferential) (hfilm : ∀ t, 0 < B.film J n_p t)
    (hmu : ∀ i < B.elements_axial, ∀ j < B.elements_circumferential, 0 < mu i j) (harc : B.betha_s_dg ≠ 0)
    (hR : B.journal_radius ≠ 0) (hL : B.axial_length ≠ 0) {i j : ℕ} (hi : i < B.elements_axial)
    (hj : j < B.elements_circumferential) (hP : 0 < P i j) (x : Bool) :
    ∃ R, HasDerivAt (fun s => padExcess B.elements_axial B.elements_circumferential (B.thetaI n_p)
        (B.betha_s_dg * π / 180) ((B.journal_radius / B.axial_length) ^ 2) (B.film J n_p)
        (fun t => -((if x then J.Xpt + s else J.Xpt) * cos t + (if x then J.Ypt else J.Ypt + s) * sin t)) mu
        (fun i j => P i j + s * (((if x then w.PX else w.PY) (i * B.elements_circumferential + j)).im / 0.001)) i j) R 0 ∧
      |R| ≤ (B.film J n_p (B.thetaI n_p + (j + 1) * (B.betha_s_dg * π / 180 / B.elements_circumferential)) ^ 3 /
          (12 * meanAfter B.elements_circumferential (mu i) j * (B.betha_s_dg * π / 180) ^ 2) *
          ((1 / B.elements_axial) / (1 / B.elements_circumferential)) +
        (B.journal_radius / B.axial_length) ^ 2 *
          B.film J n_p (B.thetaI n_p + (j + 1 / 2) * (B.betha_s_dg * π / 180 / B.elements_circumferential)) ^ 3 /
          (12 * meanAfter B.elements_axial (fun i => mu i j) i) *
          ((1 / B.elements_circumferential) / (1 / B.elements_axial))) * (tol / 0.001) := by
  rw [← after_eq B J n_p mu]
  have ho := open_of hfilm hmu harc hR hL
  obtain ⟨X, Y, hX, hY, -, hd⟩ := last_pass htol hinj h
  have hg : (0 : ℝ) < lund_gamma := by unfold lund_gamma; norm_num
  have eg : (0.001 : ℝ) = lund_gamma := rfl
  simp only [eg]
  cases x with
  | true =>
    refine ⟨_, excess_deriv (moves_Xpt B J n_p) (by simp) h2a h2c P
      (fun i j => (w.PX (i * B.elements_circumferential + j)).im / lund_gamma) hi hj, ?_⟩
    have := lund_residual (D := HX) ho h2a h2c hi hj hP (inj := 0) (x := X) (fun k hk => hX ▸ (hd k hk).1)
    have h2 := (Complex.abs_im_le_norm _).trans this
    rw [residual_im h2a h2c _ hi hj, abs_neg, ← hX, abs_mul, abs_of_pos hg] at h2
    rw [← mul_div_assoc, le_div_iff₀ hg, mul_comm |_|]
    refine le_trans (le_of_eq ?_) h2
    congr 2
    ring
  | false =>
    refine ⟨_, excess_deriv (moves_Ypt B J n_p) (by simp) h2a h2c P
      (fun i j => (w.PY (i * B.elements_circumferential + j)).im / lund_gamma) hi hj, ?_⟩
    have := lund_residual (D := HY) ho h2a h2c hi hj hP (inj := 0) (x := Y) (fun k hk => hY ▸ (hd k hk).2)
    have h2 := (Complex.abs_im_le_norm _).trans this
    rw [residual_im h2a h2c _ hi hj, abs_neg, ← hY, abs_mul, abs_of_pos hg] at h2
    rw [← mul_div_assoc, le_div_iff₀ hg, mul_comm |_|]
    refine le_trans (le_of_eq ?_) h2
    congr 2
    ring

/-- C99: in a film that is under pressure everywhere, the real and imaginary parts are the derivatives of the pressure for
displacements and velocities of the journal, at constant viscosity, up to a multiple of the tolerance. -/
theorem C99_pressure_partial {B : THD} {solve : Fluid.FluidFlow.Solver} (hsolve : SolverOk solve) {J : Journal} {n_p : ℕ}
    {mu P : ℕ → ℕ → ℝ} (h : B.flooded solve J n_p mu = .ok P) (hfilm : ∀ t, 0 < B.film J n_p t)
    (hmu : ∀ i < B.elements_axial, ∀ j < B.elements_circumferential, 0 < mu i j) (harc : B.betha_s_dg ≠ 0)
    (hR : B.journal_radius ≠ 0) (hL : B.axial_length ≠ 0) (hinj : B.injection_pressure = some 0)
    (hpos : ∀ i < B.elements_axial, ∀ j < B.elements_circumferential, 0 < P i j) :
    ∃ K, ∃ qx qy vx vy : ℕ → ℕ → ℝ,
      PressureSlope B.elements_axial B.elements_circumferential
        (fun s => B.flooded solve { J with X := J.X + s } n_p mu) qx ∧
      PressureSlope B.elements_axial B.elements_circumferential
        (fun s => B.flooded solve { J with Y := J.Y + s } n_p mu) qy ∧
      PressureSlope B.elements_axial B.elements_circumferential
        (fun s => B.flooded solve { J with Xpt := J.Xpt + s } n_p mu) vx ∧
      PressureSlope B.elements_axial B.elements_circumferential
        (fun s => B.flooded solve { J with Ypt := J.Ypt + s } n_p mu) vy ∧
      ∀ tol < 1, ∀ fuel w, B.lund_pad tol fuel n_p ⟨J, P, mu, fun _ _ => 1, 1⟩ = some (.ok w) →
        ∀ i < B.elements_axial, ∀ j < B.elements_circumferential,
          |(w.PX (i * B.elements_circumferential + j)).re - qx i j| ≤ K * tol ∧
          |(w.PX (i * B.elements_circumferential + j)).im / 0.001 - vx i j| ≤ K * tol ∧
          |(w.PY (i * B.elements_circumferential + j)).re - qy i j| ≤ K * tol ∧
          |(w.PY (i * B.elements_circumferential + j)).im / 0.001 - vy i j| ≤ K * tol := by
  obtain ⟨-, h2c, h2a, -⟩ := flooded_ok h
  have ho := open_of hfilm hmu harc hR hL
  obtain ⟨K1, qx, vx, k1, hqx, hvx, hx⟩ := lund_close hsolve ho h2a h2c h hpos (moves_X B J n_p) (by simp)
    (moves_Xpt B J n_p) (by simp)
  obtain ⟨K2, qy, vy, k2, hqy, hvy, hy⟩ := lund_close hsolve ho h2a h2c h hpos (moves_Y B J n_p) (by simp)
    (moves_Ypt B J n_p) (by simp)
  refine ⟨K1 + K2, qx, qy, vx, vy, hqx, hqy, hvx, hvy, fun tol htol fuel w hw i hi j hj => ?_⟩
  obtain ⟨X, Y, hX, hY, -, hd⟩ := last_pass htol hinj hw
  have h1 := hx tol X (fun k hk => hX ▸ (hd k hk).1) i hi j hj
  have h2 := hy tol Y (fun k hk => hY ▸ (hd k hk).2) i hi j hj
  rw [← hX] at h1
  rw [← hY] at h2
  have ht : 0 ≤ tol := (norm_nonneg _).trans (hd _ (index_lt hi hj)).1
  have e1 : K1 * tol ≤ (K1 + K2) * tol := mul_le_mul_of_nonneg_right (by linarith) ht
  have e2 : K2 * tol ≤ (K1 + K2) * tol := mul_le_mul_of_nonneg_right (by linarith) ht
  exact ⟨h1.1.trans e1, h1.2.trans e1, h2.1.trans e2, h2.2.trans e2⟩

/-- C99: in a film that is under pressure everywhere, the coefficients are what the force of the film resists to
displacements and velocities of the journal, at constant viscosity, up to a multiple of the tolerance. -/
theorem C99_coefficients_partial {B : THD} {solve : Fluid.FluidFlow.Solver} (hsolve : SolverOk solve) {J : Journal}
    {mu P : ℕ → ℕ → ℕ → ℝ} (h : ∀ p < B.n_pad, B.flooded solve J p (pad mu p) = .ok (pad P p))
    (hfilm : ∀ p < B.n_pad, ∀ t, 0 < B.film J p t)
    (hmu : ∀ p < B.n_pad, ∀ i < B.elements_axial, ∀ j < B.elements_circumferential, 0 < mu i j p)
    (harc : B.betha_s_dg ≠ 0) (hR : B.journal_radius ≠ 0) (hL : B.axial_length ≠ 0)
    (hinj : B.injection_pressure = some 0)
    (hpos : ∀ p < B.n_pad, ∀ i < B.elements_axial, ∀ j < B.elements_circumferential, 0 < P i j p) :
    ∃ K kxx kxy kyx kyy cxx cxy cyx cyy,
      (∀ A : ℝ → ℕ → ℕ → ℕ → ℝ, (∀ x, ∀ p < B.n_pad,
        B.flooded solve { J with X := J.X + x / B.radial_clearance } p (pad mu p) = .ok (pad (A x) p)) →
        Resists (fun x => B.resultant (A x)) kxx kyx) ∧
      (∀ A : ℝ → ℕ → ℕ → ℕ → ℝ, (∀ y, ∀ p < B.n_pad,
        B.flooded solve { J with Y := J.Y + y / B.radial_clearance } p (pad mu p) = .ok (pad (A y) p)) →
        Resists (fun y => B.resultant (A y)) kxy kyy) ∧
      (∀ A : ℝ → ℕ → ℕ → ℕ → ℝ, (∀ v, ∀ p < B.n_pad,
        B.flooded solve { J with Xpt := J.Xpt + v / (B.radial_clearance * B.speed) } p (pad mu p) = .ok (pad (A v) p)) →
        Resists (fun v => B.resultant (A v)) cxx cyx) ∧
      (∀ A : ℝ → ℕ → ℕ → ℕ → ℝ, (∀ v, ∀ p < B.n_pad,
        B.flooded solve { J with Ypt := J.Ypt + v / (B.radial_clearance * B.speed) } p (pad mu p) = .ok (pad (A v) p)) →
        Resists (fun v => B.resultant (A v)) cxy cyy) ∧
      ∀ tol, 0 ≤ tol → tol < 1 → ∀ fuel k c,
        B.lund_method tol fuel (fun p => ⟨J, pad P p, pad mu p, fun _ _ => 1, 1⟩) = some (.ok (k, c)) →
        |k.1 - kxx| ≤ K * tol ∧ |k.2.1 - kxy| ≤ K * tol ∧ |k.2.2.1 - kyx| ≤ K * tol ∧ |k.2.2.2 - kyy| ≤ K * tol ∧
        |c.1 - cxx| ≤ K * tol ∧ |c.2.1 - cxy| ≤ K * tol ∧ |c.2.2.1 - cyx| ≤ K * tol ∧ |c.2.2.2 - cyy| ≤ K * tol := by
  have hpad : ∀ p, ∃ K, ∃ qx qy vx vy : ℕ → ℕ → ℝ, p < B.n_pad →
      PressureSlope B.elements_axial B.elements_circumferential
        (fun s => B.flooded solve { J with X := J.X + s } p (pad mu p)) qx ∧
      PressureSlope B.elements_axial B.elements_circumferential
        (fun s => B.flooded solve { J with Y := J.Y + s } p (pad mu p)) qy ∧
      PressureSlope B.elements_axial B.elements_circumferential
        (fun s => B.flooded solve { J with Xpt := J.Xpt + s } p (pad mu p)) vx ∧
      PressureSlope B.elements_axial B.elements_circumferential
        (fun s => B.flooded solve { J with Ypt := J.Ypt + s } p (pad mu p)) vy ∧
      ∀ tol < 1, ∀ fuel w, B.lund_pad tol fuel p ⟨J, pad P p, pad mu p, fun _ _ => 1, 1⟩ = some (.ok w) →
        ∀ i < B.elements_axial, ∀ j < B.elements_circumferential,
          |(w.PX (i * B.elements_circumferential + j)).re - qx i j| ≤ K * tol ∧
          |(w.PX (i * B.elements_circumferential + j)).im / 0.001 - vx i j| ≤ K * tol ∧
          |(w.PY (i * B.elements_circumferential + j)).re - qy i j| ≤ K * tol ∧
          |(w.PY (i * B.elements_circumferential + j)).im / 0.001 - vy i j| ≤ K * tol := by
    intro p
    by_cases hp : p < B.n_pad
    · obtain ⟨K, qx, qy, vx, vy, h1⟩ := C99_pressure_partial hsolve (h p hp) (hfilm p hp) (hmu p hp) harc hR hL hinj
        (hpos p hp)
      exact ⟨K, qx, qy, vx, vy, fun _ => h1⟩
    · exact ⟨0, 0, 0, 0, 0, fun h => absurd h hp⟩
  choose K qx qy vx vy hK using hpad
  set G := B.reference_viscosity * B.speed * B.journal_radius ^ 2 with hG
  obtain ⟨Cx, hCx, hcx⟩ := film_integral_close B HX HX_le
  obtain ⟨Cy, hCy, hcy⟩ := film_integral_close B HY HY_le
  set KK := ∑ p ∈ Finset.range B.n_pad, |K p| with hKK
  have hKp : ∀ p < B.n_pad, K p ≤ KK := fun p hp =>
    (le_abs_self _).trans (Finset.single_le_sum (f := fun p => |K p|) (fun _ _ => abs_nonneg _) (Finset.mem_range.2 hp))
  have hKK0 : 0 ≤ KK := Finset.sum_nonneg fun _ _ => abs_nonneg _
  refine ⟨(Cx + Cy) * KK * (|G / B.radial_clearance ^ 2 / B.radial_clearance| +
      |G / B.radial_clearance ^ 2 / (B.radial_clearance * B.speed)|),
    -(film_integral B HX (fun i j p => qx p i j) * (G / B.radial_clearance ^ 2 / B.radial_clearance)),
    -(film_integral B HX (fun i j p => qy p i j) * (G / B.radial_clearance ^ 2 / B.radial_clearance)),
    -(film_integral B HY (fun i j p => qx p i j) * (G / B.radial_clearance ^ 2 / B.radial_clearance)),
    -(film_integral B HY (fun i j p => qy p i j) * (G / B.radial_clearance ^ 2 / B.radial_clearance)),
    -(film_integral B HX (fun i j p => vx p i j) * (G / B.radial_clearance ^ 2 / (B.radial_clearance * B.speed))),
    -(film_integral B HX (fun i j p => vy p i j) * (G / B.radial_clearance ^ 2 / (B.radial_clearance * B.speed))),
    -(film_integral B HY (fun i j p => vx p i j) * (G / B.radial_clearance ^ 2 / (B.radial_clearance * B.speed))),
    -(film_integral B HY (fun i j p => vy p i j) * (G / B.radial_clearance ^ 2 / (B.radial_clearance * B.speed))),
    fun A hA => force_slope (q := qx) (fun p hp => (hK p hp).1) hA,
    fun A hA => force_slope (q := qy) (fun p hp => (hK p hp).2.1) hA,
    fun A hA => force_slope (q := vx) (fun p hp => (hK p hp).2.2.1) hA,
    fun A hA => force_slope (q := vy) (fun p hp => (hK p hp).2.2.2.1) hA, ?_⟩
  intro tol htol0 htol fuel k c hm
  unfold lund_method at hm
  obtain ⟨w, hw, hm⟩ := andThen_ok hm
  have hm' : B.lund_coefficients w = (k, c) := Except.ok.inj (Option.some.inj hm)
  have hwp : ∀ p < B.n_pad, B.lund_pad tol fuel p ⟨J, pad P p, pad mu p, fun _ _ => 1, 1⟩ = some (.ok (w p)) :=
    fun p hp => pads_ok hw List.nodup_range p (List.mem_range.2 hp)
  have hclose := fun p hp i hi j hj => (hK p hp).2.2.2.2 tol htol fuel (w p) (hwp p hp) i hi j hj
  have hkt : ∀ p < B.n_pad, K p * tol ≤ KK * tol := fun p hp => mul_le_mul_of_nonneg_right (hKp p hp) htol0
  set a1 := |G / B.radial_clearance ^ 2 / B.radial_clearance| with ha1
  set a2 := |G / B.radial_clearance ^ 2 / (B.radial_clearance * B.speed)| with ha2
  have h1 : 0 ≤ a1 := abs_nonneg _
  have h2 : 0 ≤ a2 := abs_nonneg _
  have fin : ∀ (D : ℝ → ℝ) (C r : ℝ) (f g : ℕ → ℕ → ℕ → ℝ),
      (∀ f g ε, (∀ i < B.elements_axial, ∀ j < B.elements_circumferential, ∀ p < B.n_pad, |f i j p - g i j p| ≤ ε) →
        |film_integral B D f - film_integral B D g| ≤ C * ε) →
      0 ≤ C → C ≤ Cx + Cy → |r| ≤ a1 + a2 →
      (∀ i < B.elements_axial, ∀ j < B.elements_circumferential, ∀ p < B.n_pad, |f i j p - g i j p| ≤ K p * tol) →
      |-(film_integral B D f * r) - -(film_integral B D g * r)| ≤ (Cx + Cy) * KK * (a1 + a2) * tol := by
    intro D C r f g hC hC0 hCle hr hfg
    have e : -(film_integral B D f * r) - -(film_integral B D g * r) =
        -((film_integral B D f - film_integral B D g) * r) := by ring
    rw [e, abs_neg, abs_mul]
    have hb := hC f g (KK * tol) fun i hi j hj p hp => (hfg i hi j hj p hp).trans (hkt p hp)
    have hb' : |film_integral B D f - film_integral B D g| ≤ (Cx + Cy) * (KK * tol) :=
      hb.trans (mul_le_mul_of_nonneg_right hCle (mul_nonneg hKK0 htol0))
    calc _ ≤ (Cx + Cy) * (KK * tol) * (a1 + a2) :=
          mul_le_mul hb' hr (abs_nonneg _) (mul_nonneg (by linarith) (mul_nonneg hKK0 htol0))
      _ = _ := by ring
  have r1 : |G / B.radial_clearance ^ 2 / B.radial_clearance| ≤ a1 + a2 := by linarith
  have r2 : |G / B.radial_clearance ^ 2 / (B.radial_clearance * B.speed)| ≤ a1 + a2 := by linarith
  have kk : ∀ (D : ℝ → ℝ) (x : ℕ → ℕ → ℂ), -(B.lund_integral D x).re =
      -(film_integral B D (fun i j p => (x p (i * B.elements_circumferential + j)).re) *
        (G / B.radial_clearance ^ 2 / B.radial_clearance)) := by
    intro D x
    rw [integral_re, film_integral_mul]
    congr 2
    rw [← hG]
    ring
  have cc : ∀ (D : ℝ → ℝ) (x : ℕ → ℕ → ℂ), -(B.lund_integral D x).im / (lund_gamma * B.speed) =
      -(film_integral B D (fun i j p => (x p (i * B.elements_circumferential + j)).im / 0.001) *
        (G / B.radial_clearance ^ 2 / (B.radial_clearance * B.speed))) := by
    intro D x
    simp only [div_eq_mul_inv _ (0.001 : ℝ)]
    rw [integral_im, film_integral_mul, film_integral_mul, ← hG]
    unfold lund_gamma
    ring
  have hk : k = (B.lund_coefficients w).1 := by rw [hm']
  have hc : c = (B.lund_coefficients w).2 := by rw [hm']
  rw [hk, hc]
  unfold lund_coefficients
  dsimp only
  simp only [kk, cc]
  refine ⟨fin HX Cx _ _ _ hcx hCx (by linarith) r1 fun i hi j hj p hp => (hclose p hp i hi j hj).1,
    fin HX Cx _ _ _ hcx hCx (by linarith) r1 fun i hi j hj p hp => (hclose p hp i hi j hj).2.2.1,
    fin HY Cy _ _ _ hcy hCy (by linarith) r1 fun i hi j hj p hp => (hclose p hp i hi j hj).1,
    fin HY Cy _ _ _ hcy hCy (by linarith) r1 fun i hi j hj p hp => (hclose p hp i hi j hj).2.2.1,
    fin HX Cx _ _ _ hcx hCx (by linarith) r2 fun i hi j hj p hp => (hclose p hp i hi j hj).2.1,
    fin HX Cx _ _ _ hcx hCx (by linarith) r2 fun i hi j hj p hp => (hclose p hp i hi j hj).2.2.2,
    fin HY Cy _ _ _ hcy hCy (by linarith) r2 fun i hi j hj p hp => (hclose p hp i hi j hj).2.1,
    fin HY Cy _ _ _ hcy hCy (by linarith) r2 fun i hi j hj p hp => (hclose p hp i hi j hj).2.2.2⟩

/-- C99: the whirls of a flooded bearing are those about the point at which the forces were calculated last, in the film that
this left behind, pad by pad. -/
theorem C99_run {B : THD} {solve : Fluid.FluidFlow.Solver} {fuel : ℕ} {x : ℝ × ℝ} {k c : ℝ × ℝ × ℝ × ℝ}
    (hc : B.radial_clearance ≠ 0) (h : B.lund solve fuel x = some (.ok (k, c))) :
    ∃ P mu, B.film_flooded solve fuel ⟨x.1 * cos x.2, x.1 * sin x.2, 0, 0⟩ = some (.ok (P, mu)) ∧
      B.forces_flooded solve fuel ⟨x.1 * cos x.2, x.1 * sin x.2, 0, 0⟩ = some (.ok (B.resultant P)) ∧
      B.lund_method 0.000001 fuel
        (fun p => ⟨⟨x.1 * cos x.2, x.1 * sin x.2, 0, 0⟩, fun i j => P i j p, fun i j => mu i j p, fun _ _ => 1, 1⟩) =
          some (.ok (k, c)) ∧
      ∃ w, B.lund_coefficients w = (k, c) ∧ ∀ p < B.n_pad, B.lund_pad 0.000001 fuel p
        ⟨⟨x.1 * cos x.2, x.1 * sin x.2, 0, 0⟩, fun i j => P i j p, fun i j => mu i j p, fun _ _ => 1, 1⟩ =
          some (.ok (w p)) := by
  have e1 : ∀ r, x.1 * B.radial_clearance * r / B.radial_clearance = x.1 * r := fun r => by field_simp
  unfold lund at h
  simp only [e1] at h
  obtain ⟨f, hf, hm⟩ := andThen_ok h
  have eF : B.lund_flooded x f = fun p => ⟨⟨x.1 * cos x.2, x.1 * sin x.2, 0, 0⟩, fun i j => f.1 i j p,
      fun i j => f.2 i j p, fun _ _ => 1, 1⟩ := by
    funext p
    unfold lund_flooded
    simp only [e1]
    rfl
  rw [eF] at hm
  refine ⟨f.1, f.2, hf, ?_, hm, ?_⟩
  · unfold forces_flooded
    rw [hf]
  · unfold lund_method at hm
    obtain ⟨w, hw, hm⟩ := andThen_ok hm
    exact ⟨w, Except.ok.inj (Option.some.inj hm), fun p hp => pads_ok hw List.nodup_range p (List.mem_range.2 hp)⟩

/-- C99: when the viscosity has settled, so that the pressure is that of the film with this viscosity, and there is pressure
everywhere, the coefficients of a flooded bearing are what the force of the film resists, about that point, to displacements
and velocities of the journal, at this viscosity, up to a multiple of the tolerance. -/
theorem C99_run_partial {B : THD} {solve : Fluid.FluidFlow.Solver} (hsolve : SolverOk solve) {fuel : ℕ} {x : ℝ × ℝ}
    {mu P : ℕ → ℕ → ℕ → ℝ} (hc : B.radial_clearance ≠ 0) {J : Journal} (hJ : J = ⟨x.1 * cos x.2, x.1 * sin x.2, 0, 0⟩)
    (hf : B.film_flooded solve fuel J = some (.ok (P, mu)))
    (h : ∀ p < B.n_pad, B.flooded solve J p (pad mu p) = .ok (pad P p))
    (hfilm : ∀ p < B.n_pad, ∀ t, 0 < B.film J p t)
    (hmu : ∀ p < B.n_pad, ∀ i < B.elements_axial, ∀ j < B.elements_circumferential, 0 < mu i j p)
    (harc : B.betha_s_dg ≠ 0) (hR : B.journal_radius ≠ 0) (hL : B.axial_length ≠ 0)
    (hinj : B.injection_pressure = some 0)
    (hpos : ∀ p < B.n_pad, ∀ i < B.elements_axial, ∀ j < B.elements_circumferential, 0 < P i j p) :
    ∃ K kxx kxy kyx kyy cxx cxy cyx cyy,
      (∀ A : ℝ → ℕ → ℕ → ℕ → ℝ, (∀ x, ∀ p < B.n_pad,
        B.flooded solve { J with X := J.X + x / B.radial_clearance } p (pad mu p) = .ok (pad (A x) p)) →
        Resists (fun x => B.resultant (A x)) kxx kyx) ∧
      (∀ A : ℝ → ℕ → ℕ → ℕ → ℝ, (∀ y, ∀ p < B.n_pad,
        B.flooded solve { J with Y := J.Y + y / B.radial_clearance } p (pad mu p) = .ok (pad (A y) p)) →
        Resists (fun y => B.resultant (A y)) kxy kyy) ∧
      (∀ A : ℝ → ℕ → ℕ → ℕ → ℝ, (∀ v, ∀ p < B.n_pad,
        B.flooded solve { J with Xpt := J.Xpt + v / (B.radial_clearance * B.speed) } p (pad mu p) = .ok (pad (A v) p)) →
        Resists (fun v => B.resultant (A v)) cxx cyx) ∧
      (∀ A : ℝ → ℕ → ℕ → ℕ → ℝ, (∀ v, ∀ p < B.n_pad,
        B.flooded solve { J with Ypt := J.Ypt + v / (B.radial_clearance * B.speed) } p (pad mu p) = .ok (pad (A v) p)) →
        Resists (fun v => B.resultant (A v)) cxy cyy) ∧
      ∀ k c, B.lund solve fuel x = some (.ok (k, c)) →
        |k.1 - kxx| ≤ K * 0.000001 ∧ |k.2.1 - kxy| ≤ K * 0.000001 ∧ |k.2.2.1 - kyx| ≤ K * 0.000001 ∧
        |k.2.2.2 - kyy| ≤ K * 0.000001 ∧ |c.1 - cxx| ≤ K * 0.000001 ∧ |c.2.1 - cxy| ≤ K * 0.000001 ∧
        |c.2.2.1 - cyx| ≤ K * 0.000001 ∧ |c.2.2.2 - cyy| ≤ K * 0.000001 := by
  obtain ⟨K, kxx, kxy, kyx, kyy, cxx, cxy, cyx, cyy, h1, h2, h3, h4, h5⟩ :=
    C99_coefficients_partial hsolve h hfilm hmu harc hR hL hinj hpos
  refine ⟨K, kxx, kxy, kyx, kyy, cxx, cxy, cyx, cyy, h1, h2, h3, h4, fun k c hk => ?_⟩
  obtain ⟨P', mu', e, -, hm, -⟩ := C99_run hc hk
  rw [← hJ, hf] at e
  cases Except.ok.inj (Option.some.inj e)
  rw [← hJ] at hm
  exact h5 _ (by norm_num) (by norm_num) fuel k c hm

/-- C99: with the default, no pressure of the oil at the entry, there are no coefficients for a film that is under
pressure behind the entry of its first pad. -/
theorem C99_default_false {B : THD} {tol : ℝ} {fuel : ℕ} {F : ℕ → LundFilm} (hinj : B.injection_pressure = none)
    (hn : 0 < B.n_pad) (hP : ∃ i < B.elements_axial, 0 < (F 0).P i 0) :
    B.lund_method tol fuel F = some (.error .typeError) := by
  unfold lund_method
  obtain ⟨n, hn⟩ : ∃ n, B.n_pad = n + 1 := ⟨B.n_pad - 1, by omega⟩
  have hl : List.range B.n_pad = 0 :: (List.range n).map Nat.succ := by rw [hn, List.range_succ_eq_map]
  rw [hl]
  unfold lund_pads lund_pad
  rw [hinj]
  dsimp only
  rw [if_pos hP]
  rfl

/-- There is such a film, and the arguments of the constructor have that default. -/
example : ∃ solve, SolverOk solve ∧ ∃ P : ℕ → ℕ → ℝ, (exLund none).flooded solve exDown 0 (fun _ _ => 1) = .ok P ∧
    ∀ tol fuel, (exLund none).lund_method tol fuel (fun _ => ⟨exDown, P, fun _ _ => 1, fun _ _ => 1, 1⟩) =
      some (.error .typeError) := by
  obtain ⟨solve, hs, P, hP, hpos⟩ := exLund_pressure none
  exact ⟨solve, hs, P, hP, fun tol fuel => C99_default_false rfl (show 0 < 1 from one_pos)
    ⟨0, show 0 < 2 from two_pos, hpos 0 two_pos 0 two_pos⟩⟩

/-- C99: mass is conserved to first order only without a pressure of the oil at the entry, since that of the film at rest
takes none into account. -/
theorem C99_injection_false : ¬∀ (B : THD) (solve : Fluid.FluidFlow.Solver) (J : Journal) (n_p : ℕ) (mu P : ℕ → ℕ → ℝ)
    (tol inj : ℝ) (fuel : ℕ) (w : Whirl), SolverOk solve → tol < 1 → B.injection_pressure = some inj →
    B.flooded solve J n_p mu = .ok P → B.lund_pad tol fuel n_p ⟨J, P, mu, fun _ _ => 1, 1⟩ = some (.ok w) →
    (∀ t, 0 < B.film J n_p t) → (∀ i < B.elements_axial, ∀ j < B.elements_circumferential, 0 < mu i j) →
    B.betha_s_dg ≠ 0 → B.journal_radius ≠ 0 → B.axial_length ≠ 0 →
    ∀ i < B.elements_axial, ∀ j < B.elements_circumferential, 0 < P i j →
    ∃ R, HasDerivAt (fun s => padExcess B.elements_axial B.elements_circumferential (B.thetaI n_p)
        (B.betha_s_dg * π / 180) ((B.journal_radius / B.axial_length) ^ 2)
        (B.film { J with Y := J.Y + s } n_p)
        (fun t => -(J.Xpt * cos t + J.Ypt * sin t)) mu
        (fun i j => P i j + s * (w.PY (i * B.elements_circumferential + j)).re) i j) R 0 ∧
      |R| ≤ (B.film J n_p (B.thetaI n_p + (j + 1) * (B.betha_s_dg * π / 180 / B.elements_circumferential)) ^ 3 /
          (12 * meanAfter B.elements_circumferential (mu i) j * (B.betha_s_dg * π / 180) ^ 2) *
          ((1 / B.elements_axial) / (1 / B.elements_circumferential)) +
        (B.journal_radius / B.axial_length) ^ 2 *
          B.film J n_p (B.thetaI n_p + (j + 1 / 2) * (B.betha_s_dg * π / 180 / B.elements_circumferential)) ^ 3 /
          (12 * meanAfter B.elements_axial (fun i => mu i j) i) *
          ((1 / B.elements_circumferential) / (1 / B.elements_axial))) * tol := by
  intro hall
  obtain ⟨solve, hs, P, hP, hpos⟩ := exLund_pressure (some 1)
  have hfilm := exLund_open (some 1)
  obtain ⟨B, hB, h1, h2, h3, h4, h5, h6, h7, h8, -⟩ := exLund_fields (some 1)
  have hfe := exLund_film (some 1)
  rw [hB] at hP hfilm hfe
  have h2a : 2 ≤ B.elements_axial := h1.ge
  have h2c : 2 ≤ B.elements_circumferential := h2.ge
  have harc : B.betha_s_dg ≠ 0 := by rw [h4]; norm_num
  have hR : B.journal_radius ≠ 0 := by rw [h5]; norm_num
  have hL : B.axial_length ≠ 0 := by rw [h6]; norm_num
  have hmu : ∀ i < B.elements_axial, ∀ j < B.elements_circumferential, (0 : ℝ) < (fun _ _ => 1 : ℕ → ℕ → ℝ) i j :=
    fun _ _ _ _ => one_pos
  have ho := open_of (mu := fun _ _ => 1) hfilm hmu harc hR hL
  have hi : 0 < B.elements_axial := by omega
  have hj : 0 < B.elements_circumferential := by omega
  obtain ⟨-, s2, s3, -⟩ := ho.signs h2a h2c hi hj
  set b := B.CE exDown 0 (fun _ _ => 1) 0 0 + B.CN exDown 0 (fun _ _ => 1) 0 0 with hb
  set e := 2 * B.CDW HY exDown 0 (fun _ _ => 1) 0 0 with he
  have hbp : 0 < b := by positivity
  have hep : 0 < e := by
    rw [he]
    unfold CDW
    rw [hfe]
    have hp := Real.pi_pos
    have hd : B.jj 0 0 - 0.5 * B.dtheta = π - π / 4 := by
      unfold jj thetaI dtheta betha_s; rw [h2, h3, h4]; push_cast; ring
    have hsin : 0 < sin (π / 4) := sin_pos_of_pos_of_lt_pi (by linarith) (by linarith)
    rw [hd, sin_pi_sub]
    unfold HY
    rw [sin_pi_sub]
    have hY := dY_pos h2c
    have hZ := dZ_pos h2a
    have hbs : 0 < B.betha_s := by unfold betha_s; rw [h4]; positivity
    have hmw : MU_w (fun _ _ => (1 : ℝ)) 0 0 = 1 := by unfold MU_w; rw [if_pos rfl]
    rw [hmw]
    have : -1 / B.betha_s ^ 2 * (1 + 1 / 2 * sin (π / 4)) ^ 2 * -sin (π / 4) / (4 * 1) * B.dZ / B.dY =
        1 / B.betha_s ^ 2 * (1 + 1 / 2 * sin (π / 4)) ^ 2 * sin (π / 4) / (4 * 1) * B.dZ / B.dY := by ring
    rw [this]
    positivity
  obtain ⟨tol, ht0, ht1, htb⟩ : ∃ tol, 0 < tol ∧ tol < 1 ∧ b * tol ≤ e / 4 := by
    refine ⟨min (1 / 2) (e / (4 * b)), lt_min (by norm_num) (by positivity), (min_le_left _ _).trans_lt (by norm_num), ?_⟩
    calc b * min (1 / 2) (e / (4 * b)) ≤ b * (e / (4 * b)) := mul_le_mul_of_nonneg_left (min_le_right _ _) hbp.le
      _ = e / 4 := by field_simp
  obtain ⟨n, hn⟩ := pad_ends (n_p := 0) (F := ⟨exDown, P, fun _ _ => 1, fun _ _ => 1, 1⟩) ht0 h7 ho h2a h2c
  obtain ⟨w, hw⟩ := hn n le_rfl
  obtain ⟨R, hd, hRb⟩ := hall B solve exDown 0 (fun _ _ => 1) P tol 1 n w hs ht1 h7 hP hw hfilm hmu harc hR hL 0 hi 0 hj
    (hpos 0 two_pos 0 two_pos)
  have hRb' : |R| ≤ b * tol := by
    have e := after_eq B exDown 0 (fun _ _ => 1) 0 0
    rw [hb, e]
    exact hRb
  have hex := excess_deriv (mu := fun _ _ => 1) (moves_Y B exDown 0) (by simp) h2a h2c P
    (fun i j => (w.PY (i * B.elements_circumferential + j)).re) hi hj
  have hRe := hd.unique hex
  obtain ⟨X, Y, hX, hY, -, hdd⟩ := last_pass ht1 h7 hw
  have hres := (Complex.abs_re_le_norm _).trans (lund_residual (D := HY) ho h2a h2c hi hj (hpos 0 two_pos 0 two_pos)
    (inj := 1) (x := Y) (fun k hk => hY ▸ (hdd k hk).2))
  rw [residual_re_inj 1 h2a h2c _ hi hj, if_pos rfl, ← hY, mul_one, ← he, ← hb] at hres
  rw [one_mul, one_mul, zero_mul, add_zero] at hRe
  rw [← hRe] at hres
  have a1 := (abs_le.1 (hRb'.trans htb))
  have a2 := (abs_le.1 (hres.trans htb))
  linarith [a1.1, a2.1]

/-- The hypotheses of the theorems above hold for a bearing, and its sweeps end. -/
example : ∃ solve, SolverOk solve ∧ ∃ P : ℕ → ℕ → ℝ, (exLund (some 0)).flooded solve exDown 0 (fun _ _ => 1) = .ok P ∧
    (∀ i < 2, ∀ j < 2, 0 < P i j) ∧ (∀ t, 0 < (exLund (some 0)).film exDown 0 t) ∧
    ∃ n, ∀ fuel ≥ n, ∃ w, (exLund (some 0)).lund_pad 0.000001 fuel 0 ⟨exDown, P, fun _ _ => 1, fun _ _ => 1, 1⟩ =
      some (.ok w) := by
  obtain ⟨solve, hs, P, hP, hpos⟩ := exLund_pressure (some 0)
  exact ⟨solve, hs, P, hP, hpos, exLund_open _, C99_ends (by norm_num) rfl (le_refl 2) (le_refl 2) (exLund_open _)
    (fun _ _ _ _ => one_pos) (by show (90 : ℝ) ≠ 0; norm_num) (by show (1 : ℝ) ≠ 0; norm_num)
    (by show (1 : ℝ) ≠ 0; norm_num)⟩

theorem loop_mono {σ : Type} {test : σ → Prop} {body body' : σ → Option (Res σ)}
    (hb : ∀ s r, body s = some r → body' s = some r) {n m : ℕ} {s : σ} {r : Res σ}
    (h : whileLoop test body n s = some r) (hm : n ≤ m) : whileLoop test body' m s = some r := by
  induction n generalizing s m with
  | zero => cases h
  | succ n ih =>
    obtain ⟨m, rfl⟩ : ∃ k, m = k + 1 := ⟨m - 1, by omega⟩
    unfold whileLoop at h ⊢
    split_ifs at h ⊢ with ht
    · cases hs : body s with
      | none => rw [hs] at h; cases h
      | some q =>
        rw [hb s q hs]
        rw [hs] at h
        cases q with
        | error e => exact h
        | ok s' => exact ih h (by omega)
    · exact h

theorem pads_mono {B : THD} {solve} {J : Journal} {n m : ℕ} {l : List ℕ} {s : Fields} {r : Res Fields}
    (h : B.pads_loop solve J n l s = some r) (hm : n ≤ m) : B.pads_loop solve J m l s = some r := by
  induction l generalizing s with
  | nil => exact h
  | cons p l ih =>
    unfold pads_loop at h ⊢
    cases hs : B.pad_loop solve J n p s with
    | none => rw [hs] at h; cases h
    | some q =>
      have : B.pad_loop solve J m p s = some q := loop_mono (fun _ _ h => h) hs hm
      rw [this]
      rw [hs] at h
      cases q with
      | error e => exact h
      | ok s' => exact ih h

/-- More fuel does not change the film. -/
theorem film_mono {B : THD} {solve : Fluid.FluidFlow.Solver} {J : Journal} {n m : ℕ}
    {r : Res ((ℕ → ℕ → ℕ → ℝ) × (ℕ → ℕ → ℕ → ℝ))} (h : B.film_flooded solve n J = some r) (hm : n ≤ m) :
    B.film_flooded solve m J = some r := by
  unfold film_flooded at h ⊢
  cases hc : B.pad_ct with
  | error e => rw [hc] at h; exact h
  | ok ct =>
    rw [hc] at h
    dsimp only at h ⊢
    split at h
    · cases h
    · rename_i e hw
      rw [loop_mono (body' := B.mixing_step solve J m) ?_ hw hm]
      · exact h
      · intro s r hs
        unfold mixing_step at hs ⊢
        split at hs
        · cases hs
        · rename_i e hp; rw [pads_mono hp hm]; exact hs
        · rename_i e hp; rw [pads_mono hp hm]; exact hs
    · rename_i e hw
      rw [loop_mono (body' := B.mixing_step solve J m) ?_ hw hm]
      · exact h
      · intro s r hs
        unfold mixing_step at hs ⊢
        split at hs
        · cases hs
        · rename_i e hp; rw [pads_mono hp hm]; exact hs
        · rename_i e hp; rw [pads_mono hp hm]; exact hs

theorem pads_run {B : THD} {tol : ℝ} {fuel : ℕ} {F : ℕ → LundFilm} {l : List ℕ}
    (h : ∀ p ∈ l, ∃ w, B.lund_pad tol fuel p (F p) = some (.ok w)) : ∃ w, B.lund_pads tol fuel F l = some (.ok w) := by
  induction l with
  | nil => exact ⟨_, rfl⟩
  | cons p l ih =>
    obtain ⟨w, hw⟩ := h p List.mem_cons_self
    obtain ⟨ws, hws⟩ := ih fun q hq => h q (List.mem_cons_of_mem _ hq)
    refine ⟨Function.update ws p w, ?_⟩
    unfold lund_pads
    rw [hw, hws]
    rfl

/-- A bearing whose film can be calculated, and whose whirls too. -/
noncomputable def lundThd : THD := { freshThd with injection_pressure := some 0 }

/-- The whole calculation ends for a journal off the centre, and gives coefficients. -/
example {solve : Fluid.FluidFlow.Solver} : ∃ fuel k c, lundThd.radial_clearance ≠ 0 ∧
    lundThd.lund solve fuel (1 / 2, -(π / 2)) = some (.ok (k, c)) := by
  have hc : lundThd.radial_clearance = 1 := rfl
  have hn : lundThd.n_pad = 1 := rfl
  have hJ : (⟨(1 / 2 : ℝ) * cos (-(π / 2)), (1 / 2 : ℝ) * sin (-(π / 2)), 0, 0⟩ : Journal) = exDown := by
    rw [cos_neg, sin_neg, cos_pi_div_two, sin_pi_div_two]
    unfold exDown
    norm_num
  have hfilm : ∀ t, 0 < lundThd.film exDown 0 t := exLund_open none
  have hfe : ∀ fuel, ∃ f, lundThd.film_flooded solve (fuel + 4) exDown = some (.ok f) := by
    intro fuel
    have hF : ∃ F, lundThd.forces_flooded solve (fuel + 4) exDown = some (.ok F) := by
      refine C95_ends rfl one_ne_zero (by norm_num [lundThd, freshThd, exThd]) (by simp [lundThd, freshThd, exThd]) le_rfl
        le_rfl (fun _ _ => rfl) ?_ ?_ solve fuel
      · intro p hp
        have hp0 : p = 0 := by omega
        subst hp0
        rfl
      · intro p _ j
        have e : lundThd.Reyn (lundThd.HP exDown p j) 1 = lundThd.HP exDown p j := by
          norm_num [Reyn, lundThd, freshThd, exThd, reference_viscosity]
        rw [e]
        unfold HP film
        rw [if_pos (show lundThd.geometry = "circular" from rfl)]
        have h2 := abs_le.1 (abs_sin_le_one (lundThd.jj p j))
        unfold exDown
        dsimp only
        linarith [h2.1, h2.2]
    obtain ⟨F, hF⟩ := hF
    obtain ⟨f, hf, -⟩ := forces_film hF
    exact ⟨f, hf⟩
  have hmu : ∀ fuel f, lundThd.film_flooded solve fuel exDown = some (.ok f) → ∀ i j p, 0 < f.2 i j p := by
    intro fuel f hf
    obtain ⟨-, -, -, s, hI, -, e, -⟩ := film_ok (fun s : Fields => ∀ i j p, 0 < s.mu_new i j p) (by
      intro p s s1 hs h1 i j q
      obtain ⟨P, f, mt, S, -, -, -, -, -, -, -, h4, -⟩ := pad_step_ok h1
      rw [h4]
      unfold setPad
      split_ifs
      · show 0 < lundThd.a * (S i j * lundThd.reference_temperature) ^ lundThd.b / lundThd.reference_viscosity
        unfold reference_viscosity
        rw [show lundThd.b = 0 from rfl, rpow_zero, rpow_zero, show lundThd.a = 1 from rfl]
        norm_num
      · exact hs i j q) (fun _ _ _ => by unfold fresh; norm_num) (fun _ _ _ _ _ => by unfold fresh; norm_num)
      (show 0 < 2 from two_pos) (show 0 < 2 from two_pos) hf
    rw [e]
    exact hI
  obtain ⟨f, hf⟩ := hfe 0
  obtain ⟨n, hn'⟩ := C99_ends (B := lundThd) (n_p := 0)
    (F := ⟨exDown, fun i j => f.1 i j 0, fun i j => f.2 i j 0, fun _ _ => 1, 1⟩) (tol := 0.000001) (by norm_num) rfl
    (le_refl 2) (le_refl 2) hfilm (fun i _ j _ => hmu _ _ hf i j 0) (by show (90 : ℝ) ≠ 0; norm_num)
    (by show (1 : ℝ) ≠ 0; norm_num) (by show (1 : ℝ) ≠ 0; norm_num)
  obtain ⟨w, hw⟩ := hn' (n + 4) (by omega)
  have hf' := film_mono hf (show 0 + 4 ≤ n + 4 by omega)
  have e1 : ∀ r, (1 / 2 : ℝ) * lundThd.radial_clearance * r / lundThd.radial_clearance = 1 / 2 * r := fun r => by
    rw [hc, mul_one, div_one]
  obtain ⟨ws, hws⟩ := pads_run (B := lundThd) (tol := 0.000001) (fuel := n + 4)
    (F := lundThd.lund_flooded (1 / 2, -(π / 2)) f) (l := List.range lundThd.n_pad) (by
      intro p hp
      have hp0 : p = 0 := by have := List.mem_range.1 hp; omega
      subst hp0
      refine ⟨w, ?_⟩
      unfold lund_flooded
      simp only [e1, hJ]
      exact hw)
  refine ⟨n + 4, (lundThd.lund_coefficients ws).1, (lundThd.lund_coefficients ws).2, by rw [hc]; exact one_ne_zero, ?_⟩
  unfold lund
  simp only [e1, hJ]
  rw [hf']
  show lundThd.lund_method _ _ _ = _
  unfold lund_method
  rw [hws]
  rfl

end Ross.Props
