import Mathlib.Analysis.Calculus.MeanValue
import Mathlib.Analysis.SpecialFunctions.Trigonometric.DerivHyp
import Verif.Props.ThdPressure

/-!
# The temperature in the film of a flooded thermohydrodynamic bearing (C93)
-/

namespace Ross.ThdLemmas

open Real Thd Thd.THD Stencil Spec.Fluid Spec.Thd

theorem slope_y (B : THD) (P : ℕ → ℕ → ℝ) (i j : ℕ) : slopeAt B.elements_circumferential B.dY (P i) j = B.dPdy P i j :=
  rfl

theorem slope_z (B : THD) (P : ℕ → ℕ → ℝ) (i j : ℕ) :
    slopeAt B.elements_axial B.dZ (fun i => P i j) i = B.dPdz P i j := rfl

/-- The conductance around the axis, over the thickness of the film. -/
noncomputable def kY (B : THD) : ℝ := B.k_t * B.dZ / (B.rho * B.Cp * B.speed * (B.betha_s * B.journal_radius) ^ 2 * B.dY)

/-- The conductance along the axis, over the thickness of the film. -/
noncomputable def kZ (B : THD) : ℝ := B.k_t * B.dY / (B.rho * B.Cp * B.speed * B.axial_length ^ 2 * B.dZ)

theorem AE_eq (B : THD) (h : ℝ) : B.AE h = -(kY B * h) := by
  unfold THD.AE kY
  ring

theorem AW_eq (B : THD) (h gy mu : ℝ) : B.AW h gy mu = -(Spec.Thd.around B.betha_s h mu gy * B.dZ) - kY B * h := by
  unfold THD.AW kY Spec.Thd.around
  ring

theorem AN_eq (B : THD) (h gz mu : ℝ) :
    B.AN h gz mu = Spec.Thd.along ((B.journal_radius / B.axial_length) ^ 2) h mu gz * B.dY / 2 - kZ B * h := by
  unfold THD.AN kZ Spec.Thd.along
  ring

theorem AS_eq (B : THD) (h gz mu : ℝ) :
    B.AS h gz mu = -(Spec.Thd.along ((B.journal_radius / B.axial_length) ^ 2) h mu gz * B.dY / 2) - kZ B * h := by
  unfold THD.AS kZ Spec.Thd.along
  ring

theorem energy_iff (B : THD) (J : Journal) (n_p : ℕ) (P mt T : ℕ → ℕ → ℝ) (Tin : ℝ) (heat : ℕ → ℕ → ℝ) :
    EnergyBalance B.elements_axial B.elements_circumferential B.dY B.dZ B.betha_s
        ((B.journal_radius / B.axial_length) ^ 2) (kY B) (kZ B) Tin (B.HP J n_p) mt P heat T ↔
      ∀ i < B.elements_axial, ∀ j < B.elements_circumferential,
        op B.elements_axial B.elements_circumferential
          (fun i j => -B.AW (B.HP J n_p j) (B.dPdy P i j) (mt i j)) (fun _ j => -B.AE (B.HP J n_p j))
          (fun i j => -B.AN (B.HP J n_p j) (B.dPdz P i j) (mt i j))
          (fun i j => -B.AS (B.HP J n_p j) (B.dPdz P i j) (mt i j)) 0 0 0 T i j =
        if j = 0 then heat i j - 2 * B.AW (B.HP J n_p j) (B.dPdy P i j) (mt i j) * Tin else heat i j := by
  refine forall_congr' fun i => forall_congr' fun hi => forall_congr' fun j => forall_congr' fun hj => ?_
  dsimp only
  rw [slope_y, slope_z]
  unfold op
  dsimp only
  rw [AE_eq, AW_eq, AN_eq, AS_eq]
  split_ifs <;> constructor <;> intro h <;> linear_combination h

/-- The square of a shear rate, integrated. -/
theorem shear_integral {h mu g : ℝ} (hm : 0 < mu) (a : ℝ) :
    ∫ y in (0 : ℝ)..h, mu * (a + g / (2 * mu) * (2 * y - h)) ^ 2 = mu * a ^ 2 * h + h ^ 3 * g ^ 2 / (12 * mu) := by
  have e : (fun y : ℝ => mu * (a + g / (2 * mu) * (2 * y - h)) ^ 2) = fun y : ℝ =>
      mu * (a - g / (2 * mu) * h) ^ 2 + (2 * (a - g / (2 * mu) * h) * g) * y + g ^ 2 / mu * y ^ 2 := by
    funext y
    field_simp
    ring
  rw [e, intervalIntegral.integral_add, intervalIntegral.integral_add, intervalIntegral.integral_const,
    intervalIntegral.integral_const_mul, intervalIntegral.integral_const_mul, integral_id, integral_pow]
  · simp only [smul_eq_mul]
    field_simp
    push_cast
    ring
  · exact intervalIntegrable_const
  · exact (continuous_const.mul continuous_id).intervalIntegrable _ _
  · exact (continuous_const.add (continuous_const.mul continuous_id)).intervalIntegrable _ _
  · exact (continuous_const.mul (continuous_id.pow 2)).intervalIntegrable _ _

theorem dissipation_eq {h mu gy gz : ℝ} (hh : 0 < h) (hm : 0 < mu) :
    dissipation h mu gy gz = mu / h + h ^ 3 / (12 * mu) * (gy ^ 2 + gz ^ 2) := by
  unfold dissipation
  have e : (fun y : ℝ => mu * ((1 / h + gy / (2 * mu) * (2 * y - h)) ^ 2 + (gz / (2 * mu) * (2 * y - h)) ^ 2)) =
      fun y : ℝ => mu * (1 / h + gy / (2 * mu) * (2 * y - h)) ^ 2 + mu * (0 + gz / (2 * mu) * (2 * y - h)) ^ 2 := by
    funext y
    ring
  rw [e, intervalIntegral.integral_add, shear_integral hm, shear_integral hm]
  · field_simp
    ring
  · exact Continuous.intervalIntegrable (by fun_prop) _ _
  · exact Continuous.intervalIntegrable (by fun_prop) _ _

theorem tanh_le {x : ℝ} (hx : 0 ≤ x) : tanh x ≤ x := by
  rw [tanh_eq_sinh_div_cosh, div_le_iff₀ (cosh_pos x)]
  rcases hx.eq_or_lt with rfl | hx
  · simp
  · obtain ⟨c, ⟨hc0, hc1⟩, hc⟩ := exists_deriv_eq_slope sinh hx continuous_sinh.continuousOn
      differentiable_sinh.differentiableOn
    rw [Real.deriv_sinh, sinh_zero, sub_zero, sub_zero, eq_div_iff hx.ne'] at hc
    rw [← hc, mul_comm]
    refine mul_le_mul_of_nonneg_left ?_ hx.le
    exact cosh_le_cosh.2 (by rw [abs_of_pos hc0, abs_of_pos hx]; exact hc1.le)

theorem bindOk {α β : Type} {x : Res α} {f : α → Res β} {b : β} (h : (x >>= f) = .ok b) : ∃ a, x = .ok a ∧ f a = .ok b := by
  cases x with
  | error e => cases h
  | ok a => exact ⟨a, rfl, h⟩

theorem pad_step_ok {B : THD} {solve} {J : Journal} {n_p : ℕ} {s s' : Fields}
    (h : B.pad_step solve J n_p s = .ok s') :
    ∃ P f mt T, B.flooded solve J n_p (pad s.mu_new n_p) = .ok P ∧ B.fat n_p = .ok f ∧
      mt = B.mu_turb J n_p P (pad s.mu_new n_p) (pad s.mu_turb n_p) ∧
      T = (fun i j => solve (B.elements_axial * B.elements_circumferential) (B.Mat_coef_T J n_p P mt)
        (B.b_T J n_p P mt (s.T_mist n_p)) (i * B.elements_circumferential + j)) ∧
      s'.P = setPad s.P n_p P ∧ s'.T = setPad s.T n_p (pad s.T_new n_p) ∧ s'.T_new = setPad s.T_new n_p T ∧
      s'.mu_new = setPad s.mu_new n_p
          (fun i j => (B.a * (T i j * B.reference_temperature) ^ B.b) / B.reference_viscosity) ∧
      s'.mu_turb = setPad s.mu_turb n_p mt ∧
      s'.T_end = Function.update s.T_end n_p ((∑ i ∈ Finset.range B.elements_axial,
        T i (B.elements_circumferential - 1) * B.reference_temperature) / B.elements_axial) ∧
      s'.T_mist = Function.update s.T_mist (B.before n_p) (f * B.reference_temperature + (1 - f) * s'.T_end n_p) := by
  unfold pad_step at h
  obtain ⟨P, hP, h⟩ := bindOk h
  obtain ⟨f, hf, h⟩ := bindOk h
  cases h
  refine ⟨P, f, _, _, hP, hf, rfl, rfl, rfl, rfl, rfl, rfl, rfl, rfl, ?_⟩
  simp only [Function.update_self]

theorem pad_setPad (A : ℕ → ℕ → ℕ → ℝ) (n_p : ℕ) (v : ℕ → ℕ → ℝ) : pad (setPad A n_p v) n_p = v := by
  funext i j
  exact if_pos rfl

theorem pad_setPad_ne (A : ℕ → ℕ → ℕ → ℝ) {n_p q : ℕ} (h : q ≠ n_p) (v : ℕ → ℕ → ℝ) :
    pad (setPad A n_p v) q = pad A q := by
  funext i j
  exact if_neg h

end Ross.ThdLemmas

namespace Ross.Props

open Real Thd Thd.THD Stencil Spec.Fluid Spec.Thd ThdLemmas

/-- The balance of energy in the film of pad `n_p`, over the reference temperature `T0`: the temperature `T` of the cells,
where oil with the temperature `Tin` enters.  What is set free is dissipated by the shear flow (with `U = speed R`), done by
the pressure as the journal moves across, and dissipated by that motion. -/
def HeatBalance (B : THD) (J : Journal) (n_p : ℕ) (Tin : ℝ) (mt P T : ℕ → ℕ → ℝ) : Prop :=
  let β := B.betha_s_dg * π / 180
  let t : ℕ → ℝ := fun j => B.thetaI n_p + (j + 1 / 2) * (β / B.elements_circumferential)
  let dY : ℝ := 1 / B.elements_circumferential
  let dZ : ℝ := 1 / B.elements_axial
  let R := B.journal_radius
  let L := B.axial_length
  let c := B.radial_clearance
  let h' : ℕ → ℝ := fun j => -(J.Xpt * cos (t j) + J.Ypt * sin (t j))
  EnergyBalance B.elements_axial B.elements_circumferential dY dZ β ((R / L) ^ 2)
    (B.k_t / (B.rho * B.Cp * B.speed) / (β * R) ^ 2 * (dZ / dY)) (B.k_t / (B.rho * B.Cp * B.speed) / L ^ 2 * (dY / dZ))
    (Tin / B.reference_temperature) (fun j => B.film J n_p (t j)) mt P
    (fun i j => B.reference_viscosity * B.speed / (B.rho * B.Cp * B.reference_temperature) * (R / c) ^ 2 * (dY * dZ) *
      (dissipation (B.film J n_p (t j)) (mt i j) (slopeAt B.elements_circumferential dY (P i) j / β)
          (R / L * slopeAt B.elements_axial dZ (fun i => P i j) i) +
        P i j * h' j + (c / R) ^ 2 * (4 / 3 * mt i j * h' j ^ 2 / B.film J n_p (t j)))) T

theorem jj_eq (B : THD) (n_p j : ℕ) :
    B.thetaI n_p + ((j : ℝ) + 1 / 2) * (B.betha_s_dg * π / 180 / B.elements_circumferential) = B.jj n_p j := by
  unfold jj dtheta betha_s
  ring

theorem heat_iff {B : THD} {J : Journal} {n_p : ℕ} {Tin : ℝ} {mt P T : ℕ → ℕ → ℝ} (hR : B.journal_radius ≠ 0)
    (hc : B.radial_clearance ≠ 0) (hfilm : ∀ t, 0 < B.film J n_p t)
    (hmt : ∀ i < B.elements_axial, ∀ j < B.elements_circumferential, 0 < mt i j) :
    HeatBalance B J n_p Tin mt P T ↔
      ∀ i < B.elements_axial, ∀ j < B.elements_circumferential,
        op B.elements_axial B.elements_circumferential
          (fun i j => -B.AW (B.HP J n_p j) (B.dPdy P i j) (mt i j)) (fun _ j => -B.AE (B.HP J n_p j))
          (fun i j => -B.AN (B.HP J n_p j) (B.dPdz P i j) (mt i j))
          (fun i j => -B.AS (B.HP J n_p j) (B.dPdz P i j) (mt i j)) 0 0 0 T i j =
        B.b_T J n_p P mt Tin (i * B.elements_circumferential + j) := by
  unfold HeatBalance
  dsimp only
  simp only [jj_eq]
  have e1 : B.k_t / (B.rho * B.Cp * B.speed) / (B.betha_s_dg * π / 180 * B.journal_radius) ^ 2 *
      (1 / (B.elements_axial : ℝ) / (1 / (B.elements_circumferential : ℝ))) = kY B := by
    unfold kY dZ dY betha_s
    ring
  have e2 : B.k_t / (B.rho * B.Cp * B.speed) / B.axial_length ^ 2 *
      (1 / (B.elements_circumferential : ℝ) / (1 / (B.elements_axial : ℝ))) = kZ B := by
    unfold kZ dZ dY
    ring
  rw [e1, e2]
  refine (energy_iff B J n_p P mt T (Tin / B.reference_temperature) _).trans ?_
  refine forall_congr' fun i => forall_congr' fun hi => forall_congr' fun j => forall_congr' fun hj => ?_
  have hb : B.b_T J n_p P mt Tin (i * B.elements_circumferential + j) =
      if j = 0 then B.B_T (B.HP J n_p j) (P i j) (hpt J (B.jj n_p j)) (B.dPdy P i j) (B.dPdz P i j) (mt i j) -
        2 * B.AW (B.HP J n_p j) (B.dPdy P i j) (mt i j) * (Tin / B.reference_temperature)
      else B.B_T (B.HP J n_p j) (P i j) (hpt J (B.jj n_p j)) (B.dPdy P i j) (B.dPdz P i j) (mt i j) := by
    unfold b_T
    rw [index_div hj, index_mod hj]
  have hB : B.reference_viscosity * B.speed / (B.rho * B.Cp * B.reference_temperature) *
      (B.journal_radius / B.radial_clearance) ^ 2 *
      (1 / (B.elements_circumferential : ℝ) * (1 / (B.elements_axial : ℝ))) *
      (dissipation (B.film J n_p (B.jj n_p j)) (mt i j)
          (slopeAt B.elements_circumferential (1 / (B.elements_circumferential : ℝ)) (P i) j /
            (B.betha_s_dg * π / 180))
          (B.journal_radius / B.axial_length *
            slopeAt B.elements_axial (1 / (B.elements_axial : ℝ)) (fun i => P i j) i) +
        P i j * -(J.Xpt * cos (B.jj n_p j) + J.Ypt * sin (B.jj n_p j)) +
        (B.radial_clearance / B.journal_radius) ^ 2 *
          (4 / 3 * mt i j * (-(J.Xpt * cos (B.jj n_p j) + J.Ypt * sin (B.jj n_p j))) ^ 2 /
            B.film J n_p (B.jj n_p j))) =
      B.B_T (B.HP J n_p j) (P i j) (hpt J (B.jj n_p j)) (B.dPdy P i j) (B.dPdz P i j) (mt i j) := by
    rw [dissipation_eq (hfilm _) (hmt i hi j hj)]
    change _ * (_ + _ * ((B.dPdy P i j / B.betha_s) ^ 2 + (_ * B.dPdz P i j) ^ 2) + _ + _) = _
    have hrc : (B.journal_radius / B.radial_clearance) ^ 2 * (B.radial_clearance / B.journal_radius) ^ 2 = 1 := by
      field_simp
    unfold B_T auxb_T hpt HP
    rw [show (1 / (B.elements_circumferential : ℝ)) = B.dY from rfl, show (1 / (B.elements_axial : ℝ)) = B.dZ from rfl]
    linear_combination (B.reference_viscosity * B.speed / (B.rho * B.Cp * B.reference_temperature) * (B.dY * B.dZ) *
      (4 / 3 * mt i j * (-(J.Xpt * cos (B.jj n_p j) + J.Ypt * sin (B.jj n_p j))) ^ 2 /
            B.film J n_p (B.jj n_p j))) * hrc
  rw [hb, hB]


/-- C93: the temperature of a pass is the one for which in every cell energy is conserved, where there is only one: oil
enters the pad with the mixing temperature, and pressure and viscosity are those of the pass. -/
theorem C93_balance {B : THD} {solve : Fluid.FluidFlow.Solver} (hsolve : SolverOk solve) {J : Journal} {n_p : ℕ}
    {s s' : Fields} (h : B.pad_step solve J n_p s = .ok s') (hR : B.journal_radius ≠ 0) (hc : B.radial_clearance ≠ 0)
    (hfilm : ∀ t, 0 < B.film J n_p t)
    (hmt : ∀ i < B.elements_axial, ∀ j < B.elements_circumferential, 0 < s'.mu_turb i j n_p) {T : ℕ → ℕ → ℝ}
    (hT : HeatBalance B J n_p (s.T_mist n_p) (pad s'.mu_turb n_p) (pad s'.P n_p) T)
    (huniq : ∀ T', HeatBalance B J n_p (s.T_mist n_p) (pad s'.mu_turb n_p) (pad s'.P n_p) T' →
      ∀ i < B.elements_axial, ∀ j < B.elements_circumferential, T' i j = T i j) :
    HeatBalance B J n_p (s.T_mist n_p) (pad s'.mu_turb n_p) (pad s'.P n_p) (pad s'.T_new n_p) ∧
      ∀ i < B.elements_axial, ∀ j < B.elements_circumferential, s'.T_new i j n_p = T i j := by
  obtain ⟨P, f, mt, S, hP, -, -, hS, h1, -, h3, -, h5, -⟩ := pad_step_ok h
  obtain ⟨-, h2c, h2a, -⟩ := flooded_ok hP
  have e1 : pad s'.P n_p = P := by rw [h1, pad_setPad]
  have e3 : pad s'.T_new n_p = S := by rw [h3, pad_setPad]
  have e5 : pad s'.mu_turb n_p = mt := by rw [h5, pad_setPad]
  have hmt' : ∀ i < B.elements_axial, ∀ j < B.elements_circumferential, 0 < mt i j := by
    rw [← e5]; exact hmt
  rw [e1, e5] at hT huniq ⊢
  rw [e3]
  have hsys : ∀ x : ℕ → ℝ, Solves (B.elements_axial * B.elements_circumferential) (B.Mat_coef_T J n_p P mt)
      (B.b_T J n_p P mt (s.T_mist n_p)) x ↔
      HeatBalance B J n_p (s.T_mist n_p) mt P (fun i j => x (i * B.elements_circumferential + j)) := by
    intro x
    rw [heat_iff hR hc hfilm hmt', ← solves_T B h2a h2c
      (fun i j => B.b_T J n_p P mt (s.T_mist n_p) (i * B.elements_circumferential + j)) x]
    have : (fun r => B.b_T J n_p P mt (s.T_mist n_p)
        (r / B.elements_circumferential * B.elements_circumferential + r % B.elements_circumferential)) =
        B.b_T J n_p P mt (s.T_mist n_p) := by
      funext r
      rw [Nat.div_add_mod']
    rw [this]
  have hx : Solves (B.elements_axial * B.elements_circumferential) (B.Mat_coef_T J n_p P mt)
      (B.b_T J n_p P mt (s.T_mist n_p))
      (fun r => T (r / B.elements_circumferential) (r % B.elements_circumferential)) := by
    rw [hsys, heat_iff hR hc hfilm hmt']
    rw [heat_iff hR hc hfilm hmt'] at hT
    intro i hi j hj
    rw [← hT i hi j hj]
    exact op_congr (fun i hi j hj => by rw [index_div hj, index_mod hj]) hi hj
  have hy := hsolve _ _ _ _ hx (fun y hy r hr => by
    have h0 : 0 < B.elements_circumferential := by omega
    have := huniq _ ((hsys y).1 hy) (r / B.elements_circumferential) ((Nat.div_lt_iff_lt_mul h0).2 hr)
      (r % B.elements_circumferential) (Nat.mod_lt _ h0)
    rwa [Nat.div_add_mod'] at this)
  have hb := (hsys _).1 hy
  rw [← hS] at hb
  refine ⟨hb, fun i hi j hj => ?_⟩
  have := huniq _ hb i hi j hj
  rw [← this, ← e3]
  rfl

/-- Oil flows forward in every cell, and along the axis conduction outweighs the flow: the cell Péclet number is at most
2. -/
structure Calm (B : THD) (J : Journal) (n_p : ℕ) (mt P : ℕ → ℕ → ℝ) : Prop where
  conduction : 0 < B.k_t / (B.rho * B.Cp * B.speed)
  forward : ∀ i < B.elements_axial, ∀ j < B.elements_circumferential,
    0 ≤ Spec.Thd.around (B.betha_s_dg * π / 180) (B.film J n_p (B.jj n_p j)) (mt i j)
      (slopeAt B.elements_circumferential (1 / B.elements_circumferential) (P i) j)
  peclet : ∀ i < B.elements_axial, ∀ j < B.elements_circumferential,
    |Spec.Thd.along ((B.journal_radius / B.axial_length) ^ 2) (B.film J n_p (B.jj n_p j)) (mt i j)
        (slopeAt B.elements_axial (1 / B.elements_axial) (fun i => P i j) i)| * (1 / B.elements_axial) ≤
      2 * (B.k_t / (B.rho * B.Cp * B.speed) / B.axial_length ^ 2 * B.film J n_p (B.jj n_p j))

theorem calm_signs {B : THD} {J : Journal} {n_p : ℕ} {mt P : ℕ → ℕ → ℝ} (h : Calm B J n_p mt P)
    (h2a : 2 ≤ B.elements_axial) (h2c : 2 ≤ B.elements_circumferential) (harc : B.betha_s_dg ≠ 0)
    (hR : B.journal_radius ≠ 0) (hfilm : ∀ t, 0 < B.film J n_p t) {i j : ℕ}
    (hi : i < B.elements_axial) (hj : j < B.elements_circumferential) :
    0 < -B.AW (B.HP J n_p j) (B.dPdy P i j) (mt i j) ∧ 0 ≤ -B.AE (B.HP J n_p j) ∧
      0 ≤ -B.AN (B.HP J n_p j) (B.dPdz P i j) (mt i j) ∧ 0 ≤ -B.AS (B.HP J n_p j) (B.dPdz P i j) (mt i j) := by
  have hY := dY_pos h2c
  have hZ := dZ_pos h2a
  have hb := betha_ne harc
  have hf : 0 < B.HP J n_p j := hfilm _
  have h1 : 0 < kY B := by
    have : kY B = B.k_t / (B.rho * B.Cp * B.speed) * (B.dZ / ((B.betha_s * B.journal_radius) ^ 2 * B.dY)) := by
      unfold kY; ring
    rw [this]
    exact mul_pos h.conduction (by positivity)
  have h2 : kZ B = B.k_t / (B.rho * B.Cp * B.speed) / B.axial_length ^ 2 * (B.dY / B.dZ) := by
    unfold kZ; ring
  have h3 := h.forward i hi j hj
  have h4 := h.peclet i hi j hj
  change 0 ≤ Spec.Thd.around B.betha_s (B.HP J n_p j) (mt i j) (B.dPdy P i j) at h3
  change |Spec.Thd.along _ (B.HP J n_p j) (mt i j) (B.dPdz P i j)| * B.dZ ≤
    2 * (B.k_t / (B.rho * B.Cp * B.speed) / B.axial_length ^ 2 * B.HP J n_p j) at h4
  have h5 : |Spec.Thd.along ((B.journal_radius / B.axial_length) ^ 2) (B.HP J n_p j) (mt i j) (B.dPdz P i j)| * B.dY / 2 ≤
      kZ B * B.HP J n_p j := by
    rw [h2]
    have h6 : 0 < B.dY / B.dZ := by positivity
    have h7 := mul_le_mul_of_nonneg_right h4 h6.le
    have h8 : |Spec.Thd.along ((B.journal_radius / B.axial_length) ^ 2) (B.HP J n_p j) (mt i j) (B.dPdz P i j)| * B.dZ *
        (B.dY / B.dZ) =
        |Spec.Thd.along ((B.journal_radius / B.axial_length) ^ 2) (B.HP J n_p j) (mt i j) (B.dPdz P i j)| * B.dY := by
      field_simp
    rw [h8] at h7
    linarith
  have h9 := abs_le.1 (le_refl
    |Spec.Thd.along ((B.journal_radius / B.axial_length) ^ 2) (B.HP J n_p j) (mt i j) (B.dPdz P i j)|)
  rw [AE_eq, AW_eq, AN_eq, AS_eq]
  refine ⟨?_, ?_, ?_, ?_⟩
  · have := mul_pos h1 hf
    have := mul_nonneg h3 hZ.le
    linarith
  · have := mul_pos h1 hf
    linarith
  · nlinarith [mul_le_mul_of_nonneg_right h9.2 hY.le]
  · nlinarith [mul_le_mul_of_nonneg_right h9.1 hY.le]

/-- C93: there is exactly one temperature that conserves energy, where the flow is calm. -/
theorem C93_unique {B : THD} {J : Journal} {n_p : ℕ} {Tin : ℝ} {mt P : ℕ → ℕ → ℝ} (hcalm : Calm B J n_p mt P)
    (h2a : 2 ≤ B.elements_axial) (h2c : 2 ≤ B.elements_circumferential) (harc : B.betha_s_dg ≠ 0)
    (hR : B.journal_radius ≠ 0) (hc : B.radial_clearance ≠ 0)
    (hfilm : ∀ t, 0 < B.film J n_p t)
    (hmt : ∀ i < B.elements_axial, ∀ j < B.elements_circumferential, 0 < mt i j) :
    ∃ T : ℕ → ℕ → ℝ, HeatBalance B J n_p Tin mt P T ∧
      ∀ T' : ℕ → ℕ → ℝ, HeatBalance B J n_p Tin mt P T' →
        ∀ i < B.elements_axial, ∀ j < B.elements_circumferential, T' i j = T i j := by
  have sg := fun i hi j hj => calm_signs hcalm h2a h2c harc hR hfilm (i := i) (j := j) hi hj
  have inj : ∀ t u : ℕ → ℕ → ℝ, _ → ∀ i < B.elements_axial, ∀ j < B.elements_circumferential, t i j = u i j :=
    fun t u h => op_inj (t := t) (u := u) (fun i hi j hj => (sg i hi j hj).1) (fun i hi j hj => (sg i hi j hj).2.1)
      (fun i hi j hj => (sg i hi j hj).2.2.1) (fun i hi j hj => (sg i hi j hj).2.2.2) le_rfl le_rfl le_rfl h
  obtain ⟨x, hx, -⟩ := solves_exists (N := B.elements_axial * B.elements_circumferential)
    (M := B.Mat_coef_T J n_p P mt) (by
      intro x hx r hr
      have := (solves_T B h2a h2c (fun _ _ => 0) x).1 hx
      have h0 := inj (fun i j => x (i * B.elements_circumferential + j)) (fun _ _ => 0)
        (fun i hi j hj => by rw [this i hi j hj, op_zero])
      have hc : 0 < B.elements_circumferential := by omega
      have := h0 _ ((Nat.div_lt_iff_lt_mul hc).2 hr) _ (Nat.mod_lt r hc)
      rwa [Nat.div_add_mod'] at this)
    (fun r => B.b_T J n_p P mt Tin (r / B.elements_circumferential * B.elements_circumferential +
      r % B.elements_circumferential))
  have hx' := (solves_T B h2a h2c (fun i j => B.b_T J n_p P mt Tin (i * B.elements_circumferential + j)) x).1 hx
  refine ⟨_, (heat_iff hR hc hfilm hmt).2 hx', fun T' hT' => ?_⟩
  have ht := (heat_iff hR hc hfilm hmt).1 hT'
  exact inj _ _ fun i hi j hj => by rw [ht i hi j hj, hx' i hi j hj]

/-- C93: while the journal does not move across, nothing becomes colder than the oil that enters. -/
theorem C93_heated {B : THD} {J : Journal} {n_p : ℕ} {Tin : ℝ} {mt P T : ℕ → ℕ → ℝ} (hcalm : Calm B J n_p mt P)
    (h2a : 2 ≤ B.elements_axial) (h2c : 2 ≤ B.elements_circumferential) (harc : B.betha_s_dg ≠ 0)
    (hR : B.journal_radius ≠ 0) (hc : B.radial_clearance ≠ 0)
    (hfilm : ∀ t, 0 < B.film J n_p t)
    (hmt : ∀ i < B.elements_axial, ∀ j < B.elements_circumferential, 0 < mt i j)
    (hx : J.Xpt = 0) (hy : J.Ypt = 0)
    (hheat : 0 ≤ B.reference_viscosity * B.speed / (B.rho * B.Cp * B.reference_temperature))
    (hT : HeatBalance B J n_p Tin mt P T) :
    ∀ i < B.elements_axial, ∀ j < B.elements_circumferential, Tin / B.reference_temperature ≤ T i j := by
  have sg := fun i hi j hj => calm_signs hcalm h2a h2c harc hR hfilm (i := i) (j := j) hi hj
  have ht := (heat_iff hR hc hfilm hmt).1 hT
  refine op_mono (t := fun _ _ => Tin / B.reference_temperature) (fun i hi j hj => (sg i hi j hj).1)
    (fun i hi j hj => (sg i hi j hj).2.1)
    (fun i hi j hj => (sg i hi j hj).2.2.1) (fun i hi j hj => (sg i hi j hj).2.2.2) le_rfl le_rfl le_rfl
    (fun i hi j hj => ?_)
  rw [ht i hi j hj]
  have hB : 0 ≤ B.B_T (B.HP J n_p j) (P i j) (hpt J (B.jj n_p j)) (B.dPdy P i j) (B.dPdz P i j) (mt i j) := by
    have h0 : hpt J (B.jj n_p j) = 0 := by unfold hpt; rw [hx, hy]; ring
    have hf : 0 < B.HP J n_p j := hfilm _
    have hm := hmt i hi j hj
    have hY := dY_pos h2c
    have hZ := dZ_pos h2a
    have e : B.B_T (B.HP J n_p j) (P i j) 0 (B.dPdy P i j) (B.dPdz P i j) (mt i j) =
        B.reference_viscosity * B.speed / (B.rho * B.Cp * B.reference_temperature) *
          ((B.journal_radius / B.radial_clearance) ^ 2 * (B.dY * B.dZ) * (mt i j / B.HP J n_p j +
            B.HP J n_p j ^ 3 * B.dPdy P i j ^ 2 / (12 * B.betha_s ^ 2 * mt i j) +
            (B.journal_radius / B.axial_length) ^ 2 * B.HP J n_p j ^ 3 * B.dPdz P i j ^ 2 / (12 * mt i j))) := by
      unfold B_T auxb_T
      ring
    rw [h0, e]
    exact mul_nonneg hheat (by positivity)
  have hb : B.b_T J n_p P mt Tin (i * B.elements_circumferential + j) =
      if j = 0 then B.B_T (B.HP J n_p j) (P i j) (hpt J (B.jj n_p j)) (B.dPdy P i j) (B.dPdz P i j) (mt i j) -
        2 * B.AW (B.HP J n_p j) (B.dPdy P i j) (mt i j) * (Tin / B.reference_temperature)
      else B.B_T (B.HP J n_p j) (P i j) (hpt J (B.jj n_p j)) (B.dPdy P i j) (B.dPdz P i j) (mt i j) := by
    unfold b_T
    rw [index_div hj, index_mod hj]
  rw [hb]
  unfold op
  dsimp only
  split_ifs <;> nlinarith

/-- C93: the viscosity of the next pass is the one of the lubricant at the new temperature, relative to the one at the
reference temperature. -/
theorem C93_viscosity {B : THD} {solve : Fluid.FluidFlow.Solver} {J : Journal} {n_p : ℕ} {s s' : Fields}
    (h : B.pad_step solve J n_p s = .ok s') (h0 : B.reference_viscosity ≠ 0) (i j : ℕ) :
    s'.mu_new i j n_p * (B.a * B.reference_temperature ^ B.b) =
      B.a * (s'.T_new i j n_p * B.reference_temperature) ^ B.b := by
  obtain ⟨P, f, mt, S, -, -, -, -, -, -, h3, h4, -⟩ := pad_step_ok h
  rw [h3, h4]
  unfold setPad
  rw [if_pos rfl, if_pos rfl]
  exact div_mul_cancel₀ _ h0

/-- C93: a pass for a pad uses the viscosity and the mixing temperature of that pad, and changes nothing of the other pads
but the mixing temperature that C94 is about. -/
theorem C93_frame {B : THD} {solve : Fluid.FluidFlow.Solver} {J : Journal} {n_p q : ℕ} {s s' : Fields}
    (h : B.pad_step solve J n_p s = .ok s') (hq : q ≠ n_p) :
    pad s'.P q = pad s.P q ∧ pad s'.T q = pad s.T q ∧ pad s'.T_new q = pad s.T_new q ∧
      pad s'.mu_new q = pad s.mu_new q ∧ pad s'.mu_turb q = pad s.mu_turb q ∧ s'.T_end q = s.T_end q := by
  obtain ⟨P, f, mt, S, -, -, -, -, h1, h2, h3, h4, h5, h6, -⟩ := pad_step_ok h
  rw [h1, h2, h3, h4, h5, h6]
  exact ⟨pad_setPad_ne _ hq _, pad_setPad_ne _ hq _, pad_setPad_ne _ hq _, pad_setPad_ne _ hq _, pad_setPad_ne _ hq _,
    Function.update_of_ne hq _ _⟩

/-- C93: the weight of turbulence is 0 up to the Reynolds number 500, 1 from 1000, and grows between them. -/
theorem C93_weight : (∀ Re : ℝ, Re ≤ 500 → delta_turb Re = 0) ∧ (∀ Re : ℝ, 1000 ≤ Re → delta_turb Re = 1) ∧
    (∀ Re : ℝ, 0 ≤ delta_turb Re ∧ delta_turb Re ≤ 1) ∧ Monotone delta_turb := by
  have key : ∀ Re : ℝ, 500 < Re → Re ≤ 1000 → 0 ≤ ((1000 - Re) / 500) ^ (1 / 8 : ℝ) ∧
      ((1000 - Re) / 500) ^ (1 / 8 : ℝ) ≤ 1 := fun Re h1 h2 =>
    ⟨rpow_nonneg (div_nonneg (by linarith) (by norm_num)) _,
      rpow_le_one (div_nonneg (by linarith) (by norm_num)) (by rw [div_le_one (by norm_num)]; linarith) (by norm_num)⟩
  have hr : ∀ Re : ℝ, 0 ≤ delta_turb Re ∧ delta_turb Re ≤ 1 := by
    intro Re
    unfold delta_turb
    split_ifs with h1 h2
    · exact ⟨le_rfl, by norm_num⟩
    · have := key Re (not_le.1 h1) h2
      constructor <;> linarith
    · exact ⟨by norm_num, le_rfl⟩
  have h1000 : ∀ Re : ℝ, 1000 ≤ Re → delta_turb Re = 1 := by
    intro Re h
    unfold delta_turb
    rw [if_neg (by linarith)]
    split_ifs with h2
    · have : Re = 1000 := le_antisymm h2 h
      rw [this, sub_self, zero_div, zero_rpow (by norm_num), sub_zero]
    · rfl
  refine ⟨fun Re h => if_pos h, h1000, hr, ?_⟩
  intro x y hxy
  by_cases hx : x ≤ 500
  · rw [show delta_turb x = 0 from if_pos hx]
    exact (hr y).1
  · by_cases hy : y ≤ 1000
    · unfold delta_turb
      rw [if_neg hx, if_pos (by linarith), if_neg (by linarith), if_pos hy]
      have : ((1000 - y) / 500) ^ (1 / 8 : ℝ) ≤ ((1000 - x) / 500) ^ (1 / 8 : ℝ) :=
        rpow_le_rpow (div_nonneg (by linarith) (by norm_num)) (by gcongr) (by norm_num)
      linarith
    · rw [h1000 y (by linarith)]
      exact (hr x).2

/-- C93: turbulence never lowers the viscosity, and leaves it alone up to the Reynolds number 500. -/
theorem C93_turbulence {B : THD} {HP gy gz mu mt : ℝ} (hH : 0 ≤ HP) (hc : 0 ≤ B.radial_clearance)
    (hv : 0 < B.reference_viscosity) (hrho : 0 < B.rho) (hmu : 0 < mu) (hmt : 0 < mt) :
    mu ≤ B.mi_t HP gy gz mu mt ∧ (B.Reyn HP mu ≤ 500 → B.mi_t HP gy gz mu mt = mu) := by
  have he : 0 ≤ B.emv HP gy gz mt := by
    unfold emv
    dsimp only
    have hx : 0 ≤ ((HP * B.radial_clearance * 2) / (B.reference_viscosity * mt / B.rho)) *
        √(|mt * √(((HP / mt) * gy - B.speed / HP) ^ 2 + ((HP / mt) * gz) ^ 2)| / B.rho) := by positivity
    generalize ((HP * B.radial_clearance * 2) / (B.reference_viscosity * mt / B.rho)) *
        √(|mt * √(((HP / mt) * gy - B.speed / HP) ^ 2 + ((HP / mt) * gz) ^ 2)| / B.rho) = x at hx
    have := tanh_le (x := x / 10.7) (by positivity)
    rw [le_div_iff₀ (by norm_num)] at this
    have h3 : 0 ≤ x - 10.7 * tanh (x / 10.7) := by linarith
    positivity
  unfold mi_t
  constructor
  · have h1 := (C93_weight.2.2.1 (B.Reyn HP mu)).1
    nlinarith [mul_nonneg h1 he]
  · intro h
    rw [C93_weight.1 _ h]
    ring

/-- C93, refuted: the weight is not a function of the Reynolds number of the film.  What is used is that number over the
length of the bearing in metres: in a bearing of a quarter of a metre the film counts as turbulent from a quarter of the
documented numbers on. -/
theorem C93_reynolds_false (B : THD) (HP mu : ℝ) :
    B.Reyn HP mu = reynolds B.rho (B.speed * B.journal_radius) (B.radial_clearance * HP) (B.reference_viscosity * mu) /
        B.axial_length ∧
    (B.axial_length = 1 / 4 →
      reynolds B.rho (B.speed * B.journal_radius) (B.radial_clearance * HP) (B.reference_viscosity * mu) = 250 →
      delta_turb (B.Reyn HP mu) = 1) := by
  have e : B.Reyn HP mu = reynolds B.rho (B.speed * B.journal_radius) (B.radial_clearance * HP)
      (B.reference_viscosity * mu) / B.axial_length := by
    unfold Reyn reynolds
    ring
  refine ⟨e, fun hL h => ?_⟩
  rw [e, h, hL]
  exact C93_weight.2.1 _ (by norm_num)

end Ross.Props
