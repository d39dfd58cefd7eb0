import Verif.Lemmas.FluidShort

/-!
# C78, C79: load and eccentricity of short bearings, and the balance of forces
-/

namespace Ross.Props

open Real Fluid Spec.Fluid FluidLemmas

/-! ### C78: load and eccentricity -/

/-- C78: for every positive load there is an eccentricity ratio between 0 and 1; it is the one that is calculated, it
carries the load, and no other ratio does. -/
theorem C78_ratio {lib : RootLib} (hl : RootsOk lib) {Rs om mu L W c : ℝ} (h1 : 0 < Rs) (h2 : 0 < om) (h3 : 0 < mu)
    (h4 : 0 < L) (h5 : 0 < W) (h6 : 0 < c) :
    ∃ e, calculate_eccentricity_ratio lib (modified_sommerfeld_number Rs om mu L W c) = .ok e ∧ 0 < e ∧ e < 1 ∧
      ∀ e', 0 < e' → e' < 1 → (calculate_rotor_load Rs om mu L c e' = W ↔ e' = e) := by
  have hs := modified_pos h1 h2 h3 h4 h5 h6.ne'
  obtain ⟨e, he0, he1, hroot, hok⟩ := eccentricity_ratio_pos hl hs
  refine ⟨e, hok, he0, he1, fun e' h0' h1' => ?_⟩
  rw [modified_load h5.ne' h6.ne' h0' h1', ← ratio_root_iff hs h0' h1']
  constructor
  · intro h
    have := ratio_root_unique (sq_nonneg e') (by nlinarith) (sq_nonneg e) (by nlinarith) h hroot
    exact (pow_left_inj₀ h0'.le he0.le two_ne_zero).1 this
  · rintro rfl
    exact hroot

/-- C78: the ratio calculated from the load of an eccentricity ratio is that ratio. -/
theorem C78_inverse {lib : RootLib} (hl : RootsOk lib) {Rs om mu L c e : ℝ} (h1 : 0 < Rs) (h2 : 0 < om) (h3 : 0 < mu)
    (h4 : 0 < L) (h6 : 0 < c) (he0 : 0 < e) (he1 : e < 1) :
    calculate_eccentricity_ratio lib
      (modified_sommerfeld_number Rs om mu L (calculate_rotor_load Rs om mu L c e) c) = .ok e := by
  obtain ⟨e', hok, -, -, h⟩ := C78_ratio hl h1 h2 h3 h4 (load_pos (c := c) h1 h2 h3 h4 h6.ne' he0 he1) h6
  rw [hok, (h e he0 he1).1 rfl]

/-- C78: a larger ratio carries a larger load. -/
theorem C78_monotone {Rs om mu L c e e' : ℝ} (h1 : 0 < Rs) (h2 : 0 < om) (h3 : 0 < mu) (h4 : 0 < L) (h6 : 0 < c)
    (he0 : 0 < e) (hlt : e < e') (he1 : e' < 1) :
    calculate_rotor_load Rs om mu L c e < calculate_rotor_load Rs om mu L c e' := by
  have he0' : 0 < e' := by linarith
  have hc : 0 < 16 / π ^ 2 - 1 := by
    rw [sub_pos, lt_div_iff₀ (by positivity)]; linarith [pi_sq_lt]
  have hq : 0 < 1 - e ^ 2 := by nlinarith
  have hq' : 0 < 1 - e' ^ 2 := by nlinarith
  have hqq : 1 - e' ^ 2 < 1 - e ^ 2 := by nlinarith
  have hp := pi_pos
  unfold calculate_rotor_load
  have hA := sqrt_pos.2 (sqrt_load_arg he0)
  apply mul_lt_mul _ (sqrt_le_sqrt _) hA (by positivity)
  · apply div_lt_div₀
    · apply mul_lt_mul_of_pos_left hlt (by positivity)
    · apply mul_le_mul_of_nonneg_left _ (by positivity)
      exact pow_le_pow_left₀ hq'.le hqq.le 2
    · positivity
    · positivity
  · nlinarith

example : ∃ lib, RootsOk lib ∧ calculate_eccentricity_ratio lib (modified_sommerfeld_number 0.2002 10 0.015 0.04
    (calculate_rotor_load 0.2002 10 0.015 0.04 0.0002 0.5) 0.0002) = .ok 0.5 := by
  obtain ⟨lib, hl⟩ := exists_root_lib
  exact ⟨lib, hl, C78_inverse hl (by norm_num) (by norm_num) (by norm_num) (by norm_num) (by norm_num) (by norm_num)
    (by norm_num)⟩

/-- C78: the dimensionless numbers are related by the ratio of diameter and length. -/
theorem C78_numbers (Rs om mu L W c : ℝ) (hL : L ≠ 0) :
    sommerfeld_number (modified_sommerfeld_number Rs om mu L W c) Rs L =
      mu * om * L * (2 * Rs) ^ 3 / (8 * π * W * c ^ 2) := by
  unfold sommerfeld_number modified_sommerfeld_number
  by_cases hW : W = 0
  · simp [hW]
  by_cases hc : c = 0
  · simp [hc]
  have := pi_pos
  field_simp

/-! ### C79: the balance of forces -/

/-- C79: the components along x and y are a rotation of the radial and tangential force: the force is
`-radial` along the eccentricity and `tangential` across it. -/
theorem C79_components (lib : FlowLib) (F : FluidFlow) (force_type : Option String) :
    let f := calculate_oil_film_force lib F force_type
    (f.x, f.y) = -f.radial • centre 1 F.attitude_angle + f.tangential • (cos F.attitude_angle, sin F.attitude_angle) ∧
      f.x ^ 2 + f.y ^ 2 = f.radial ^ 2 + f.tangential ^ 2 := by
  have key : ∀ a rt, let f := to_xy a rt
      (f.x, f.y) = -f.radial • centre 1 a + f.tangential • (cos a, sin a) ∧
      f.x ^ 2 + f.y ^ 2 = f.radial ^ 2 + f.tangential ^ 2 := by
    intro a rt
    constructor
    · simp [to_xy, centre]
    · simp only [to_xy]
      have := sin_sq_add_cos_sq a
      linear_combination (rt.1 ^ 2 + rt.2 ^ 2) * this
  unfold calculate_oil_film_force
  split_ifs <;> exact key _ _

/-- C79: with the calculated attitude angle, the film force of a short bearing is vertical, and it is the load times
the ratio of the radii of rotor and stator.  (The claim has no such factor: see `C79_balance_false`.) -/
theorem C79_balance_partial (lib : FlowLib) (F : FluidFlow) (hb : F.bearing_type = "short_bearing")
    (ha : F.attitude_angle = calculate_attitude_angle F.eccentricity_ratio) (he0 : 0 < F.eccentricity_ratio)
    (he1 : F.eccentricity_ratio < 1) (hr : 0 < F.radius_rotor) (hc : F.radius_rotor < F.radius_stator) :
    let f := calculate_oil_film_force lib F none
    f.x = 0 ∧ f.y * F.radius_stator = calculate_rotor_load F.radius_stator F.omega F.viscosity F.length
      F.radial_clearance F.eccentricity_ratio * F.radius_rotor := by
  have hq : 0 < 1 - F.eccentricity_ratio ^ 2 := by nlinarith
  have hH := H_pos he0 he1
  have hH2 := H_sq he0 he1
  have hcl : F.radial_clearance ≠ 0 := by unfold FluidFlow.radial_clearance; linarith
  unfold calculate_oil_film_force
  rw [if_pos ⟨by simp, .inr hb⟩]
  unfold to_xy
  dsimp only
  rw [ha, sin_attitude he0 he1, cos_attitude he0 he1, rotor_load_eq he0 he1]
  unfold short_force
  dsimp only
  rw [rpow_three_half hq.le]
  set e := F.eccentricity_ratio
  have hs := sq_sqrt hq.le
  have hsp := sqrt_pos.2 hq
  set k := √(1 - e ^ 2)
  rw [← hs] at hH2 ⊢
  have hp := pi_pos
  constructor
  · field_simp
    ring
  · field_simp
    rw [hH2]
    ring

/-- C79, refuted without the factor: the film force is smaller than the load that goes with the eccentricity. -/
theorem C79_balance_false (lib : FlowLib) (F : FluidFlow) (hb : F.bearing_type = "short_bearing")
    (ha : F.attitude_angle = calculate_attitude_angle F.eccentricity_ratio) (he0 : 0 < F.eccentricity_ratio)
    (he1 : F.eccentricity_ratio < 1) (hr : 0 < F.radius_rotor) (hc : F.radius_rotor < F.radius_stator)
    (hom : 0 < F.omega) (hmu : 0 < F.viscosity) (hL : 0 < F.length) :
    (calculate_oil_film_force lib F none).y < calculate_rotor_load F.radius_stator F.omega F.viscosity F.length
      F.radial_clearance F.eccentricity_ratio := by
  have h := (C79_balance_partial lib F hb ha he0 he1 hr hc).2
  have hcl : F.radial_clearance ≠ 0 := by unfold FluidFlow.radial_clearance; linarith
  have hW := load_pos (Rs := F.radius_stator) (c := F.radial_clearance) (by linarith) hom hmu hL hcl he0 he1
  set W := calculate_rotor_load F.radius_stator F.omega F.viscosity F.length F.radial_clearance F.eccentricity_ratio
  set y := (calculate_oil_film_force lib F none).y
  have : y * F.radius_stator < W * F.radius_stator := by
    rw [h]; exact mul_lt_mul_of_pos_left hc hW
  exact lt_of_mul_lt_mul_right this (by linarith)

/-- **C78** the Reynolds number is the ratio of the pressure of inertia `ρ V²` to the shear stress `μ V / c` in a film of
thickness `c` between walls of relative speed `V`. -/
theorem C78_reynolds (ρ V c mu : ℝ) (hc : c ≠ 0) (hm : mu ≠ 0) :
    Fluid.reynolds_number ρ V c mu * (mu * (V / c)) = ρ * V ^ 2 := by
  unfold Fluid.reynolds_number
  field_simp

/-- Oil in a film of a tenth of a millimetre at ten metres per second. -/
example : Fluid.reynolds_number 860 10 (1 / 10000) (1 / 50) * (1 / 50 * (10 / (1 / 10000))) = 860 * (10 : ℝ) ^ 2 :=
  C78_reynolds 860 10 (1 / 10000) (1 / 50) (by norm_num) (by norm_num)

end Ross.Props
