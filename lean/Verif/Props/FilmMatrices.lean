import Verif.Lemmas.FilmMatrices
import Verif.Props.FluidInit

/-!
# C84: stiffness and damping of short bearings
-/

namespace Ross.Props

open Real Fluid Spec.Fluid FluidLemmas

/-- C84: the stiffness of a short bearing at its calculated position is the change of the film force with the position of the
rotor: in every direction `(dx, dy)` the force changes by minus the stiffness matrix times the direction, up to the ratio of
film force and load, which is 1 in equilibrium. -/
theorem C84_stiffness_partial (lib : FlowLib) (F : FluidFlow) (hb : F.bearing_type = "short_bearing")
    (ha : F.attitude_angle = calculate_attitude_angle F.eccentricity_ratio) (he0 : 0 < F.eccentricity_ratio)
    (he1 : F.eccentricity_ratio < 1) (hr : 0 < F.radius_rotor) (hc : 0 < F.radial_clearance)
    (hpos : (F.xi, F.yi) = centre (F.eccentricity_ratio * F.radial_clearance) F.attitude_angle) {W : ℝ}
    (hW : F.load = some W) (hW0 : W ≠ 0) :
    ∃ kxx kxy kyx kyy, calculate_short_stiffness_matrix F = .ok [kxx, kxy, kyx, kyy] ∧
      ∀ dx dy, let force := fun s : ℝ => calculate_oil_film_force lib (move_rotor_center F (s * dx) (s * dy)) none
        let ratio := (calculate_oil_film_force lib F none).y / W
        HasDerivAt (fun s => (force s).x) (-(kxx * dx + kxy * dy) * ratio) 0 ∧
        HasDerivAt (fun s => (force s).y) (-(kyx * dx + kyy * dy) * ratio) 0 := by
  unfold calculate_short_stiffness_matrix
  rw [hW]
  refine ⟨_, _, _, _, rfl, fun dx dy => ?_⟩
  dsimp only
  rw [short_y lib F hb ha he0 he1 hr hc]
  set e := F.eccentricity_ratio with hedef
  set c := F.radial_clearance with hcdef
  have hq : 0 < 1 - e ^ 2 := by nlinarith
  have hk := sqrt_pos.2 hq
  have hk2 := sq_sqrt hq.le
  have hH := H_pos he0 he1
  have hH2 := H_sq he0 he1
  have hp := pi_pos
  have hxi : F.xi = e * c * (π * √(1 - e ^ 2) / H e) := by
    rw [← sin_attitude he0 he1, ← ha]
    exact congrArg Prod.fst hpos
  have hyi : F.yi = -(e * c) * (4 * e / H e) := by
    rw [← cos_attitude he0 he1, ← ha]
    exact congrArg Prod.snd hpos
  have hx0 : 0 < F.xi := by rw [hxi]; positivity
  have hy0 : F.yi < 0 := by
    have : 0 < e * c * (4 * e / H e) := by positivity
    rw [hyi]
    linarith
  have hE0 : (F.xi ^ 2 + F.yi ^ 2) / c ^ 2 = e ^ 2 := by
    rw [hxi, hyi]
    field_simp
    rw [hk2, hH2]
    ring
  have hlt0 : F.xi ^ 2 + F.yi ^ 2 < c ^ 2 := by
    rw [div_eq_iff (by positivity)] at hE0
    rw [hE0]
    exact mul_lt_of_lt_one_left (by positivity) (by linarith)
  -- the functions along the direction
  have dX : HasDerivAt (fun s : ℝ => F.xi + s * dx) dx 0 := by
    simpa using ((hasDerivAt_id (0 : ℝ)).mul_const dx).const_add F.xi
  have dY : HasDerivAt (fun s : ℝ => F.yi + s * dy) dy 0 := by
    simpa using ((hasDerivAt_id (0 : ℝ)).mul_const dy).const_add F.yi
  have dE : HasDerivAt (fun s : ℝ => ((F.xi + s * dx) ^ 2 + (F.yi + s * dy) ^ 2) / c ^ 2)
      ((2 * F.xi * dx + 2 * F.yi * dy) / c ^ 2) 0 := by
    refine (((dX.pow 2).add (dY.pow 2)).div_const (c ^ 2)).congr_deriv ?_
    simp
  have hz : ((F.xi + 0 * dx) ^ 2 + (F.yi + 0 * dy) ^ 2) / c ^ 2 = e ^ 2 := by rw [zero_mul, zero_mul, add_zero, add_zero, hE0]
  have dA : HasDerivAt (fun s : ℝ => 2 * √(((F.xi + s * dx) ^ 2 + (F.yi + s * dy) ^ 2) / c ^ 2) /
      (1 - ((F.xi + s * dx) ^ 2 + (F.yi + s * dy) ^ 2) / c ^ 2) ^ 2)
      ((1 + 3 * e ^ 2) / (√(e ^ 2) * (1 - e ^ 2) ^ 3) * ((2 * F.xi * dx + 2 * F.yi * dy) / c ^ 2)) 0 := by
    have h := alpha_deriv (E := e ^ 2) (by positivity) (by linarith)
    rw [← hz] at h
    have h' := HasDerivAt.comp (0 : ℝ) h dE
    rw [hz] at h'
    exact h'
  have dB : HasDerivAt (fun s : ℝ => π / (2 * √(1 - ((F.xi + s * dx) ^ 2 + (F.yi + s * dy) ^ 2) / c ^ 2) ^ 3))
      (3 * π / (4 * √(1 - e ^ 2) ^ 5) * ((2 * F.xi * dx + 2 * F.yi * dy) / c ^ 2)) 0 := by
    have h := beta_deriv (E := e ^ 2) (by linarith)
    rw [← hz] at h
    have h' := HasDerivAt.comp (0 : ℝ) h dE
    rw [hz] at h'
    exact h'
  -- near the position the force is given by these functions
  have hnear : ∀ᶠ s : ℝ in nhds 0, 0 < F.xi + s * dx ∧ F.yi + s * dy < 0 ∧
      (F.xi + s * dx) ^ 2 + (F.yi + s * dy) ^ 2 < c ^ 2 := by
    have c1 : ContinuousAt (fun s : ℝ => F.xi + s * dx) 0 := dX.continuousAt
    have c2 : ContinuousAt (fun s : ℝ => F.yi + s * dy) 0 := dY.continuousAt
    have c3 : ContinuousAt (fun s : ℝ => (F.xi + s * dx) ^ 2 + (F.yi + s * dy) ^ 2) 0 := (c1.pow 2).add (c2.pow 2)
    have e1 := c1.eventually (Ioi_mem_nhds (show 0 < (fun s : ℝ => F.xi + s * dx) 0 by simpa using hx0))
    have e2 := c2.eventually (Iio_mem_nhds (show (fun s : ℝ => F.yi + s * dy) 0 < 0 by simpa using hy0))
    have e3 := c3.eventually (Iio_mem_nhds
      (show (fun s : ℝ => (F.xi + s * dx) ^ 2 + (F.yi + s * dy) ^ 2) 0 < c ^ 2 by simpa using hlt0))
    filter_upwards [e1, e2, e3] with s h1 h2 h3 using ⟨h1, h2, h3⟩
  have hee : √(e ^ 2) = e := sqrt_sq he0.le
  set D := 0.5 * F.viscosity * (F.radius_rotor / c) ^ 2 * (F.length ^ 3 / F.radius_rotor) * F.omega / c with hD
  have hX := ((dA.mul dX).add (dB.mul dY)).const_mul (-D)
  have hY := ((dB.mul dX).sub (dA.mul dY)).const_mul D
  have hh0 : short_h0 F = 1 / H e ^ 3 := by
    unfold short_h0
    rw [rpow_three_half (H_arg_pos he0 he1).le]
    rfl
  constructor
  · refine (hX.congr_of_eventuallyEq ?_).congr_deriv ?_
    · filter_upwards [hnear] with s hs
      exact (short_at lib F hb hc hs.1 hs.2.1 hs.2.2).1
    · rw [hz, hee, zero_mul, zero_mul, add_zero, add_zero, hh0, hxi, hyi, hD]
      generalize √(1 - e ^ 2) = k at *
      rw [← hk2] at hH2 ⊢
      generalize H e = h at *
      field_simp
      linear_combination F.viscosity * F.length ^ 3 * F.omega * ((-8 * e * π ^ 2 * k * dx - 32 * π * e ^ 2 * dy) * hk2 +
        (-8 * e * k * dx - 2 * π * k ^ 2 * dy) * hH2)
  · refine (hY.congr_of_eventuallyEq ?_).congr_deriv ?_
    · filter_upwards [hnear] with s hs
      exact (short_at lib F hb hc hs.1 hs.2.1 hs.2.2).2
    · rw [hz, hee, zero_mul, zero_mul, add_zero, add_zero, hh0, hxi, hyi, hD]
      generalize √(1 - e ^ 2) = k at *
      rw [← hk2] at hH2 ⊢
      generalize H e = h at *
      field_simp
      linear_combination F.viscosity * F.length ^ 3 * F.omega *
        (((2 * π ^ 3 * k ^ 2 + 32 * π * e ^ 2) * k * dx - (8 * e * π ^ 2 * k ^ 2 + 128 * e ^ 3) * dy) * hk2 +
        (2 * π * k ^ 2 * k * dx - 8 * e * k ^ 2 * dy) * hH2)

/-- C84: the damping of a short bearing at its calculated position is the change of the film force with the velocity of the
rotor: minus the damping matrix times the velocity, up to the ratio of film force and load, which is 1 in equilibrium. -/
theorem C84_damping_partial (lib : FlowLib) (F : FluidFlow) (hb : F.bearing_type = "short_bearing")
    (ha : F.attitude_angle = calculate_attitude_angle F.eccentricity_ratio) (he0 : 0 < F.eccentricity_ratio)
    (he1 : F.eccentricity_ratio < 1) (hr : 0 < F.radius_rotor) (hc : 0 < F.radial_clearance) (hL : 0 < F.length)
    (hom : F.omega ≠ 0) {W : ℝ} (hW : F.load = some W) (hW0 : W ≠ 0) :
    ∃ cxx cxy cyx cyy, calculate_short_damping_matrix F = .ok [cxx, cxy, cyx, cyy] ∧
      ∀ (v : ℝ × ℝ) (p p1 p2 q q1 q2 : ℝ → ℝ → ℝ) (h' k' : ℝ → ℝ),
        MovingFilm F.viscosity F.omega F.length F.attitude_angle v
          (film F.radial_clearance (F.eccentricity_ratio * F.radial_clearance)) p p1 p2 h' →
        MovingFilm F.viscosity F.omega F.length F.attitude_angle 0
          (film F.radial_clearance (F.eccentricity_ratio * F.radial_clearance)) q q1 q2 k' →
        filmForce F.radius_rotor F.length π F.attitude_angle p =
          filmForce F.radius_rotor F.length π F.attitude_angle q -
            ((calculate_oil_film_force lib F none).y / W) • (cxx * v.1 + cxy * v.2, cyx * v.1 + cyy * v.2) := by
  unfold calculate_short_damping_matrix
  rw [hW]
  refine ⟨_, _, _, _, rfl, fun v p p1 p2 q q1 q2 h' k' h1 h2 => ?_⟩
  rw [short_y lib F hb ha he0 he1 hr hc]
  set e := F.eccentricity_ratio with hedef
  set c := F.radial_clearance with hcdef
  have he : |e| < 1 := by rw [abs_of_pos he0]; exact he1
  have hq : 0 < 1 - e ^ 2 := by nlinarith
  have hk := sqrt_pos.2 hq
  have hk2 := sq_sqrt hq.le
  have hH := H_pos he0 he1
  have hp := pi_pos
  have hh0 : short_h0 F = 1 / H e ^ 3 := by
    unfold short_h0
    rw [rpow_three_half (H_arg_pos he0 he1).le]
    rfl
  rw [show p = _ from funext fun z => funext fun t => moving_film hL.ne' hc he h1 z t,
    show q = _ from funext fun z => funext fun t => moving_film hL.ne' hc he h2 z t, force_cubic he, force_cubic he, hh0, ha,
    sin_attitude he0 he1, cos_attitude he0 he1]
  ext
  · simp only [Prod.fst_sub, Prod.smul_fst, smul_eq_mul, Prod.fst_zero, Prod.snd_zero]
    generalize √(1 - e ^ 2) = k at *
    rw [← hk2]
    generalize H e = h at *
    field_simp
    ring
  · simp only [Prod.snd_sub, Prod.smul_snd, smul_eq_mul, Prod.fst_zero, Prod.snd_zero]
    generalize √(1 - e ^ 2) = k at *
    rw [← hk2]
    generalize H e = h at *
    field_simp
    linear_combination -768 * F.viscosity * π * e ^ 2 * v.2 * hk2

/-- C84: in equilibrium, where the film force is the load, the stiffness matrix is minus the derivative of the force. -/
theorem C84_equilibrium (lib : FlowLib) (F : FluidFlow) (hb : F.bearing_type = "short_bearing")
    (ha : F.attitude_angle = calculate_attitude_angle F.eccentricity_ratio) (he0 : 0 < F.eccentricity_ratio)
    (he1 : F.eccentricity_ratio < 1) (hr : 0 < F.radius_rotor) (hc : 0 < F.radial_clearance)
    (hpos : (F.xi, F.yi) = centre (F.eccentricity_ratio * F.radial_clearance) F.attitude_angle)
    (hW : F.load = some (calculate_oil_film_force lib F none).y) (hL : 0 < F.length) (hmu : 0 < F.viscosity)
    (hom : 0 < F.omega) :
    ∃ kxx kxy kyx kyy, calculate_short_stiffness_matrix F = .ok [kxx, kxy, kyx, kyy] ∧
      ∀ dx dy, let force := fun s : ℝ => calculate_oil_film_force lib (move_rotor_center F (s * dx) (s * dy)) none
        HasDerivAt (fun s => (force s).x) (-(kxx * dx + kxy * dy)) 0 ∧
        HasDerivAt (fun s => (force s).y) (-(kyx * dx + kyy * dy)) 0 := by
  have hq : 0 < 1 - F.eccentricity_ratio ^ 2 := by nlinarith
  have hk := sqrt_pos.2 hq
  have hH := H_pos he0 he1
  have hy : (calculate_oil_film_force lib F none).y ≠ 0 := by
    rw [short_y lib F hb ha he0 he1 hr hc]
    positivity
  obtain ⟨kxx, kxy, kyx, kyy, hok, h⟩ := C84_stiffness_partial lib F hb ha he0 he1 hr hc hpos hW hy
  refine ⟨kxx, kxy, kyx, kyy, hok, fun dx dy => ?_⟩
  have h' := h dx dy
  simp only [div_self hy, mul_one] at h'
  exact h'

/-- C84, refuted for bearings as they are built: there the load is larger than the film force, and the stiffness is not the
derivative of the force. -/
theorem C84_load_false {lib : FlowLib} {a : FlowArgs} {F : FluidFlow} (h : a.init lib = .ok F)
    (hb : bearing_type_of a = "short_bearing") (hs : a.shape_geometry = "cylindrical") (hl : a.load = none)
    (hat : a.attitude_angle = none) (he : ∀ e, a.eccentricity = some e → 0 < e ∧ e < a.radius_stator - a.radius_rotor)
    (hr : 0 < a.radius_rotor) (hL : 0 < a.length) (hmu : 0 < a.viscosity) (hom : 0 < a.omega) :
    ∃ kxx kxy kyx kyy, calculate_short_stiffness_matrix F = .ok [kxx, kxy, kyx, kyy] ∧
      ¬HasDerivAt (fun s : ℝ => (calculate_oil_film_force lib (move_rotor_center F (s * 1) (s * 0)) none).x) (-kxx) 0 := by
  obtain ⟨e, hee, hecc, hrat, hload, hatt⟩ := C77_short_eccentricity h hb hs hl
  obtain ⟨he0, he1⟩ := he e hee
  have hd := C77_data h
  have hcl : 0 < a.radius_stator - a.radius_rotor := by linarith
  rw [hat, Option.getD_none] at hatt
  have hcl' : F.radial_clearance = a.radius_stator - a.radius_rotor := by
    unfold FluidFlow.radial_clearance
    rw [hd.2.2.2.2.2.2.1, hd.2.2.2.2.2.2.2.1]
  have hty : F.bearing_type = "short_bearing" := by
    obtain ⟨G, hG, -, -, hF, -⟩ := init_ok h
    rw [hF]
    exact (positioned_ok hG).1.bearing_type.trans hb
  have hr0 : 0 < F.eccentricity_ratio := by rw [hrat]; positivity
  have hr1 : F.eccentricity_ratio < 1 := by rw [hrat, div_lt_one hcl]; exact he1
  have hrr : 0 < F.radius_rotor := by rw [hd.2.2.2.2.2.2.1]; exact hr
  have hlt : F.radius_rotor < F.radius_stator := by
    rw [hd.2.2.2.2.2.2.1, hd.2.2.2.2.2.2.2.1]
    linarith
  have hpos : (F.xi, F.yi) = centre (F.eccentricity_ratio * F.radial_clearance) F.attitude_angle := by
    rw [hcl', hrat, div_mul_cancel₀ _ hcl.ne', ← hecc]
    exact (C77_centre h).1
  rw [← hd.2.2.2.2.2.2.2.1, ← hd.2.2.2.1, ← hd.2.2.2.2.2.2.2.2.1, ← hd.2.2.1, hd.2.2.2.2.2.2.2.1, ← hcl',
    ← hd.2.2.2.2.2.2.2.1] at hload
  have hom' : 0 < F.omega := by rw [hd.2.2.2.1]; exact hom
  have hmu' : 0 < F.viscosity := by rw [hd.2.2.2.2.2.2.2.2.1]; exact hmu
  have hL' : 0 < F.length := by rw [hd.2.2.1]; exact hL
  have hc' : 0 < F.radial_clearance := by rw [hcl']; exact hcl
  have hW := load_pos (Rs := F.radius_stator) (c := F.radial_clearance) (by linarith) hom' hmu' hL' hc'.ne' hr0 hr1
  have hless := C79_balance_false lib F hty hatt hr0 hr1 hrr hlt hom' hmu' hL'
  set W := calculate_rotor_load F.radius_stator F.omega F.viscosity F.length F.radial_clearance F.eccentricity_ratio
  obtain ⟨kxx, kxy, kyx, kyy, hok, hder⟩ := C84_stiffness_partial lib F hty hatt hr0 hr1 hrr hc' hpos hload hW.ne'
  refine ⟨kxx, kxy, kyx, kyy, hok, fun hcon => ?_⟩
  have hk : 0 < kxx := by
    unfold calculate_short_stiffness_matrix at hok
    rw [hload] at hok
    have hk := (List.cons.inj (Except.ok.inj hok)).1
    rw [← hk]
    have hh0 : 0 < short_h0 F := one_div_pos.2 (rpow_pos_of_pos (H_arg_pos hr0 hr1) _)
    have : 0 < 2 - F.eccentricity_ratio ^ 2 := by nlinarith
    have hp := pi_pos
    positivity
  have hu := hcon.unique (hder 1 0).1
  rw [mul_one, mul_zero, add_zero] at hu
  have hone : (calculate_oil_film_force lib F none).y / W = 1 := by
    apply mul_left_cancel₀ hk.ne'
    linarith
  rw [div_eq_one_iff_eq hW.ne'] at hone
  exact hless.ne hone

/-- The example of `FluidInit` is such a bearing. -/
example (lib : FlowLib) : ∃ F, exFlowArgs.init lib = .ok F ∧
    ∃ kxx kxy kyx kyy, calculate_short_stiffness_matrix F = .ok [kxx, kxy, kyx, kyy] ∧
      ¬HasDerivAt (fun s : ℝ => (calculate_oil_film_force lib (move_rotor_center F (s * 1) (s * 0)) none).x) (-kxx) 0 := by
  obtain ⟨F, hF⟩ := exFlow_exists lib
  refine ⟨F, hF, C84_load_false hF exFlow_type rfl rfl rfl ?_ ?_ ?_ ?_ ?_⟩
  · intro e he
    cases he
    norm_num [exFlowArgs]
  all_goals norm_num [exFlowArgs]

end Ross.Props
