import Verif.Lemmas.FilmForce
import Verif.Lemmas.FluidShort
import Verif.Lemmas.FluidGeometry
import Verif.Model.FluidForces

/-!
# Derivatives of the force of short bearings
-/

namespace Ross.FluidLemmas

open Real Fluid Spec.Fluid

/-- The force of a short bearing at the calculated attitude angle. -/
theorem short_y (lib : FlowLib) (F : FluidFlow) (hb : F.bearing_type = "short_bearing")
    (ha : F.attitude_angle = calculate_attitude_angle F.eccentricity_ratio) (he0 : 0 < F.eccentricity_ratio)
    (he1 : F.eccentricity_ratio < 1) (hr : 0 < F.radius_rotor) (hc : 0 < F.radial_clearance) :
    (calculate_oil_film_force lib F none).y = F.viscosity * F.omega * F.radius_rotor * F.length ^ 3 *
      F.eccentricity_ratio * H F.eccentricity_ratio / (4 * F.radial_clearance ^ 2 * √(1 - F.eccentricity_ratio ^ 2) ^ 4) := by
  have hq : 0 < 1 - F.eccentricity_ratio ^ 2 := by nlinarith
  have hH := H_pos he0 he1
  have hH2 := H_sq he0 he1
  unfold calculate_oil_film_force
  rw [if_pos ⟨by simp, .inr hb⟩]
  unfold to_xy
  dsimp only
  rw [ha, sin_attitude he0 he1, cos_attitude he0 he1]
  unfold short_force
  dsimp only
  rw [rpow_three_half hq.le]
  set e := F.eccentricity_ratio
  have hs := sq_sqrt hq.le
  have hsp := sqrt_pos.2 hq
  set k := √(1 - e ^ 2)
  rw [← hs] at hH2 ⊢
  have hp := pi_pos
  field_simp
  rw [hH2]
  ring

/-- The components of the force of a short bearing as functions of the position. -/
theorem short_at (lib : FlowLib) (F : FluidFlow) (hb : F.bearing_type = "short_bearing") (hc : 0 < F.radial_clearance)
    {dx dy : ℝ} (hx : 0 < F.xi + dx) (hy : F.yi + dy < 0)
    (hlt : (F.xi + dx) ^ 2 + (F.yi + dy) ^ 2 < F.radial_clearance ^ 2) :
    let f := calculate_oil_film_force lib (move_rotor_center F dx dy) none
    let x := F.xi + dx
    let y := F.yi + dy
    let E := (x ^ 2 + y ^ 2) / F.radial_clearance ^ 2
    let D := 0.5 * F.viscosity * (F.radius_rotor / F.radial_clearance) ^ 2 * (F.length ^ 3 / F.radius_rotor) *
      F.omega / F.radial_clearance
    f.x = -D * (2 * √E / (1 - E) ^ 2 * x + π / (2 * √(1 - E) ^ 3) * y) ∧
      f.y = D * (π / (2 * √(1 - E) ^ 3) * x - 2 * √E / (1 - E) ^ 2 * y) := by
  intro f x y E D
  set c := F.radial_clearance
  have he : 0 < x ^ 2 + y ^ 2 := by positivity
  have hcen := moved_centre (x := x) (y := y) (.inl hx.ne')
  rw [abs_of_pos hx, abs_of_neg hy, neg_neg] at hcen
  set r := √(x ^ 2 + y ^ 2) with hr
  have hr0 : 0 < r := sqrt_pos.2 he
  set a := arccos |y / r|
  have h1 : r * sin a = x := congrArg Prod.fst hcen
  have h2 : -r * cos a = y := congrArg Prod.snd hcen
  have hE : √E = r / c := by
    show √((x ^ 2 + y ^ 2) / c ^ 2) = r / c
    rw [sqrt_div' _ (by positivity), sqrt_sq hc.le]
  have hE2 : E = (r / c) ^ 2 := by
    rw [← hE, sq_sqrt (by positivity)]
  have hE1 : E < 1 := (div_lt_one (by positivity)).2 hlt
  have hq : 0 < 1 - (r / c) ^ 2 := by rw [← hE2]; linarith
  have hf : f = to_xy a (short_force (move_rotor_center F dx dy)) := by
    show calculate_oil_film_force lib (move_rotor_center F dx dy) none = _
    unfold calculate_oil_film_force
    rw [if_pos ⟨by simp, .inr hb⟩]
    rfl
  have hsf : short_force (move_rotor_center F dx dy) =
      (0.5 * F.viscosity * (F.radius_rotor / c) ^ 2 * (F.length ^ 3 / F.radius_rotor) *
        ((2 * (r / c) ^ 2 * F.omega) / (1 - (r / c) ^ 2) ^ 2),
       0.5 * F.viscosity * (F.radius_rotor / c) ^ 2 * (F.length ^ 3 / F.radius_rotor) *
        ((π * (r / c) * F.omega) / (2 * (1 - (r / c) ^ 2) ^ (3 / 2 : ℝ)))) := rfl
  rw [hf, hsf, hE, hE2, rpow_three_half hq.le]
  unfold to_xy
  dsimp only
  have hk := sqrt_pos.2 hq
  set k := √(1 - (r / c) ^ 2)
  set q := 1 - (r / c) ^ 2
  have hsa : sin a = x / r := by rw [← h1]; field_simp
  have hca : cos a = -y / r := by rw [← h2]; field_simp
  rw [hsa, hca]
  have hD : D = 0.5 * F.viscosity * (F.radius_rotor / c) ^ 2 * (F.length ^ 3 / F.radius_rotor) * F.omega / c := rfl
  rw [hD]
  constructor
  · field_simp
    ring
  · field_simp
    ring

/-- The derivative of `2 √E / (1 - E)²`. -/
theorem alpha_deriv {E : ℝ} (h0 : 0 < E) (h1 : E < 1) :
    HasDerivAt (fun E => 2 * √E / (1 - E) ^ 2) ((1 + 3 * E) / (√E * (1 - E) ^ 3)) E := by
  have hs := sqrt_pos.2 h0
  have hs2 := sq_sqrt h0.le
  have hq : 0 < 1 - E := by linarith
  have d := (((hasDerivAt_sqrt h0.ne').const_mul 2).div (((hasDerivAt_id E).const_sub 1).pow 2) (pow_ne_zero 2 hq.ne'))
  refine d.congr_deriv ?_
  simp only [Pi.pow_apply, id]
  set k := √E
  rw [← hs2] at hq ⊢
  field_simp
  simp
  ring

/-- The derivative of `π / (2 (1 - E)^(3/2))`. -/
theorem beta_deriv {E : ℝ} (h1 : E < 1) :
    HasDerivAt (fun E => π / (2 * √(1 - E) ^ 3)) (3 * π / (4 * √(1 - E) ^ 5)) E := by
  have hq : 0 < 1 - E := by linarith
  have hk := sqrt_pos.2 hq
  have d0 : HasDerivAt (fun E => √(1 - E)) (1 / (2 * √(1 - E)) * -1) E :=
    (hasDerivAt_sqrt hq.ne').comp E ((hasDerivAt_id E).const_sub 1)
  have d := (hasDerivAt_const E π).div ((d0.pow 3).const_mul 2) (mul_ne_zero two_ne_zero (pow_ne_zero 3 hk.ne'))
  refine d.congr_deriv ?_
  simp only [Pi.pow_apply]
  field_simp
  simp
  ring

end Ross.FluidLemmas
