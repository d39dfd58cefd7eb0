import Verif.Lemmas.FilmForce
import Verif.Lemmas.FluidShort
import Verif.Model.FluidForces

/-!
# C83: the force of the film
-/

namespace Ross.Props

open Real Fluid Spec.Fluid FluidLemmas

/-- C83: the force of a short bearing is that of the pressure of a short bearing, where it is positive, on the surface
of the rotor. -/
theorem C83_short (lib : FlowLib) (F : FluidFlow) {force_type : Option String}
    (hb : force_type = some "short" ∨ (F.bearing_type = "short_bearing" ∧ force_type ≠ some "numerical"))
    (hL : 0 < F.length) (hc : 0 < F.radial_clearance) (he0 : 0 ≤ F.eccentricity_ratio) (he1 : F.eccentricity_ratio < 1)
    (hom : 0 ≤ F.omega) (hmu : 0 ≤ F.viscosity) {p p1 p2 : ℝ → ℝ → ℝ} {h' : ℝ → ℝ}
    (hp : ShortFilm F.viscosity F.omega F.length
      (film F.radial_clearance (F.eccentricity_ratio * F.radial_clearance)) p p1 p2 h') :
    let f := calculate_oil_film_force lib F force_type
    (f.x, f.y) = filmForce F.radius_rotor F.length (2 * π) F.attitude_angle (fun z t => max (p z t) 0) := by
  have he : |F.eccentricity_ratio| < 1 := by rw [abs_of_nonneg he0]; exact he1
  have hce : |F.eccentricity_ratio * F.radial_clearance| < F.radial_clearance := by
    rw [abs_mul, abs_of_pos hc]
    exact mul_lt_of_lt_one_left hc he
  have hs := s_pos he
  unfold calculate_oil_film_force
  rw [if_pos (by rcases hb with rfl | ⟨h1, h2⟩; exacts [⟨by simp, .inl rfl⟩, ⟨h2, .inr h1⟩])]
  unfold to_xy short_force
  set c := F.radial_clearance
  set e := F.eccentricity_ratio
  set a := F.attitude_angle
  have hval : (fun z t => max (p z t) 0) = fun z t => max ((F.length * z - z ^ 2) *
      ((3 * F.viscosity * F.omega * e / c ^ 2 * sin t + 0 * cos t) / (1 + e * cos t) ^ 3)) 0 := by
    funext z t
    rw [short_film hL.ne' hce hp z t]
    congr 1
    have hu := u_pos he t
    rw [show film c (e * c) t = c * (1 + e * cos t) by unfold film; ring]
    field_simp
    ring
  have hk : 0 ≤ 3 * F.viscosity * F.omega * e / c ^ 2 := by positivity
  rw [hval, filmForce_max (cont_div he 3 (by fun_prop)) _ _ hL.le, force_cubic he, rpow_three_half hs.le]
  · have hsq := sqrt_pos.2 hs
    by_cases hR : F.radius_rotor = 0
    · simp [hR]
    ext
    · dsimp only
      field_simp
      ring
    · dsimp only
      field_simp
      ring
  · intro z h0 h1
    nlinarith
  · intro t ht
    have hu := u_pos he t
    rw [zero_mul, add_zero]
    positivity
  · intro t ht
    have hu := u_pos he t
    rw [zero_mul, add_zero]
    exact div_nonpos_of_nonpos_of_nonneg (mul_nonpos_of_nonneg_of_nonpos hk ht) (by positivity)

/-- C83: the force of a long bearing into which the fluid comes without pressure is that of the pressure of a long bearing,
where it is positive, on the surface of the rotor.  (The claim is for any pressure: see `C83_long_false`.) -/
theorem C83_long_partial (lib : FlowLib) (F : FluidFlow) {force_type : Option String}
    (hb : (F.bearing_type = "long_bearing" ∧ force_type = none) ∨
      (F.bearing_type ≠ "short_bearing" ∧ force_type = some "long"))
    (hL : 0 < F.length) (hc : 0 < F.radial_clearance) (he0 : 0 ≤ F.eccentricity_ratio) (he1 : F.eccentricity_ratio < 1)
    (hom : 0 ≤ F.omega) (hmu : 0 ≤ F.viscosity) (hpin : F.p_in = 0) {p p1 h' : ℝ → ℝ}
    (hp : LongFilm F.viscosity F.omega F.radius_rotor F.p_in
      (film F.radial_clearance (F.eccentricity_ratio * F.radial_clearance)) p p1 h') :
    let f := calculate_oil_film_force lib F force_type
    (f.x, f.y) = filmForce F.radius_rotor F.length (2 * π) F.attitude_angle (fun _ t => max (p t) 0) := by
  have he : |F.eccentricity_ratio| < 1 := by rw [abs_of_nonneg he0]; exact he1
  have hce : |F.eccentricity_ratio * F.radial_clearance| < F.radial_clearance := by
    rw [abs_mul, abs_of_pos hc]
    exact mul_lt_of_lt_one_left hc he
  have hs := s_pos he
  unfold calculate_oil_film_force
  rw [if_neg (by rcases hb with ⟨h1, rfl⟩ | ⟨h1, rfl⟩ <;> simp [h1]),
    if_pos (by rcases hb with ⟨h1, rfl⟩ | ⟨h1, rfl⟩ <;> simp [h1])]
  unfold to_xy long_force
  set c := F.radial_clearance
  set e := F.eccentricity_ratio
  set a := F.attitude_angle
  have hq : 0 < 2 + e ^ 2 := by positivity
  have hval : (fun (_ : ℝ) t => max (p t) 0) = fun z t => max (1 *
      (6 * F.viscosity * F.omega * F.radius_rotor ^ 2 * e / (c ^ 2 * (2 + e ^ 2)) * sin t * (2 + e * cos t) /
        (1 + e * cos t) ^ 2)) 0 := by
    funext z t
    rw [long_film hce hp t]
    congr 1
    have hu := u_pos he t
    unfold longP
    rw [show film c (e * c) t = c * (1 + e * cos t) by unfold film; ring, hpin,
      show 2 * c ^ 2 + (e * c) ^ 2 = c ^ 2 * (2 + e ^ 2) by ring]
    field_simp
    ring
  have hk : 0 ≤ 6 * F.viscosity * F.omega * F.radius_rotor ^ 2 * e / (c ^ 2 * (2 + e ^ 2)) := by positivity
  rw [hval, filmForce_max (q := fun _ => 1) (cont_div he 2 (by fun_prop)) _ _ hL.le (fun _ _ _ => zero_le_one),
    force_long he, rpow_half]
  · have hsq := sqrt_pos.2 hs
    ext
    · dsimp only
      field_simp
      ring
    · dsimp only
      field_simp
      ring
  · intro t ht
    have hu := u_pos he t
    have : 0 < 2 + e * cos t := by linarith
    positivity
  · intro t ht
    have hu := u_pos he t
    have : 0 < 2 + e * cos t := by linarith
    exact div_nonpos_of_nonpos_of_nonneg
      (mul_nonpos_of_nonpos_of_nonneg (mul_nonpos_of_nonneg_of_nonpos hk ht) this.le) (by positivity)

/-- C83, refuted for pressures of the incoming fluid that keep the pressure positive all around: the force of the whole
film then has no component against the eccentricity, and the calculated one has. -/
theorem C83_long_false (lib : FlowLib) (F : FluidFlow) (hb : F.bearing_type = "long_bearing")
    (hL : 0 < F.length) (hc : 0 < F.radial_clearance) (he0 : 0 < F.eccentricity_ratio) (he1 : F.eccentricity_ratio < 1)
    (hom : 0 < F.omega) (hmu : 0 < F.viscosity) (hR : 0 < F.radius_rotor) {p p1 h' : ℝ → ℝ}
    (hp : LongFilm F.viscosity F.omega F.radius_rotor F.p_in
      (film F.radial_clearance (F.eccentricity_ratio * F.radial_clearance)) p p1 h') (hpos : ∀ t, 0 ≤ p t) :
    let f := calculate_oil_film_force lib F none
    (f.x, f.y) ≠ filmForce F.radius_rotor F.length (2 * π) F.attitude_angle (fun _ t => max (p t) 0) := by
  have he : |F.eccentricity_ratio| < 1 := by rw [abs_of_pos he0]; exact he1
  have hce : |F.eccentricity_ratio * F.radial_clearance| < F.radial_clearance := by
    rw [abs_mul, abs_of_pos hc]
    exact mul_lt_of_lt_one_left hc he
  have hs := s_pos he
  unfold calculate_oil_film_force
  rw [if_neg (by simp [hb]), if_pos (by simp [hb])]
  unfold to_xy long_force
  set c := F.radial_clearance
  set e := F.eccentricity_ratio
  set a := F.attitude_angle
  have hq : 0 < 2 + e ^ 2 := by positivity
  set K := 6 * F.viscosity * F.omega * F.radius_rotor ^ 2 * e / (c ^ 2 * (2 + e ^ 2)) with hK
  have hpt : ∀ t, p t = K * (sin t * (2 + e * cos t) / (1 + e * cos t) ^ 2) + F.p_in := by
    intro t
    rw [long_film hce hp t]
    have hu := u_pos he t
    unfold longP
    rw [show film c (e * c) t = c * (1 + e * cos t) by unfold film; ring,
      show 2 * c ^ 2 + (e * c) ^ 2 = c ^ 2 * (2 + e ^ 2) by ring, hK]
    field_simp
  have hval : (fun (_ : ℝ) t => max (p t) 0) = fun z t => 1 * p t := by
    funext z t
    rw [max_eq_left (hpos t), one_mul]
  have hcont : Continuous p := by
    have : p = fun t => K * (sin t * (2 + e * cos t) / (1 + e * cos t) ^ 2) + F.p_in := funext hpt
    rw [this]
    exact (continuous_const.mul (cont_div he 2 (by fun_prop))).add continuous_const
  have h0 : ∫ t in (0)..(2 * π), p t * cos t = 0 := by
    have d : ∀ t, HasDerivAt (fun t => K * -(cos t ^ 2 / (1 + e * cos t)) + F.p_in * sin t) (p t * cos t) t := by
      intro t
      refine (((anti_sc2 he t).const_mul K).add ((hasDerivAt_sin t).const_mul F.p_in)).congr_deriv ?_
      rw [hpt]
      ring
    rw [intervalIntegral.integral_eq_sub_of_hasDerivAt (fun t _ => d t)
      (Continuous.intervalIntegrable (by fun_prop) _ _)]
    simp
  rw [hval, filmForce_sep (q := fun _ => 1) hcont, h0]
  intro f h
  have h1 := congrArg Prod.fst h
  have h2 := congrArg Prod.snd h
  dsimp only [f] at h1 h2
  have hcs := sin_sq_add_cos_sq a
  have hr : 0 < 6 * F.viscosity * (F.radius_rotor / c) ^ 2 * F.radius_rotor * F.length *
      ((2 * e ^ 2 * F.omega) / ((2 + e ^ 2) * (1 - e ^ 2))) := by positivity
  set r := 6 * F.viscosity * (F.radius_rotor / c) ^ 2 * F.radius_rotor * F.length *
      ((2 * e ^ 2 * F.omega) / ((2 + e ^ 2) * (1 - e ^ 2)))
  have : r = 0 := by linear_combination (-sin a) * h1 + cos a * h2 - r * hcs
  exact hr.ne' this

/-- Pressures of the incoming fluid that keep the pressure positive. -/
example : ∃ p p1 h', LongFilm 1 1 1 100 (film 1 (1 / 2 * 1)) p p1 h' ∧ ∀ t, 0 ≤ p t := by
  have hce : |(1 / 2 * 1 : ℝ)| < 1 := by norm_num [abs_of_pos]
  obtain ⟨p, p1, h', h⟩ := long_film_exists (mu := 1) (om := 1) (R := 1) (p_in := 100) hce
  refine ⟨p, p1, h', h, fun t => ?_⟩
  rw [long_film hce h t]
  unfold longP film
  have h1 := neg_one_le_cos t
  have h2 := cos_le_one t
  have h3 := neg_one_le_sin t
  have hu : (1 / 2 : ℝ) ≤ 1 + 1 / 2 * 1 * cos t := by linarith
  have hu2 : (1 / 4 : ℝ) ≤ (1 + 1 / 2 * 1 * cos t) ^ 2 := by nlinarith
  have hn : -(15 : ℝ) ≤ 6 * 1 * 1 * 1 ^ 2 * (1 / 2 * 1) * sin t * (2 * 1 + 1 / 2 * 1 * cos t) := by nlinarith
  have : -100 ≤ 6 * 1 * 1 * 1 ^ 2 * (1 / 2 * 1) * sin t * (2 * 1 + 1 / 2 * 1 * cos t) /
      ((2 * 1 ^ 2 + (1 / 2 * 1) ^ 2) * (1 + 1 / 2 * 1 * cos t) ^ 2) := by
    rw [le_div_iff₀ (by positivity)]
    nlinarith
  linarith

/-- C83: the numerical force is the sum of the numerical pressure over the grid, with the weights of the rule of integration,
times the radius of the rotor, against the direction from the centre of the rotor to the stator. -/
theorem C83_numerical {lib : FlowLib} {w : ℕ → (ℕ → ℝ) → ℕ → ℝ} (hw : RuleOk lib.simpson w) (F : FluidFlow)
    {force_type : Option String} (hb : force_type = some "numerical" ∨
      (F.bearing_type ≠ "short_bearing" ∧ F.bearing_type ≠ "long_bearing" ∧ force_type = none))
    (hd : ∀ i < F.nz, ∀ j < F.ntheta, (F.xre i j - F.xi) ^ 2 + (F.yre i j - F.yi) ^ 2 ≠ 0) :
    let f := calculate_oil_film_force lib F force_type
    let weight := fun i j => w F.nz F.z_list i * w F.ntheta (F.gama 0) j * (F.radius_rotor * F.p_mat_numerical i j)
    let dist := fun i j => √((F.xre i j - F.xi) ^ 2 + (F.yre i j - F.yi) ^ 2)
    f.x = -∑ i ∈ Finset.range F.nz, ∑ j ∈ Finset.range F.ntheta, weight i j * ((F.xre i j - F.xi) / dist i j) ∧
    f.y = -∑ i ∈ Finset.range F.nz, ∑ j ∈ Finset.range F.ntheta, weight i j * ((F.yre i j - F.yi) / dist i j) := by
  unfold calculate_oil_film_force
  rw [if_neg (by rcases hb with rfl | ⟨h1, h2, rfl⟩ <;> simp [*]),
    if_neg (by rcases hb with rfl | ⟨h1, h2, rfl⟩ <;> simp [*])]
  -- the angle of a point of the stator
  set b := base_angle F
  have hcos : ∀ i < F.nz, ∀ j < F.ntheta,
      (F.xre i j - F.xi) / √((F.xre i j - F.xi) ^ 2 + (F.yre i j - F.yi) ^ 2) =
        cos b * cos (angle_between F i j) - sin b * sin (angle_between F i j) ∧
      (F.yre i j - F.yi) / √((F.xre i j - F.xi) ^ 2 + (F.yre i j - F.yi) ^ 2) =
        sin b * cos (angle_between F i j) + cos b * sin (angle_between F i j) := by
    intro i hi j hj
    have hne : (⟨F.xre i j - F.xi, F.yre i j - F.yi⟩ : ℂ) ≠ 0 := by
      intro h0
      have h1 := congrArg Complex.re h0
      have h2 := congrArg Complex.im h0
      apply hd i hi j hj
      simp at h1 h2
      rw [h1, h2]
      ring
    have hn : ‖(⟨F.xre i j - F.xi, F.yre i j - F.yi⟩ : ℂ)‖ =
        √((F.xre i j - F.xi) ^ 2 + (F.yre i j - F.yi) ^ 2) := by
      rw [Complex.norm_def, Complex.normSq_mk]
      congr 1
      ring
    have h1 : cos (b + angle_between F i j) = cos (arctan2 (F.yre i j - F.yi) (F.xre i j - F.xi)) ∧
        sin (b + angle_between F i j) = sin (arctan2 (F.yre i j - F.yi) (F.xre i j - F.xi)) := by
      unfold angle_between
      dsimp only
      split_ifs
      · rw [show b + (arctan2 (F.yre i j - F.yi) (F.xre i j - F.xi) - base_angle F + 2 * π) =
          arctan2 (F.yre i j - F.yi) (F.xre i j - F.xi) + 2 * π by ring]
        exact ⟨cos_add_two_pi _, sin_add_two_pi _⟩
      · rw [show b + (arctan2 (F.yre i j - F.yi) (F.xre i j - F.xi) - base_angle F) =
          arctan2 (F.yre i j - F.yi) (F.xre i j - F.xi) by ring]
        exact ⟨rfl, rfl⟩
    rw [cos_add, sin_add] at h1
    unfold arctan2 at h1
    rw [Complex.cos_arg hne, Complex.sin_arg, hn] at h1
    exact ⟨h1.1.symm, h1.2.symm⟩
  have hI : ∀ u : ℝ → ℝ, film_integral lib F u = ∑ i ∈ Finset.range F.nz, ∑ j ∈ Finset.range F.ntheta,
      w F.nz F.z_list i * w F.ntheta (F.gama 0) j * (F.p_mat_numerical i j * u (angle_between F i j)) := by
    intro u
    unfold film_integral
    rw [hw]
    refine Finset.sum_congr rfl fun i _ => ?_
    rw [hw, Finset.mul_sum]
    exact Finset.sum_congr rfl fun j _ => by ring
  have hsum : ∀ (x y : ℝ) (d : ℕ → ℕ → ℝ), (∀ i < F.nz, ∀ j < F.ntheta,
      d i j = x * cos (angle_between F i j) + y * sin (angle_between F i j)) →
      ∑ i ∈ Finset.range F.nz, ∑ j ∈ Finset.range F.ntheta, w F.nz F.z_list i * w F.ntheta (F.gama 0) j *
        (F.radius_rotor * F.p_mat_numerical i j) * d i j =
      F.radius_rotor * (x * film_integral lib F cos + y * film_integral lib F sin) := by
    intro x y d h
    rw [hI, hI, Finset.mul_sum, Finset.mul_sum, ← Finset.sum_add_distrib, Finset.mul_sum]
    refine Finset.sum_congr rfl fun i hi => ?_
    rw [Finset.mul_sum, Finset.mul_sum, ← Finset.sum_add_distrib, Finset.mul_sum]
    refine Finset.sum_congr rfl fun j hj => ?_
    rw [h i (Finset.mem_range.1 hi) j (Finset.mem_range.1 hj)]
    ring
  have hx := hsum (cos b) (-sin b)
    (fun i j => (F.xre i j - F.xi) / √((F.xre i j - F.xi) ^ 2 + (F.yre i j - F.yi) ^ 2)) fun i hi j hj => by
      rw [(hcos i hi j hj).1]
      ring
  have hy := hsum (sin b) (cos b)
    (fun i j => (F.yre i j - F.yi) / √((F.xre i j - F.xi) ^ 2 + (F.yre i j - F.yi) ^ 2)) fun i hi j hj =>
      (hcos i hi j hj).2
  dsimp only
  rw [hx, hy]
  have hcs := sin_sq_add_cos_sq F.attitude_angle
  unfold to_xy numerical_force
  dsimp only
  rw [show π / 2 - base_angle F + F.attitude_angle + π = (F.attitude_angle - b + π / 2) + π by ring,
    show π / 2 - base_angle F + F.attitude_angle + π / 2 = (F.attitude_angle - b + π / 2) + π / 2 by ring,
    show π / 2 - base_angle F + F.attitude_angle = (F.attitude_angle - b) + π / 2 by ring, cos_add_pi,
    cos_add_pi_div_two, cos_add_pi_div_two, sin_add_pi_div_two, sin_sub, cos_sub]
  set I := film_integral lib F cos
  set J := film_integral lib F sin
  constructor
  · linear_combination F.radius_rotor * (J * sin b - I * cos b) * hcs
  · linear_combination -F.radius_rotor * (J * cos b + I * sin b) * hcs

/-- The trapezoidal rule with equal steps is such a rule. -/
example : ∃ simpson w, RuleOk simpson w ∧ simpson 3 (fun i => i) (fun i => i) = 2 := by
  refine ⟨fun n y x => ∑ i ∈ Finset.range n, (if i = 0 ∨ i = n - 1 then (x 1 - x 0) / 2 else x 1 - x 0) * y i,
    fun n x i => if i = 0 ∨ i = n - 1 then (x 1 - x 0) / 2 else x 1 - x 0, fun n y x => rfl, ?_⟩
  norm_num [Finset.sum_range_succ]

/-- C83, refuted for short bearings that are to be taken as long: the type asked for is ignored. -/
theorem C83_type_false (lib : FlowLib) (F : FluidFlow) (hb : F.bearing_type = "short_bearing") (hL : 0 < F.length)
    (hc : 0 < F.radial_clearance) (he0 : 0 < F.eccentricity_ratio) (he1 : F.eccentricity_ratio ≤ 1 / 2)
    (hom : 0 < F.omega) (hmu : 0 < F.viscosity) (hR : F.length ≤ F.radius_rotor) :
    (calculate_oil_film_force lib F (some "long")).radial <
      (calculate_oil_film_force lib { F with bearing_type := "long_bearing" } (some "long")).radial := by
  unfold calculate_oil_film_force
  rw [if_pos ⟨by simp, .inr hb⟩, if_neg (by simp), if_pos (by simp)]
  unfold to_xy short_force long_force
  show 0.5 * F.viscosity * (F.radius_rotor / F.radial_clearance) ^ 2 * (F.length ^ 3 / F.radius_rotor) *
      ((2 * F.eccentricity_ratio ^ 2 * F.omega) / (1 - F.eccentricity_ratio ^ 2) ^ 2) <
    6 * F.viscosity * (F.radius_rotor / F.radial_clearance) ^ 2 * F.radius_rotor * F.length *
      ((2 * F.eccentricity_ratio ^ 2 * F.omega) / ((2 + F.eccentricity_ratio ^ 2) * (1 - F.eccentricity_ratio ^ 2)))
  set c := F.radial_clearance
  set e := F.eccentricity_ratio
  have hR0 : 0 < F.radius_rotor := lt_of_lt_of_le hL hR
  have hs : 3 / 4 ≤ 1 - e ^ 2 := by nlinarith
  have hs0 : 0 < 1 - e ^ 2 := by linarith
  have hq : 0 < 2 + e ^ 2 := by positivity
  have e1 : 0.5 * F.viscosity * (F.radius_rotor / c) ^ 2 * (F.length ^ 3 / F.radius_rotor) *
      ((2 * e ^ 2 * F.omega) / (1 - e ^ 2) ^ 2) = (F.viscosity * F.length * e ^ 2 * F.omega * F.radius_rotor /
        (c ^ 2 * (1 - e ^ 2) ^ 2 * (2 + e ^ 2))) * (F.length ^ 2 * (2 + e ^ 2)) := by
    field_simp
    ring
  have e2 : 6 * F.viscosity * (F.radius_rotor / c) ^ 2 * F.radius_rotor * F.length *
      ((2 * e ^ 2 * F.omega) / ((2 + e ^ 2) * (1 - e ^ 2))) =
      (F.viscosity * F.length * e ^ 2 * F.omega * F.radius_rotor /
        (c ^ 2 * (1 - e ^ 2) ^ 2 * (2 + e ^ 2))) * (12 * F.radius_rotor ^ 2 * (1 - e ^ 2)) := by
    field_simp
    ring
  rw [e1, e2]
  apply mul_lt_mul_of_pos_left _ (by positivity)
  have h1 : F.length ^ 2 ≤ F.radius_rotor ^ 2 := pow_le_pow_left₀ hL.le hR 2
  have h2 : F.length ^ 2 * (2 + e ^ 2) ≤ F.radius_rotor ^ 2 * (2 + e ^ 2) := mul_le_mul_of_nonneg_right h1 hq.le
  have h3 : 0 < F.radius_rotor ^ 2 := by positivity
  nlinarith

end Ross.Props
