import Verif.Lemmas.FluidFilm
import Verif.Props.FluidGeometry
import Verif.Props.FluidInit

/-!
# The pressure of short and long bearings (C82)
-/

namespace Ross.Props

open Real Fluid Fluid.FluidFlow Spec.Fluid FluidLemmas

/-- C82: the calculated pressure of a short bearing, by either method, is the solution of the equation of a short
bearing at the points of the grid, with 0 in place of negative pressures. -/
theorem C82_short {F G : FluidFlow} {method : ℤ} {force_type : Option String}
    (h : F.calculate_pressure_matrix_analytical method force_type = .ok G)
    (hb : F.bearing_type = "short_bearing" ∨ force_type = some "short") (hm : method = 0 ∨ method = 1)
    (hL : F.length ≠ 0) (hc : 0 < F.radial_clearance) (he : |F.eccentricity_ratio| < 1) {p p1 p2 : ℝ → ℝ → ℝ}
    {h' : ℝ → ℝ} (hp : ShortFilm F.viscosity F.omega F.length
      (film F.radial_clearance (F.eccentricity_ratio * F.radial_clearance)) p p1 p2 h') (i j : ℕ) :
    G.p_mat_analytical i j = max (p (i * F.dz) (j * F.dtheta)) 0 ∧ G.analytical_pressure_matrix_available = true := by
  have hce : |F.eccentricity_ratio * F.radial_clearance| < F.radial_clearance := by
    rw [abs_mul, abs_of_pos hc]
    exact mul_lt_of_lt_one_left hc he
  have hfilm : film F.radial_clearance (F.eccentricity_ratio * F.radial_clearance) (j * F.dtheta) =
      F.radial_clearance * (1 + F.eccentricity_ratio * cos (j * F.dtheta)) := by unfold film; ring
  have hpos := film_pos hce (j * F.dtheta)
  rw [hfilm] at hpos
  have hpos' := (pos_iff_pos_of_mul_pos hpos).1 hc
  have hval := short_film hL hce hp (i * F.dz) (j * F.dtheta)
  rw [hfilm] at hval
  have hmax : ∀ x : ℝ, (if x < 0 then 0 else x) = max x 0 := by
    intro x
    split_ifs with hx
    · rw [max_eq_right hx.le]
    · rw [max_eq_left (not_lt.1 hx)]
  unfold calculate_pressure_matrix_analytical at h
  rw [if_pos hb] at h
  rcases hm with rfl | rfl
  · rw [if_pos rfl] at h
    cases h
    refine ⟨?_, rfl⟩
    show (F.short_pressure_0 i j) = _
    unfold short_pressure_0
    dsimp only
    rw [hmax, hval]
    congr 1
    field_simp
    ring
  · rw [if_neg (by norm_num), if_pos rfl] at h
    cases h
    refine ⟨?_, rfl⟩
    show (F.short_pressure_1 i j) = _
    unfold short_pressure_1
    dsimp only
    rw [hmax, hval]
    congr 1
    field_simp
    ring

/-- C82: the calculated pressure of a long bearing is the solution of the equation of a long bearing at the points of the
grid, with 0 in place of negative pressures. -/
theorem C82_long {F G : FluidFlow} {force_type : Option String}
    (h : F.calculate_pressure_matrix_analytical 0 force_type = .ok G)
    (hb : (F.bearing_type = "long_bearing" ∧ force_type ≠ some "short") ∨
      (F.bearing_type ≠ "short_bearing" ∧ force_type = some "long"))
    (hc : 0 < F.radial_clearance) (he : |F.eccentricity_ratio| < 1) {p p1 h' : ℝ → ℝ}
    (hp : LongFilm F.viscosity F.omega F.radius_rotor F.p_in
      (film F.radial_clearance (F.eccentricity_ratio * F.radial_clearance)) p p1 h') (i j : ℕ) :
    G.p_mat_analytical i j = max (p (j * F.dtheta)) 0 ∧ G.analytical_pressure_matrix_available = true := by
  have hce : |F.eccentricity_ratio * F.radial_clearance| < F.radial_clearance := by
    rw [abs_mul, abs_of_pos hc]
    exact mul_lt_of_lt_one_left hc he
  have hfilm : film F.radial_clearance (F.eccentricity_ratio * F.radial_clearance) (j * F.dtheta) =
      F.radial_clearance * (1 + F.eccentricity_ratio * cos (j * F.dtheta)) := by unfold film; ring
  have hpos := film_pos hce (j * F.dtheta)
  rw [hfilm] at hpos
  have hpos' := (pos_iff_pos_of_mul_pos hpos).1 hc
  have hval := long_film hce hp (j * F.dtheta)
  unfold longP at hval
  rw [hfilm] at hval
  have hmax : ∀ x : ℝ, (if x < 0 then 0 else x) = max x 0 := by
    intro x
    split_ifs with hx
    · rw [max_eq_right hx.le]
    · rw [max_eq_left (not_lt.1 hx)]
  unfold calculate_pressure_matrix_analytical at h
  have h1 : ¬(F.bearing_type = "short_bearing" ∨ force_type = some "short") := by
    rcases hb with ⟨h1, h2⟩ | ⟨h1, h2⟩
    · rw [h1]
      simp [h2]
    · rw [h2]
      simp [h1]
  have h2 : F.bearing_type = "long_bearing" ∨ force_type = some "long" := by
    rcases hb with ⟨h1, h2⟩ | ⟨h1, h2⟩
    · exact .inl h1
    · exact .inr h2
  rw [if_neg h1, if_pos h2, if_pos rfl] at h
  cases h
  refine ⟨?_, rfl⟩
  show (F.long_pressure i j) = _
  unfold long_pressure
  dsimp only
  rw [hmax, hval, mul_comm F.dtheta]
  congr 1
  have hq : 0 < 2 + F.eccentricity_ratio ^ 2 := by positivity
  have hq' : 0 < 2 * F.radial_clearance ^ 2 + (F.eccentricity_ratio * F.radial_clearance) ^ 2 := by positivity
  congr 1
  have e1 : 2 * F.radial_clearance ^ 2 + (F.eccentricity_ratio * F.radial_clearance) ^ 2 =
      F.radial_clearance ^ 2 * (2 + F.eccentricity_ratio ^ 2) := by ring
  rw [e1]
  field_simp

/-- C82: a bearing of medium size is refused unless it is to be taken as short or long. -/
theorem C82_refused {F : FluidFlow} (hb : F.bearing_type = "medium_size") (method : ℤ) {force_type : Option String}
    (h1 : force_type ≠ some "short") (h2 : force_type ≠ some "long") :
    F.calculate_pressure_matrix_analytical method force_type = .error .valueError := by
  unfold calculate_pressure_matrix_analytical
  rw [if_neg (by rw [hb]; simp [h1]), if_neg (by rw [hb]; simp [h2]), if_pos (.inl hb)]

/-- C82: the thickness `c + e cos t` is the gap of a cylindrical bearing at that point of the grid, up to the square of
the eccentricity over the radius. -/
theorem C82_gap {F G : FluidFlow} (hG : F.geometry_description = .ok G) (hs : F.shape_geometry = "cylindrical")
    (h : |F.eccentricity| < F.radius_rotor) (i j : ℕ) :
    film F.radial_clearance F.eccentricity (j * F.dtheta) ≤ G.re i j - G.ri i j ∧
      G.re i j - G.ri i j ≤ film F.radial_clearance F.eccentricity (j * F.dtheta) +
        F.eccentricity ^ 2 / F.radius_rotor := by
  have hR : 0 < F.radius_rotor := lt_of_le_of_lt (abs_nonneg _) h
  unfold FluidFlow.geometry_description at hG
  split at hG
  · cases hG
  · cases hG
    have hre : ∀ g, (F.externalVal g).1 = F.radius_stator := by
      intro g
      simp [FluidFlow.externalVal, FluidFlow.external, external_radius_function, hs]
    have hst : F.start = π / 2 + F.attitude_angle := by simp [FluidFlow.start, hs]
    have hq : q F.eccentricity F.attitude_angle (F.angle j) = -(F.eccentricity * cos (j * F.dtheta)) := by
      rw [q_eq, FluidFlow.angle, hst, show (j : ℝ) * F.dtheta + (π / 2 + F.attitude_angle) - F.attitude_angle =
        j * F.dtheta + π / 2 by ring, sin_add_pi_div_two]
      ring
    have hri : (F.internal (F.angle j)).1 = √(F.radius_rotor ^ 2 - F.eccentricity ^ 2 +
        q F.eccentricity F.attitude_angle (F.angle j) ^ 2) + q F.eccentricity F.attitude_angle (F.angle j) :=
      internal_radius_eq _ _ _ _
    dsimp only
    rw [hre, hri, hq, neg_sq]
    unfold film radial_clearance
    have hcs := sin_sq_add_cos_sq (j * F.dtheta)
    have hc1 : cos (j * F.dtheta) ^ 2 ≤ 1 := by nlinarith [sq_nonneg (sin (j * F.dtheta))]
    have he2 : 0 ≤ F.eccentricity ^ 2 * (1 - cos (j * F.dtheta) ^ 2) := mul_nonneg (sq_nonneg _) (by linarith)
    have heR : F.eccentricity ^ 2 ≤ F.radius_rotor ^ 2 := by
      rw [← sq_abs]
      exact pow_le_pow_left₀ (abs_nonneg _) h.le 2
    have hup : √(F.radius_rotor ^ 2 - F.eccentricity ^ 2 + (F.eccentricity * cos (j * F.dtheta)) ^ 2) ≤
        F.radius_rotor := by
      rw [sqrt_le_left hR.le, mul_pow]
      linarith
    have hlo : F.radius_rotor - F.eccentricity ^ 2 / F.radius_rotor ≤
        √(F.radius_rotor ^ 2 - F.eccentricity ^ 2 + (F.eccentricity * cos (j * F.dtheta)) ^ 2) := by
      apply le_sqrt_of_sq_le
      have e1 : (F.radius_rotor - F.eccentricity ^ 2 / F.radius_rotor) ^ 2 =
          F.radius_rotor ^ 2 - 2 * F.eccentricity ^ 2 + F.eccentricity ^ 2 * (F.eccentricity ^ 2 / F.radius_rotor ^ 2) := by
        field_simp
        ring
      have e2 : F.eccentricity ^ 2 / F.radius_rotor ^ 2 ≤ 1 := (div_le_one (by positivity)).2 heR
      have e3 := mul_le_mul_of_nonneg_left e2 (sq_nonneg F.eccentricity)
      rw [e1]
      nlinarith [sq_nonneg (F.eccentricity * cos (j * F.dtheta))]
    constructor <;> linarith

/-- C82, refuted for short bearings that are to be taken as long: the type asked for is ignored.  With a
pressure of 1 where the fluid comes in, the calculated pressure is 0 there. -/
theorem C82_type_false {F G : FluidFlow} (hb : F.bearing_type = "short_bearing") (hpin : F.p_in = 1)
    (h : F.calculate_pressure_matrix_analytical 0 (some "long") = .ok G) {p p1 h' : ℝ → ℝ}
    (hp : LongFilm F.viscosity F.omega F.radius_rotor F.p_in
      (film F.radial_clearance (F.eccentricity_ratio * F.radial_clearance)) p p1 h') :
    G.p_mat_analytical 0 0 = 0 ∧ max (p ((0 : ℕ) * F.dtheta)) 0 = 1 := by
  unfold calculate_pressure_matrix_analytical at h
  rw [if_pos (.inl hb), if_pos rfl] at h
  cases h
  constructor
  · simp [short_pressure_0]
  · have := hp.start
    simp [this, hpin]

/-- C82, refuted for other shapes: for a short or long bearing of another shape no error is raised, and the pressure is
that of the cylindrical one. -/
theorem C82_shape_false (F : FluidFlow) (hb : F.bearing_type = "short_bearing" ∨ F.bearing_type = "long_bearing")
    (shape : String) :
    ∃ G G', { F with shape_geometry := "cylindrical" }.calculate_pressure_matrix_analytical 0 none = .ok G ∧
      { F with shape_geometry := shape }.calculate_pressure_matrix_analytical 0 none = .ok G' ∧
      G'.p_mat_analytical = G.p_mat_analytical := by
  have hs : ∀ H : FluidFlow, H.bearing_type = "short_bearing" →
      ∃ K, H.calculate_pressure_matrix_analytical 0 none = .ok K ∧ K.p_mat_analytical = H.short_pressure_0 := by
    intro H hH
    unfold calculate_pressure_matrix_analytical
    rw [if_pos (.inl hH), if_pos rfl]
    exact ⟨_, rfl, rfl⟩
  have hl : ∀ H : FluidFlow, H.bearing_type = "long_bearing" →
      ∃ K, H.calculate_pressure_matrix_analytical 0 none = .ok K ∧ K.p_mat_analytical = H.long_pressure := by
    intro H hH
    unfold calculate_pressure_matrix_analytical
    rw [if_neg (by simp [hH]), if_pos (.inl hH), if_pos rfl]
    exact ⟨_, rfl, rfl⟩
  rcases hb with hb | hb
  · obtain ⟨K, e, hK⟩ := hs { F with shape_geometry := "cylindrical" } hb
    obtain ⟨K', e', hK'⟩ := hs { F with shape_geometry := shape } hb
    exact ⟨K, K', e, e', by rw [hK, hK']; rfl⟩
  · obtain ⟨K, e, hK⟩ := hl { F with shape_geometry := "cylindrical" } hb
    obtain ⟨K', e', hK'⟩ := hl { F with shape_geometry := shape } hb
    exact ⟨K, K', e, e', by rw [hK, hK']; rfl⟩

/-- The equations of short and long bearings have solutions, for example for a ratio of 1/2. -/
example : (∃ p p1 p2 h', ShortFilm 1 1 1 (film 1 (1 / 2)) p p1 p2 h') ∧
    ∃ p p1 h', LongFilm 1 1 1 1 (film 1 (1 / 2)) p p1 h' :=
  ⟨short_film_exists (by norm_num [abs_of_pos]), long_film_exists (by norm_num [abs_of_pos])⟩

end Ross.Props
