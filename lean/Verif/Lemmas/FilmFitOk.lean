import Verif.Lemmas.FilmFit
import Verif.Lemmas.FluidGeometry

/-!
# The samples can be taken
-/

namespace Ross.FluidLemmas

open Real Fluid Spec.Fluid

/-- A rotor inside a cylindrical stator. -/
def Inside (F : FluidFlow) : Prop :=
  F.shape_geometry = "cylindrical" ∧ 0 ≤ F.eccentricity ∧ F.eccentricity ≤ F.radial_clearance ∧
    F.radial_clearance ≤ F.radius_rotor

theorem inside_erase {F G : FluidFlow} (h : erase F = erase G) (hF : Inside F) : Inside G := by
  have e1 := congrArg FluidFlow.shape_geometry h
  have e2 := congrArg FluidFlow.eccentricity h
  have e3 := congrArg FluidFlow.radius_stator h
  have e4 := congrArg FluidFlow.radius_rotor h
  change F.shape_geometry = G.shape_geometry at e1
  change F.eccentricity = G.eccentricity at e2
  change F.radius_stator = G.radius_stator at e3
  change F.radius_rotor = G.radius_rotor at e4
  unfold Inside FluidFlow.radial_clearance at *
  rwa [e1, e2, e3, e4] at hF

theorem internal_le {R e : ℝ} (h0 : 0 ≤ e) (h : e ≤ R) (g a : ℝ) :
    0 ≤ (internal_radius_function g a R e).1 ∧ (internal_radius_function g a R e).1 ≤ R + e := by
  unfold internal_radius_function
  dsimp only
  set al := internal_alpha g a
  have hs := sin_sq_add_cos_sq al
  have hc := neg_one_le_cos al
  have hc' := cos_le_one al
  constructor
  · have : |e * cos al| ≤ √(R ^ 2 - (e * sin al) ^ 2) := by
      apply abs_le_sqrt
      have : (e * sin al) ^ 2 + (e * cos al) ^ 2 = e ^ 2 := by linear_combination e ^ 2 * hs
      nlinarith
    linarith [neg_abs_le (e * cos al)]
  · have h1 : √(R ^ 2 - (e * sin al) ^ 2) ≤ R := by
      rw [sqrt_le_left (by linarith)]
      linarith [sq_nonneg (e * sin al)]
    have h2 : e * cos al ≤ e := by nlinarith
    linarith

theorem film_succeeds {F : FluidFlow} (h : Inside F) (lib : FlowLib) (d : Option String) :
    ∃ G f, film_after lib F d = .ok (G, f) := by
  obtain ⟨hs, h0, h1, h2⟩ := h
  have ext : ∀ g, F.external g = .ok (F.radius_stator, F.radius_stator * cos g, F.radius_stator * sin g) := by
    intro g
    unfold FluidFlow.external external_radius_function
    rw [hs, if_neg (by decide), if_neg (by decide)]
  unfold film_after FluidFlow.geometry_description
  rw [ext]
  show ∃ G f, (FluidFlow.calculate_pressure_matrix_numerical lib.spsolve _ d >>= _) = Except.ok (G, f)
  unfold FluidFlow.calculate_pressure_matrix_numerical FluidFlow.calculate_coefficients
  rw [if_neg]
  · exact ⟨_, _, rfl⟩
  · rw [Bool.not_eq_true, List.any_eq_false]
    intro i _
    rw [Bool.not_eq_true, List.any_eq_false]
    intro j _
    rw [Bool.not_eq_true]
    unfold FluidFlow.outside
    apply decide_eq_false
    dsimp only
    have hv : F.externalVal (F.angle j) =
        (F.radius_stator, F.radius_stator * cos (F.angle j), F.radius_stator * sin (F.angle j)) := by
      unfold FluidFlow.externalVal
      rw [ext]
    rw [hv]
    unfold FluidFlow.internal
    obtain ⟨r0, r1⟩ := internal_le h0 (h1.trans h2) (F.angle j) F.attitude_angle
    set r := (internal_radius_function (F.angle j) F.attitude_angle F.radius_rotor F.eccentricity).1 with hr
    have e1 : (internal_radius_function (F.angle j) F.attitude_angle F.radius_rotor F.eccentricity).2.1 = r * cos (F.angle j) := rfl
    have e2 : (internal_radius_function (F.angle j) F.attitude_angle F.radius_rotor F.eccentricity).2.2 = r * sin (F.angle j) := rfl
    rw [e1, e2]
    unfold FluidFlow.radial_clearance at h1 h2
    have hle : |r| ≤ |F.radius_stator| := by
      rw [abs_of_nonneg r0, abs_of_nonneg (by linarith)]
      linarith
    rintro (h | h)
    · rw [abs_mul, abs_mul] at h
      exact absurd h (not_lt.2 (mul_le_mul_of_nonneg_right hle (abs_nonneg _)))
    · rw [abs_mul, abs_mul] at h
      exact absurd h (not_lt.2 (mul_le_mul_of_nonneg_right hle (abs_nonneg _)))

theorem film_parts {lib : FlowLib} {F G : FluidFlow} {d : Option String} {f : Forces} (h : film_after lib F d = .ok (G, f)) :
    ∃ K, F.geometry_description = .ok K ∧ K.calculate_pressure_matrix_numerical lib.spsolve d = .ok G := by
  unfold film_after at h
  obtain ⟨F1, h1, h⟩ := bindOk h
  obtain ⟨F2, h2, h⟩ := bindOk h
  cases h
  exact ⟨F1, h1, h2⟩

/-- A cylindrical bearing whose rotor stays inside when moved by `xp` or `yp`. -/
def Room (F : FluidFlow) : Prop :=
  F.shape_geometry = "cylindrical" ∧ 0 ≤ F.xp ∧ F.xp = F.yp ∧ √(F.xi ^ 2 + F.yi ^ 2) + F.xp ≤ F.radial_clearance ∧
    F.radial_clearance ≤ F.radius_rotor

theorem room_base {F G : FluidFlow} (h : base F = base G) (hF : Room F) : Room G := by
  have e1 := congrArg FluidFlow.shape_geometry h
  have e2 := congrArg FluidFlow.xp h
  have e3 := congrArg FluidFlow.radius_stator h
  have e4 := congrArg FluidFlow.radius_rotor h
  have e5 := congrArg FluidFlow.yp h
  have e6 := congrArg FluidFlow.xi h
  have e7 := congrArg FluidFlow.yi h
  change F.shape_geometry = G.shape_geometry at e1
  change F.xp = G.xp at e2
  change F.radius_stator = G.radius_stator at e3
  change F.radius_rotor = G.radius_rotor at e4
  change F.yp = G.yp at e5
  change F.xi = G.xi at e6
  change F.yi = G.yi at e7
  unfold Room FluidFlow.radial_clearance at *
  rwa [e1, e2, e3, e4, e5, e6, e7] at hF

theorem norm_move_x (x y d : ℝ) : √((x + d) ^ 2 + y ^ 2) ≤ √(x ^ 2 + y ^ 2) + |d| := by
  have h0 := sqrt_nonneg (x ^ 2 + y ^ 2)
  have h1 := sq_sqrt (by positivity : 0 ≤ x ^ 2 + y ^ 2)
  rw [sqrt_le_left (by positivity)]
  have h2 : x * d ≤ √(x ^ 2 + y ^ 2) * |d| := by
    have : |x| ≤ √(x ^ 2 + y ^ 2) := abs_le_sqrt (by linarith [sq_nonneg y])
    calc x * d ≤ |x * d| := le_abs_self _
      _ = |x| * |d| := abs_mul _ _
      _ ≤ _ := mul_le_mul_of_nonneg_right this (abs_nonneg _)
  nlinarith [sq_abs d]

theorem norm_move_y (x y d : ℝ) : √(x ^ 2 + (y + d) ^ 2) ≤ √(x ^ 2 + y ^ 2) + |d| := by
  have := norm_move_x y x d
  rwa [add_comm ((y + d) ^ 2), add_comm (y ^ 2)] at this

theorem room_inside {F : FluidFlow} (h : Room F) (t : ℝ) {d : ℝ} (hd : |d| ≤ F.xp) :
    Inside (move_rotor_center { F with t := t } d 0) ∧ Inside (move_rotor_center { F with t := t } 0 d) := by
  obtain ⟨h1, h2, _, h3, h4⟩ := h
  refine ⟨⟨h1, sqrt_nonneg _, ?_, h4⟩, ⟨h1, sqrt_nonneg _, ?_, h4⟩⟩
  · show √((F.xi + d) ^ 2 + (F.yi + 0) ^ 2) ≤ F.radial_clearance
    rw [add_zero]
    linarith [norm_move_x F.xi F.yi d]
  · show √((F.xi + 0) ^ 2 + (F.yi + d) ^ 2) ≤ F.radial_clearance
    rw [add_zero]
    linarith [norm_move_y F.xi F.yi d]

theorem step_succeeds {F : FluidFlow} (h : Room F) (lib : FlowLib) (t : ℝ) : ∃ G s, sample_step lib F t = .ok (G, s) := by
  have hx : |F.xp * sin (F.omegap * t)| ≤ F.xp := by
    rw [abs_mul, abs_of_nonneg h.2.1]
    exact mul_le_of_le_one_right h.2.1 (abs_sin_le_one _)
  obtain ⟨F1, fx, h1⟩ := film_succeeds (room_inside h t hx).1 lib (some "x")
  have e1 := film_erase h1
  have x1 : F1.xp = F.xp ∧ F1.yp = F.yp ∧ F1.omegap = F.omegap ∧ F1.t = t := by
    have := congrArg FluidFlow.xp e1
    have := congrArg FluidFlow.yp e1
    have := congrArg FluidFlow.omegap e1
    have := congrArg FluidFlow.t e1
    refine ⟨?_, ?_, ?_, ?_⟩ <;> assumption
  have b1 : erase (move_rotor_center (move_rotor_center F1 (-(F.xp * sin (F.omegap * t))) 0) 0
      (F1.yp * sin (F1.omegap * F1.t))) = erase (move_rotor_center { F with t := t } 0 (F.yp * sin (F.omegap * t))) := by
    rw [x1.2.1, x1.2.2.1, x1.2.2.2, move_erase, move_erase, e1]
    simp only [erase, move_rotor_center, FluidFlow.mk.injEq, FluidFlow.radial_clearance]
    simp
  have hy : |F.yp * sin (F.omegap * t)| ≤ F.xp := by rwa [← h.2.2.1]
  obtain ⟨F2, fy, h2⟩ := film_succeeds (inside_erase b1.symm (room_inside h t hy).2) lib (some "y")
  have e2 := film_erase h2
  have b2 : erase (move_rotor_center F2 0 (-(F1.yp * sin (F1.omegap * F1.t)))) =
      erase (move_rotor_center { F with t := t } 0 0) := by
    rw [move_erase, e2, b1, x1.2.1, x1.2.2.1, x1.2.2.2]
    simp only [erase, move_rotor_center, FluidFlow.mk.injEq, FluidFlow.radial_clearance]
    simp
  obtain ⟨F4, f4, h4⟩ := film_succeeds (inside_erase b2.symm (room_inside h t (d := 0) (by simpa using h.2.1)).1) lib none
  obtain ⟨F3, h3, h4⟩ := film_parts h4
  unfold sample_step
  dsimp only
  rw [show film_after lib (move_rotor_center { F with t := t } (F.xp * sin (F.omegap * t)) 0) (some "x") = .ok (F1, fx) from h1]
  show ∃ G s, (film_after lib _ (some "y") >>= _) = Except.ok (G, s)
  rw [h2]
  show ∃ G s, (FluidFlow.geometry_description _ >>= _) = Except.ok (G, s)
  rw [h3]
  show ∃ G s, (FluidFlow.calculate_pressure_matrix_numerical lib.spsolve F3 none >>= _) = Except.ok (G, s)
  rw [h4]
  exact ⟨_, _, rfl⟩

theorem loop_succeeds (lib : FlowLib) (ts : List ℝ) : ∀ {F : FluidFlow}, Room F → ∃ G l, sample_loop lib F ts = .ok (G, l) := by
  induction ts with
  | nil => exact fun _ => ⟨_, _, rfl⟩
  | cons t ts ih =>
    intro F h
    obtain ⟨G, s, h1⟩ := step_succeeds h lib t
    have hb : base F = base G := ((base_erase (step_ok h1).1).trans (base_move_zero F t)).symm
    obtain ⟨K, l, h2⟩ := ih (room_base hb h)
    refine ⟨K, s :: l, ?_⟩
    unfold sample_loop
    rw [h1]
    show (sample_loop lib G ts >>= _) = _
    rw [h2]
    rfl

end Ross.FluidLemmas
