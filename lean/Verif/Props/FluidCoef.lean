import Verif.Lemmas.FluidCoef
import Verif.Props.FluidGeometry
import Verif.Props.FluidInit

/-!
# The coefficients of the pressure equation of a fluid-film bearing (C80)
-/

namespace Ross.Props

open Real Fluid Fluid.FluidFlow Spec.Fluid FluidLemmas

/-- C80: at every point of the grid with a gap, the flow around the axis that a pressure gradient `G` and the turning
rotor drive through the gap is `c1 G - c0`. -/
theorem C80_around {F : FluidFlow} {c1 c2 c0 : ℕ → ℕ → ℝ} (h : F.calculate_coefficients none = .ok (c1, c2, c0))
    (hm : F.viscosity ≠ 0) {i j : ℕ} (hi : 0 < F.ri i j) (hg : F.ri i j < F.re i j) {G : ℝ} {u u' : ℝ → ℝ}
    (hu : FlowAround F.viscosity G (F.ri i j) (F.re i j) (F.omega * F.radius_rotor) u u') :
    ∫ r in F.ri i j..F.re i j, u r = c1 i j * G - c0 i j := by
  unfold calculate_coefficients at h
  split_ifs at h
  cases h
  have := around_flow hm hi hg hu
  simpa [coef_0] using this

/-- C80: and the flow along the axis that a pressure gradient `G` drives through the gap is `c2 G`. -/
theorem C80_along {F : FluidFlow} {d : Option String} {c1 c2 c0 : ℕ → ℕ → ℝ}
    (h : F.calculate_coefficients d = .ok (c1, c2, c0)) (hm : F.viscosity ≠ 0) {i j : ℕ} (hi : 0 < F.ri i j)
    (hg : F.ri i j < F.re i j) {G : ℝ} {v v' : ℝ → ℝ} (hv : FlowAlong F.viscosity G (F.ri i j) (F.re i j) v v') :
    ∫ r in F.ri i j..F.re i j, r * v r = c2 i j * G := by
  unfold calculate_coefficients at h
  split_ifs at h
  cases h
  exact along_flow hm hi hg hv

/-- C80: the fluid flows from high to low pressure. -/
theorem C80_signs {F : FluidFlow} {d : Option String} {c1 c2 c0 : ℕ → ℕ → ℝ}
    (h : F.calculate_coefficients d = .ok (c1, c2, c0)) (hm : 0 < F.viscosity) {i j : ℕ} (hi : 0 < F.ri i j)
    (hg : F.ri i j < F.re i j) : c1 i j < 0 ∧ c2 i j < 0 := by
  unfold calculate_coefficients at h
  split_ifs at h
  cases h
  exact ⟨coef_1_neg hm hi hg, coef_2_neg hm hi hg⟩

/-- C80: while the rotor moves along x or y with speed `v`, the coefficients `c1` and `c2` are the same, and `c0` has
the additional term `r v sin γ` or `- r v cos γ`. -/
theorem C80_disturbed {F : FluidFlow} {c1 c2 c0 : ℕ → ℕ → ℝ} (h : F.calculate_coefficients none = .ok (c1, c2, c0)) :
    (∀ v, HasDerivAt (fun t => F.xp * sin (F.omegap * t)) v F.t →
      ∃ cx, F.calculate_coefficients (some "x") = .ok (c1, c2, cx) ∧
        ∀ i j, cx i j = c0 i j + F.ri i j * (v * sin (F.gama i j) - 0 * cos (F.gama i j))) ∧
    (∀ v, HasDerivAt (fun t => F.yp * sin (F.omegap * t)) v F.t →
      ∃ cy, F.calculate_coefficients (some "y") = .ok (c1, c2, cy) ∧
        ∀ i j, cy i j = c0 i j + F.ri i j * (0 * sin (F.gama i j) - v * cos (F.gama i j))) := by
  have hd : ∀ a w t : ℝ, HasDerivAt (fun t => a * sin (w * t)) (w * a * cos (w * t)) t := by
    intro a w t
    have := (((hasDerivAt_id t).const_mul w).sin).const_mul a
    refine this.congr_deriv ?_
    simp
    ring
  unfold calculate_coefficients at h ⊢
  split_ifs at h ⊢
  cases h
  refine ⟨fun v hv => ⟨_, rfl, fun i j => ?_⟩, fun v hv => ⟨_, rfl, fun i j => ?_⟩⟩
  · rw [hv.unique (hd _ _ _)]
    simp [coef_0]
    ring
  · rw [hv.unique (hd _ _ _)]
    simp [coef_0]
    ring

/-- C80: this term is what the moving rotor displaces: for a circle of radius `R` around `c`, seen from the origin
inside it at distance `ρ c γ` in direction `γ`, and moving with velocity `(vx, vy)`, the area that it sweeps per time and
angle is the derivative of `ρ (vx sin γ - vy cos γ)` with respect to the angle. -/
theorem C80_squeeze {R : ℝ} {ρ : ℝ × ℝ → ℝ → ℝ}
    (hρ : ∀ c g, c.1 ^ 2 + c.2 ^ 2 < R ^ 2 → 0 < ρ c g ∧ OnCircle c R (ρ c g * cos g, ρ c g * sin g)) {c : ℝ × ℝ}
    (hc : c.1 ^ 2 + c.2 ^ 2 < R ^ 2) (g vx vy : ℝ) :
    ∃ D, HasDerivAt (fun t => ρ (c.1 + t * vx, c.2 + t * vy) g ^ 2 / 2) D 0 ∧
      HasDerivAt (fun g => ρ c g * (vx * sin g - vy * cos g)) D g := by
  have hform : ∀ c g, c.1 ^ 2 + c.2 ^ 2 < R ^ 2 → ρ c g = (c.1 * cos g + c.2 * sin g) +
      √((c.1 * cos g + c.2 * sin g) ^ 2 + (R ^ 2 - c.1 ^ 2 - c.2 ^ 2)) := by
    intro c g hc
    obtain ⟨h0, h1⟩ := hρ c g hc
    set b := c.1 * cos g + c.2 * sin g with hb
    have h2 : (ρ c g - b) ^ 2 = b ^ 2 + (R ^ 2 - c.1 ^ 2 - c.2 ^ 2) := by
      unfold OnCircle at h1
      dsimp only at h1
      have := sin_sq_add_cos_sq g
      rw [hb]
      linear_combination h1 - (ρ c g) ^ 2 * this
    have h3 : b < ρ c g := by
      by_contra hlt
      push Not at hlt
      nlinarith
    rw [← h2, sqrt_sq (by linarith)]
    ring
  have hsum := sin_sq_add_cos_sq g
  set b := c.1 * cos g + c.2 * sin g with hb
  have hB : 0 < b ^ 2 + (R ^ 2 - c.1 ^ 2 - c.2 ^ 2) := by nlinarith [sq_nonneg b]
  set B := √(b ^ 2 + (R ^ 2 - c.1 ^ 2 - c.2 ^ 2)) with hBdef
  have hB0 : 0 < B := sqrt_pos.2 hB
  refine ⟨(b + B) * ((vx * cos g + vy * sin g) * (b + B) - (c.1 * vx + c.2 * vy)) / B, ?_, ?_⟩
  · have hx : HasDerivAt (fun t : ℝ => c.1 + t * vx) vx 0 := by
      simpa using ((hasDerivAt_id (0 : ℝ)).mul_const vx).const_add c.1
    have hy : HasDerivAt (fun t : ℝ => c.2 + t * vy) vy 0 := by
      simpa using ((hasDerivAt_id (0 : ℝ)).mul_const vy).const_add c.2
    have hbd : HasDerivAt (fun t : ℝ => (c.1 + t * vx) * cos g + (c.2 + t * vy) * sin g)
        (vx * cos g + vy * sin g) 0 := (hx.mul_const _).add (hy.mul_const _)
    have hin : HasDerivAt (fun t : ℝ => ((c.1 + t * vx) * cos g + (c.2 + t * vy) * sin g) ^ 2 +
        (R ^ 2 - (c.1 + t * vx) ^ 2 - (c.2 + t * vy) ^ 2))
        (2 * b * (vx * cos g + vy * sin g) - 2 * c.1 * vx - 2 * c.2 * vy) 0 := by
      refine ((hbd.pow 2).add (((hx.pow 2).const_sub (R ^ 2)).sub (hy.pow 2))).congr_deriv ?_
      simp [hb]
      ring
    have hs := hin.sqrt (by
      have : b ^ 2 + (R ^ 2 - c.1 ^ 2 - c.2 ^ 2) ≠ 0 := hB.ne'
      simpa [hb] using this)
    have hr := ((hbd.add hs).pow 2).div_const 2
    have hopen : ∀ᶠ t in nhds (0 : ℝ), (c.1 + t * vx) ^ 2 + (c.2 + t * vy) ^ 2 < R ^ 2 := by
      have hcont : Continuous fun t : ℝ => (c.1 + t * vx) ^ 2 + (c.2 + t * vy) ^ 2 := by fun_prop
      exact hcont.continuousAt.eventually_lt continuousAt_const (by simpa using hc)
    refine (hr.congr_deriv ?_).congr_of_eventuallyEq ?_
    · simp only [zero_mul, add_zero, Pi.add_apply, ← hb, ← hBdef]
      field_simp
      simp
      ring
    · filter_upwards [hopen] with t ht
      rw [hform _ g ht]
      rfl
  · have hbd : HasDerivAt (fun g : ℝ => c.1 * cos g + c.2 * sin g) (-c.1 * sin g + c.2 * cos g) g := by
      refine (((hasDerivAt_cos g).const_mul c.1).add ((hasDerivAt_sin g).const_mul c.2)).congr_deriv ?_
      ring
    have hin : HasDerivAt (fun g : ℝ => (c.1 * cos g + c.2 * sin g) ^ 2 + (R ^ 2 - c.1 ^ 2 - c.2 ^ 2))
        (2 * b * (-c.1 * sin g + c.2 * cos g)) g := by
      refine ((hbd.pow 2).add_const _).congr_deriv ?_
      simp [hb]
    have hs := hin.sqrt hB.ne'
    have hv : HasDerivAt (fun g : ℝ => vx * sin g - vy * cos g) (vx * cos g + vy * sin g) g := by
      refine (((hasDerivAt_sin g).const_mul vx).sub ((hasDerivAt_cos g).const_mul vy)).congr_deriv ?_
      ring
    refine (((hbd.add hs).mul hv).congr_deriv ?_).congr_of_eventuallyEq (Filter.Eventually.of_forall fun g => ?_)
    · simp only [Pi.add_apply, ← hb, ← hBdef]
      have hc' : c.1 * vx + c.2 * vy = b * (vx * cos g + vy * sin g) -
          (-c.1 * sin g + c.2 * cos g) * (vx * sin g - vy * cos g) := by
        rw [hb]
        linear_combination -(c.1 * vx + c.2 * vy) * hsum
      rw [hc']
      field_simp
      ring
    · show ρ c g * _ = _
      rw [hform _ g hc]
      rfl

/-- C80: the rotor surface of a bearing whose geometry has been described is the one of `C80_squeeze`. -/
theorem C80_surface {F G : FluidFlow} (hG : F.geometry_description = .ok G) (h : |F.eccentricity| < F.radius_rotor)
    {ρ : ℝ × ℝ → ℝ → ℝ} (hρ : ∀ c g, c.1 ^ 2 + c.2 ^ 2 < F.radius_rotor ^ 2 →
      0 < ρ c g ∧ OnCircle c F.radius_rotor (ρ c g * cos g, ρ c g * sin g)) (i j : ℕ) :
    (centre F.eccentricity F.attitude_angle).1 ^ 2 + (centre F.eccentricity F.attitude_angle).2 ^ 2 <
      F.radius_rotor ^ 2 ∧
    G.ri i j = ρ (centre F.eccentricity F.attitude_angle) (G.gama i j) := by
  have hc : (centre F.eccentricity F.attitude_angle).1 ^ 2 + (centre F.eccentricity F.attitude_angle).2 ^ 2 <
      F.radius_rotor ^ 2 := by
    rw [centre_sq]
    exact sq_lt_sq' (by linarith [neg_abs_le F.eccentricity]) (by linarith [le_abs_self F.eccentricity])
  refine ⟨hc, ?_⟩
  have hr := C74_rotor (F.angle j) F.attitude_angle F.radius_rotor F.eccentricity h
  obtain ⟨h0, h1⟩ := hρ (centre F.eccentricity F.attitude_angle) (F.angle j) hc
  have := hr.2.2.2 _ h0.le h1
  unfold geometry_description at hG
  split at hG
  · cases hG
  · cases hG
    exact this.symm

/-- C80: a position in which the rotor would reach into the stator at a point of the grid is refused, and no other. -/
theorem C80_refused {F G : FluidFlow} (hG : F.geometry_description = .ok G) (h : |F.eccentricity| < F.radius_rotor)
    (hre : ∀ i j, 0 ≤ G.re i j) (d : Option String) :
    (G.calculate_coefficients d = .error .valueError ↔ ∃ i < G.nz, ∃ j < G.ntheta, G.re i j < G.ri i j) ∧
    ((∀ i < G.nz, ∀ j < G.ntheta, G.ri i j ≤ G.re i j) ↔ ∃ c, G.calculate_coefficients d = .ok c) := by
  have hout : ∀ i j, G.outside i j = true ↔ G.re i j < G.ri i j := by
    intro i j
    obtain ⟨hp, hpos, -⟩ := C74_grid hG h i j
    have hq : Polar (G.re i j) (G.gama i j) (G.xre i j, G.yre i j) := by
      unfold geometry_description at hG
      split at hG
      · cases hG
      · rename_i r hr
        cases hG
        obtain ⟨r', hr'⟩ := external_total hr (F.angle j)
        have := C75_polar hr'
        simpa [externalVal, hr'] using this
    unfold Polar at hp hq
    simp only [Prod.mk.injEq] at hp hq
    unfold outside
    rw [decide_eq_true_iff, hp.1, hp.2, hq.1, hq.2, abs_mul, abs_mul, abs_mul, abs_mul, abs_of_pos hpos,
      abs_of_nonneg (hre i j)]
    constructor
    · rintro (h | h)
      · exact lt_of_mul_lt_mul_right h (abs_nonneg _)
      · exact lt_of_mul_lt_mul_right h (abs_nonneg _)
    · intro h
      have hsum := sin_sq_add_cos_sq (G.gama i j)
      by_cases hcos : cos (G.gama i j) = 0
      · right
        have : sin (G.gama i j) ≠ 0 := fun h0 => by rw [h0, hcos] at hsum; norm_num at hsum
        exact mul_lt_mul_of_pos_right h (abs_pos.2 this)
      · left
        exact mul_lt_mul_of_pos_right h (abs_pos.2 hcos)
  unfold calculate_coefficients
  by_cases hex : (List.range G.nz).any (fun i => (List.range G.ntheta).any (fun j => G.outside i j)) = true
  · have hex' : ∃ i < G.nz, ∃ j < G.ntheta, G.re i j < G.ri i j := by
      simpa [hout] using hex
    rw [if_pos hex]
    refine ⟨⟨fun _ => hex', fun _ => rfl⟩, ⟨fun hall => ?_, fun ⟨c, hc⟩ => by cases hc⟩⟩
    obtain ⟨i, hi, j, hj, hlt⟩ := hex'
    exact absurd (hall i hi j hj) (not_le.2 hlt)
  · have hex' : ∀ i < G.nz, ∀ j < G.ntheta, G.ri i j ≤ G.re i j := by
      simpa [hout] using hex
    rw [if_neg hex]
    refine ⟨⟨fun h => (by cases h), fun ⟨i, hi, j, hj, hlt⟩ => ?_⟩, ⟨fun _ => ⟨_, rfl⟩, fun _ => hex'⟩⟩
    exact absurd (hex' i hi j hj) (not_le.2 hlt)

/-- Flows as in C80 exist, for example between radii 1 and 2. -/
example : (∃ u u', FlowAround 1 5 1 2 3 u u') ∧ ∃ v v', FlowAlong 1 5 1 2 v v' :=
  ⟨around_exists one_ne_zero one_pos one_lt_two, along_exists one_ne_zero one_pos one_lt_two⟩

end Ross.Props
