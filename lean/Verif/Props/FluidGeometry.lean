import Mathlib.Analysis.Real.Pi.Bounds
import Verif.Lemmas.FluidGeometry

/-!
# C74-C77: the geometry of fluid-film bearings
-/

namespace Ross.Props

open Real Fluid Spec.Fluid FluidLemmas

/-! ### C74: the surface of the rotor -/

/-- C74: the point of the rotor in the direction `gama` lies in that direction, and on the circle with the radius of the
rotor around its centre; and no other point ahead in that direction does. -/
theorem C74_rotor (gama attitude radius ecc : ℝ) (h : |ecc| < radius) :
    let r := internal_radius_function gama attitude radius ecc
    Polar r.1 gama r.2 ∧ OnCircle (centre ecc attitude) radius r.2 ∧ 0 < r.1 ∧
      ∀ s, 0 ≤ s → OnCircle (centre ecc attitude) radius (s * cos gama, s * sin gama) → s = r.1 := by
  refine ⟨rfl, internal_onCircle h.le gama attitude, internal_pos h gama attitude, fun s hs hc => ?_⟩
  refine ahead_unique (c := centre ecc attitude) (R := radius) (g := gama) ?_ hs (internal_pos h gama attitude).le hc
    (internal_onCircle h.le gama attitude)
  rw [centre_sq, ← sq_abs ecc]
  exact pow_lt_pow_left₀ h (abs_nonneg ecc) (by norm_num)

example : |(0.0001 : ℝ)| < 0.2 := by norm_num [abs_lt]

/-- C74: in a bearing whose geometry has been described, every point of the grid lies at its angle on the rotor. -/
theorem C74_grid {F G : FluidFlow} (hG : F.geometry_description = .ok G) (h : |F.eccentricity| < F.radius_rotor)
    (i j : ℕ) :
    Polar (G.ri i j) (G.gama i j) (G.xri i j, G.yri i j) ∧ 0 < G.ri i j ∧
      OnCircle (centre F.eccentricity F.attitude_angle) F.radius_rotor (G.xri i j, G.yri i j) := by
  unfold FluidFlow.geometry_description at hG
  split at hG
  · cases hG
  · cases hG
    have := C74_rotor (F.angle j) F.attitude_angle F.radius_rotor F.eccentricity h
    exact ⟨this.1, this.2.2.1, this.2.1⟩

/-- C74: the grid goes once around the bearing: the angles are equally spaced from `start` to `start + 2π`. -/
theorem C74_around {F G : FluidFlow} (hG : F.geometry_description = .ok G) (hn : 2 ≤ F.ntheta) (i j : ℕ) :
    G.gama i 0 = F.start ∧ G.gama i (F.ntheta - 1) = F.start + 2 * π ∧
      G.gama i (j + 1) - G.gama i j = 2 * π / (F.ntheta - 1) ∧ G.z_list i = i * (F.length / (F.nz - 1)) := by
  unfold FluidFlow.geometry_description at hG
  split at hG
  · cases hG
  · cases hG
    have h1 : (F.ntheta : ℝ) - 1 ≠ 0 := by
      have : (2 : ℝ) ≤ F.ntheta := by exact_mod_cast hn
      linarith
    refine ⟨?_, ?_, ?_, rfl⟩
    · simp [FluidFlow.angle]
    · simp only [FluidFlow.angle, FluidFlow.dtheta]
      rw [Nat.cast_sub (by omega), Nat.cast_one]
      field_simp
      ring
    · simp only [FluidFlow.angle, FluidFlow.dtheta]
      push_cast
      ring

/-- C74: in a cylindrical bearing the grid starts at the largest distance between rotor and stator. -/
theorem C74_start {F G : FluidFlow} (hG : F.geometry_description = .ok G) (hs : F.shape_geometry = "cylindrical")
    (h0 : 0 ≤ F.eccentricity) (h : F.eccentricity < F.radius_rotor) (i j : ℕ) :
    G.re i j - G.ri i j ≤ G.re i 0 - G.ri i 0 ∧ G.re i 0 - G.ri i 0 = F.radial_clearance + F.eccentricity := by
  unfold FluidFlow.geometry_description at hG
  split at hG
  · cases hG
  · cases hG
    have hre : ∀ g, (F.externalVal g).1 = F.radius_stator := by
      intro g
      simp [FluidFlow.externalVal, FluidFlow.external, external_radius_function, hs]
    have hst : F.start = π / 2 + F.attitude_angle := by simp [FluidFlow.start, hs]
    have ha : F.angle 0 = π / 2 + F.attitude_angle := by simp [FluidFlow.angle, hst]
    have hri : ∀ g, (F.internal g).1 = √(F.radius_rotor ^ 2 - F.eccentricity ^ 2 +
        q F.eccentricity F.attitude_angle g ^ 2) + q F.eccentricity F.attitude_angle g :=
      fun g => internal_radius_eq _ _ _ _
    have hq0 : q F.eccentricity F.attitude_angle (F.angle 0) = -F.eccentricity := by
      rw [q_eq, ha]; simp
    have hri0 : (F.internal (F.angle 0)).1 = F.radius_rotor - F.eccentricity := by
      rw [hri, hq0, neg_sq, sub_add_cancel, sqrt_sq (by linarith)]; ring
    dsimp only
    rw [hre, hre, hri0, hri]
    refine ⟨?_, by unfold FluidFlow.radial_clearance; ring⟩
    set k := q F.eccentricity F.attitude_angle (F.angle j) with hk
    have hkl : |k| ≤ F.eccentricity := by
      rw [← abs_of_nonneg h0]; exact abs_q_le _ _ _
    have hk1 := abs_le.1 hkl
    have : F.radius_rotor - F.eccentricity - k ≤ √(F.radius_rotor ^ 2 - F.eccentricity ^ 2 + k ^ 2) := by
      apply le_sqrt_of_sq_le
      nlinarith [mul_nonneg (by linarith : 0 ≤ F.eccentricity + k) (by linarith : 0 ≤ F.radius_rotor - F.eccentricity)]
    linarith

/-! ### C75: the surface of the stator -/

/-- C75: every point of the stator lies in its direction at its distance, whatever the shape. -/
theorem C75_polar {gama Rs Rr preload displacement : ℝ} {shape : String} {depth : Option ℝ} {r : ℝ × ℝ × ℝ}
    (h : external_radius_function gama Rs Rr shape preload displacement depth = .ok r) : Polar r.1 gama r.2 := by
  unfold external_radius_function at h
  split_ifs at h
  · cases h; rfl
  · split at h
    · cases h
    · cases h; rfl
  · cases h; rfl

/-- C75: a shape that is neither elliptical nor worn is a circle around the origin. -/
theorem C75_cylindrical (gama Rs Rr preload displacement : ℝ) {shape : String} (depth : Option ℝ)
    (h1 : shape ≠ "eliptical") (h2 : shape ≠ "wear") :
    external_radius_function gama Rs Rr shape preload displacement depth = .ok (Rs, Rs * cos gama, Rs * sin gama) := by
  simp [external_radius_function, h1, h2]

/-- C75: an elliptical bearing consists of two arcs with the radius of the stator, of which the upper one is moved down
and the lower one up by the preload times the clearance; it contains the centred rotor, and leaves the part
`1 - preload` of the clearance above and below. -/
theorem C75_elliptical {gama Rs Rr preload : ℝ} (displacement : ℝ) (depth : Option ℝ) (hg0 : 0 ≤ gama)
    (hg1 : gama ≤ 2 * π) (h0 : 0 < Rr) (h1 : Rr < Rs) (hp0 : 0 ≤ preload) (hp1 : preload ≤ 1) :
    ∃ r, external_radius_function gama Rs Rr "eliptical" preload displacement depth = .ok r ∧
      (0 ≤ sin gama → OnCircle (0, -(preload * (Rs - Rr))) Rs r.2) ∧
      (sin gama ≤ 0 → OnCircle (0, preload * (Rs - Rr)) Rs r.2) ∧
      Rr + (1 - preload) * (Rs - Rr) ≤ r.1 ∧ r.1 ≤ Rs ∧
      (|sin gama| = 1 → r.1 = Rr + (1 - preload) * (Rs - Rr)) := by
  set s := preload * (Rs - Rr) with hs
  have hs0 : 0 ≤ s := mul_nonneg hp0 (by linarith)
  have hs1 : s ≤ Rs - Rr := by rw [hs]; exact mul_le_of_le_one_left (by linarith) hp1
  have hrad := elliptical_eq hg0 hg1 Rs Rr preload
  rw [← hs] at hrad
  have hu : 0 ≤ Rs ^ 2 - s ^ 2 + (s * |sin gama|) ^ 2 := by nlinarith [sq_nonneg (s * |sin gama|)]
  have hsin0 := abs_nonneg (sin gama)
  have hsin1 := abs_sin_le_one gama
  have hss0 : 0 ≤ s * |sin gama| := by positivity
  have hss1 : s * |sin gama| ≤ s := mul_le_of_le_one_right hs0 hsin1
  refine ⟨_, by simp only [external_radius_function, if_pos]; rfl, ?_, ?_, ?_, ?_, ?_⟩
  · intro h
    rw [abs_of_nonneg h] at hrad hu
    rw [onCircle_polar, hrad]
    dsimp only
    rw [show √(Rs ^ 2 - s ^ 2 + (s * sin gama) ^ 2) - s * sin gama - (0 * cos gama + -s * sin gama) =
      √(Rs ^ 2 - s ^ 2 + (s * sin gama) ^ 2) by ring, sq_sqrt hu]
    ring
  · intro h
    rw [abs_of_nonpos h] at hrad hu
    rw [onCircle_polar, hrad]
    dsimp only
    rw [show √(Rs ^ 2 - s ^ 2 + (s * -sin gama) ^ 2) - s * -sin gama - (0 * cos gama + s * sin gama) =
      √(Rs ^ 2 - s ^ 2 + (s * -sin gama) ^ 2) by ring, sq_sqrt hu]
    ring
  · dsimp only
    rw [hrad]
    have : Rs - s + s * |sin gama| ≤ √(Rs ^ 2 - s ^ 2 + (s * |sin gama|) ^ 2) := by
      apply le_sqrt_of_sq_le
      nlinarith [mul_nonneg (by linarith : 0 ≤ s - s * |sin gama|) (by linarith : 0 ≤ Rs - s)]
    nlinarith
  · dsimp only
    rw [hrad]
    have : √(Rs ^ 2 - s ^ 2 + (s * |sin gama|) ^ 2) ≤ Rs := by
      apply sqrt_le_iff.2 ⟨by linarith, ?_⟩
      nlinarith
    linarith
  · intro h
    dsimp only
    rw [hrad, h, mul_one, sub_add_cancel, sqrt_sq (by linarith)]
    linarith

example : ∃ r, external_radius_function (π / 2) 0.015 0.01491 "eliptical" 0.4 0 none = .ok r ∧
    r.1 = 0.01491 + (1 - 0.4) * (0.015 - 0.01491) := by
  obtain ⟨r, h, -, -, -, -, h5⟩ := C75_elliptical (gama := π / 2) (Rs := 0.015) (Rr := 0.01491) (preload := 0.4) 0 none
    (by positivity) (by linarith [pi_pos]) (by norm_num) (by norm_num) (by norm_num) (by norm_num)
  exact ⟨r, h, h5 (by simp)⟩

/-- C75: an elliptical bearing with preload 0 is cylindrical. -/
theorem C75_no_preload {gama Rs : ℝ} (Rr displacement : ℝ) (depth : Option ℝ) (h : 0 ≤ Rs) :
    external_radius_function gama Rs Rr "eliptical" 0 displacement depth = .ok (Rs, Rs * cos gama, Rs * sin gama) := by
  have : elliptical_radius gama Rs Rr 0 = Rs := by
    simp [elliptical_radius, sqrt_sq h]
  simp [external_radius_function, this]

/-- C75: with wear turned by at most a quarter turn from the downward vertical, the radius is that of the stator and the
depth of the wear.  (The quantifier of the claim has no such bound: see `C75_wear_false`.) -/
theorem C75_wear_partial {gama Rs Rr displacement depth : ℝ} (preload : ℝ) (hcr : Rr < Rs) (h0 : 0 ≤ depth)
    (h2 : depth ≤ 2 * (Rs - Rr)) (hg0 : 0 ≤ gama) (hg1 : gama ≤ 2 * π) (hd1 : -(π / 2) ≤ displacement)
    (hd2 : displacement ≤ π / 2) :
    ∃ r, external_radius_function gama Rs Rr "wear" preload displacement (some depth) = .ok r ∧
      r.1 = Rs + wear depth (Rs - Rr) displacement gama ∧ Rs ≤ r.1 ∧ r.1 ≤ Rs + depth ∧
      (gama = 3 * π / 2 + displacement → r.1 = Rs + depth) := by
  have hw := wear_depth_eq hcr h0 h2 hg0 hg1 hd1 hd2
  refine ⟨(Rs + wear_depth gama Rs Rr displacement depth, _), by simp [external_radius_function]; rfl, ?_⟩
  dsimp only
  rw [hw]
  have h1 : wear depth (Rs - Rr) displacement gama ≤ depth := by
    unfold wear
    apply max_le h0
    nlinarith [cos_le_one (gama - (3 * π / 2 + displacement))]
  have h3 : 0 ≤ wear depth (Rs - Rr) displacement gama := le_max_left _ _
  refine ⟨rfl, by linarith, by linarith, fun h => ?_⟩
  unfold wear
  rw [h]
  simp [h0]

example : ∃ r, external_radius_function (3 * π / 2 + 0.1) 0.015 0.01491 "wear" 0.4 0.1 (some 0.00005) = .ok r ∧
    r.1 = 0.01505 := by
  obtain ⟨r, h, -, -, -, h5⟩ := C75_wear_partial (gama := 3 * π / 2 + 0.1) (Rs := 0.015) (Rr := 0.01491)
    (displacement := 0.1) (depth := 0.00005) 0.4 (by norm_num) (by norm_num) (by norm_num)
    (by positivity) (by linarith [pi_gt_three]) (by linarith [pi_gt_three]) (by linarith [pi_gt_three])
  exact ⟨r, h, by rw [h5 rfl]; norm_num⟩

/-- C75, refuted without the bound: with wear at the top of the bearing (half a turn), half as deep as the clearance, the
stator is narrower than without wear at the right-hand side. -/
theorem C75_wear_false : ∃ r, external_radius_function 0 2 1 "wear" 0.4 π (some (1 / 2)) = .ok r ∧ r.1 < 2 := by
  refine ⟨(2 + wear_depth 0 2 1 π (1 / 2), _), by simp [external_radius_function]; rfl, ?_⟩
  have hA : arccos (1 / 2 / (2 - 1) - 1) = 2 * π / 3 := by
    rw [show (1 / 2 / (2 - 1) - 1 : ℝ) = -(1 / 2) by norm_num, arccos_neg]
    have : arccos (1 / 2) = π / 3 := by
      rw [← cos_pi_div_three, arccos_cos (by positivity) (by linarith [pi_pos])]
    rw [this]; ring
  have hp := pi_pos
  have : wear_depth 0 2 1 π (1 / 2) = -(1 / 2) := by
    unfold wear_depth
    rw [if_neg (by norm_num)]
    dsimp only
    rw [hA, if_neg (by linarith), if_neg (by rintro ⟨h, _⟩; linarith), if_pos ⟨le_rfl, by linarith⟩,
      show 0 + 2 * π - π / 2 - π = π / 2 by ring, cos_pi_div_two]
    norm_num
  dsimp only
  rw [this]
  norm_num

/-- C75: wear of depth 0 leaves a cylindrical bearing. -/
theorem C75_no_wear (gama Rs Rr preload displacement : ℝ) :
    external_radius_function gama Rs Rr "wear" preload displacement (some 0) =
      .ok (Rs, Rs * cos gama, Rs * sin gama) := by
  simp [external_radius_function, wear_depth]

/-! ### C76: moving the rotor -/

/-- C76: moving the rotor adds the steps to its position, and eccentricity and ratio are those of the new position;
nothing else than these, the position and the attitude angle changes. -/
theorem C76_moved (F : FluidFlow) (dx dy : ℝ) :
    let G := move_rotor_center F dx dy
    G.xi = F.xi + dx ∧ G.yi = F.yi + dy ∧ 0 ≤ G.eccentricity ∧ G.eccentricity ^ 2 = G.xi ^ 2 + G.yi ^ 2 ∧
      G.eccentricity_ratio = G.eccentricity / (F.radius_stator - F.radius_rotor) ∧
      G = { F with xi := G.xi, yi := G.yi, eccentricity := G.eccentricity, eccentricity_ratio := G.eccentricity_ratio,
                   attitude_angle := G.attitude_angle } ∧
      move_rotor_center_abs F (F.xi + dx) (F.yi + dy) = G :=
  ⟨rfl, rfl, sqrt_nonneg _, sq_sqrt (by positivity), rfl, rfl, rfl⟩

/-- C76: as long as the rotor stays in the quadrant to the right of and below the centre of the stator, the surface
described afterwards is the circle around the new position.  (The claim has no such bound: see `C76_quadrant_false`.) -/
theorem C76_centre_partial (F : FluidFlow) {x y : ℝ} (h : x ≠ 0 ∨ y ≠ 0) (hx : 0 ≤ x) (hy : y ≤ 0) :
    let G := move_rotor_center_abs F x y
    centre G.eccentricity G.attitude_angle = (x, y) := by
  show centre √(x ^ 2 + y ^ 2) (arccos |y / √(x ^ 2 + y ^ 2)|) = (x, y)
  rw [moved_centre h, abs_of_nonneg hx, abs_of_nonpos hy, neg_neg]

example : (0 : ℝ) ≤ 2e-5 ∧ (-1e-5 : ℝ) ≤ 0 := by norm_num

/-- C76, refuted outside this quadrant: eccentricity and attitude angle always describe the mirror image in it, so that
the surface is not the one around the position unless the position is in the quadrant. -/
theorem C76_quadrant_false (F : FluidFlow) {x y : ℝ} (h : x < 0 ∨ 0 < y) :
    let G := move_rotor_center_abs F x y
    G.xi = x ∧ G.yi = y ∧ centre G.eccentricity G.attitude_angle = (|x|, -|y|) ∧
      centre G.eccentricity G.attitude_angle ≠ (x, y) := by
  have h' : x ≠ 0 ∨ y ≠ 0 := by
    rcases h with h | h
    · exact .inl h.ne
    · exact .inr h.ne'
  refine ⟨rfl, rfl, moved_centre h', ?_⟩
  show centre √(x ^ 2 + y ^ 2) (arccos |y / √(x ^ 2 + y ^ 2)|) ≠ (x, y)
  rw [moved_centre h', Ne, Prod.mk.injEq]
  rintro ⟨h1, h2⟩
  rcases h with h | h
  · linarith [abs_nonneg x]
  · linarith [abs_nonneg y]

/-- C76: moving there and back, in the quadrant, gives the bearing back. -/
theorem C76_back (F : FluidFlow) (dx dy : ℝ) (hc : (F.xi, F.yi) = centre F.eccentricity F.attitude_angle)
    (he : 0 < F.eccentricity) (ha : 0 ≤ F.attitude_angle) (ha' : F.attitude_angle ≤ π / 2)
    (hr : F.eccentricity_ratio = F.eccentricity / F.radial_clearance) :
    move_rotor_center (move_rotor_center F dx dy) (-dx) (-dy) = F := by
  have hx : F.xi = F.eccentricity * sin F.attitude_angle := congrArg Prod.fst hc
  have hy : F.yi = -F.eccentricity * cos F.attitude_angle := congrArg Prod.snd hc
  have hs : √(F.xi ^ 2 + F.yi ^ 2) = F.eccentricity := by
    rw [hx, hy, show (F.eccentricity * sin F.attitude_angle) ^ 2 + (-F.eccentricity * cos F.attitude_angle) ^ 2 =
      F.eccentricity ^ 2 * (sin F.attitude_angle ^ 2 + cos F.attitude_angle ^ 2) by ring, sin_sq_add_cos_sq, mul_one,
      sqrt_sq he.le]
  have hang : arccos |F.yi / F.eccentricity| = F.attitude_angle := by
    rw [hy, neg_mul, neg_div, abs_neg, mul_div_cancel_left₀ _ he.ne',
      abs_of_nonneg (cos_nonneg_of_neg_pi_div_two_le_of_le (by linarith [pi_pos]) ha'),
      arccos_cos ha (by linarith [pi_pos])]
  unfold move_rotor_center
  dsimp only
  rw [show F.xi + dx + -dx = F.xi by ring, show F.yi + dy + -dy = F.yi by ring, hs, hang]
  show { F with eccentricity_ratio := F.eccentricity / F.radial_clearance } = F
  rw [← hr]

end Ross.Props
