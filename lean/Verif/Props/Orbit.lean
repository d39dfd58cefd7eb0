import Verif.Lemmas.Orbit
import Verif.Props.Modal

/-!
# C56-C59: orbits
-/

namespace Ross.Props

open Spec OrbitLemmas

/-! ### C56: the axes -/

/-- C56: the major axis is the largest and the minor axis the smallest distance that the node reaches. -/
theorem C56_axes {la : Lapack} (hla : LapackOk la) (node : ℕ) (pos : ℝ) (ru rv : ℂ) :
    IsGreatest (Set.range (radius ru rv)) (Orbit.init la node pos ru rv).major_axis ∧
    IsLeast (Set.range (radius ru rv)) (Orbit.init la node pos ru rv).minor_axis := by
  rw [major_axis_eq hla, minor_axis_eq hla]
  exact ⟨greatest_radius ru rv, least_radius ru rv⟩

/-- C56: `kappa` is, up to its sign, the ratio of the axes. -/
theorem C56_ratio {la : Lapack} (hla : LapackOk la) (node : ℕ) (pos : ℝ) (ru rv : ℂ) :
    let o := Orbit.init la node pos ru rv
    |o.kappa| * o.major_axis = o.minor_axis ∧ |o.kappa| ≤ 1 ∧ (o.major_axis = 0 → o.kappa = 0) := by
  intro o
  have h := abs_kappa hla node pos ru rv
  have hz : o.major_axis = 0 → o.kappa = 0 := by
    intro hm
    rw [major_axis_eq hla] at hm
    show (Orbit.init la node pos ru rv).kappa = 0
    rw [kappa_cases hla, hm]
    simp
  rw [← major_axis_eq hla node pos, ← minor_axis_eq hla node pos] at h
  refine ⟨h, ?_, hz⟩
  by_cases hm : o.major_axis = 0
  · rw [hz hm]
    simp
  · have h0 : 0 ≤ o.major_axis := by
      show 0 ≤ (Orbit.init la node pos ru rv).major_axis
      rw [major_axis_eq hla]
      exact Real.sqrt_nonneg _
    have hp : 0 < o.major_axis := h0.lt_of_ne (Ne.symm hm)
    have hle : o.minor_axis ≤ o.major_axis := by
      show (Orbit.init la node pos ru rv).minor_axis ≤ (Orbit.init la node pos ru rv).major_axis
      rw [major_axis_eq hla, minor_axis_eq hla]
      exact Real.sqrt_le_sqrt (small_le_big ru rv)
    have h' : |o.kappa| * o.major_axis = o.minor_axis := h
    rw [← h'] at hle
    exact le_of_mul_le_mul_right (by linarith) hp

/-- C56: `kappa` is `1` or `-1` exactly for circles. -/
theorem C56_circle {la : Lapack} (hla : LapackOk la) (node : ℕ) (pos : ℝ) (ru rv : ℂ) :
    |(Orbit.init la node pos ru rv).kappa| = 1 ↔ ∃ r, 0 < r ∧ ∀ τ, radius ru rv τ = r := by
  obtain ⟨hg, hl⟩ := C56_axes hla node pos ru rv
  obtain ⟨hr, -, hz⟩ := C56_ratio hla node pos ru rv
  have h0 : 0 ≤ (Orbit.init la node pos ru rv).major_axis := by
    rw [major_axis_eq hla]
    exact Real.sqrt_nonneg _
  constructor
  · intro h
    rw [h, one_mul] at hr
    refine ⟨(Orbit.init la node pos ru rv).major_axis, h0.lt_of_ne fun e => ?_, fun τ =>
      le_antisymm (hg.2 ⟨τ, rfl⟩) (hr ▸ hl.2 ⟨τ, rfl⟩)⟩
    rw [hz e.symm] at h
    simp at h
  · rintro ⟨r, hp, h⟩
    obtain ⟨τ, e⟩ := hg.1
    obtain ⟨σ, f⟩ := hl.1
    rw [h] at e f
    rw [← e, ← f] at hr
    exact mul_right_cancel₀ hp.ne' (by rw [hr, one_mul])

/-- C56: the 360 points are the positions of the node at the sampled phases, with their directions. -/
theorem C56_points (la : Lapack) (node : ℕ) (pos : ℝ) (ru rv : ℂ) (i : ℕ) :
    let o := Orbit.init la node pos ru rv
    o.node = node ∧ o.node_pos = pos ∧ o.ru_e = ru ∧ o.rv_e = rv ∧
    o.x_circle i = coord ru (sample i) ∧ o.y_circle i = coord rv (sample i) ∧
    Direction (o.x_circle i) (o.y_circle i) (o.angle i) := by
  have e : Orbit.c i = sample i := by
    unfold Orbit.c sample
    ring
  refine ⟨rfl, rfl, rfl, rfl, ?_, ?_, polar_spec _ _⟩
  · rw [x_circle_eq, e]
  · rw [y_circle_eq, e]

/-- C56: the marked point of the orbit is the sampled point that is farthest away; its distance is the
major axis up to the factor `cos (π / 359)`, and its direction is the reported angle. -/
theorem C56_major_point {la : Lapack} (hla : LapackOk la) (node : ℕ) (pos : ℝ) (ru rv : ℂ) :
    let o := Orbit.init la node pos ru rv
    ∃ i, i < 180 ∧ o.major_index = i ∧
      o.major_x = coord ru (sample i) ∧ o.major_y = coord rv (sample i) ∧
      (∀ j, j < 180 → radius ru rv (sample j) ≤ radius ru rv (sample i)) ∧
      o.major_axis * Real.cos (Real.pi / 359) ≤ radius ru rv (sample i) ∧
      radius ru rv (sample i) ≤ o.major_axis ∧
      Direction o.major_x o.major_y o.major_angle ∧
      o.minor_angle = o.major_angle + Real.pi / 2 := by
  have e : ∀ i, Orbit.c i = sample i := by
    intro i
    unfold Orbit.c sample
    ring
  obtain ⟨h1, h2⟩ := major_index_spec la node pos ru rv
  obtain ⟨k, hk, hb⟩ := sample_bound ru rv
  refine ⟨(Orbit.init la node pos ru rv).major_index, h1, rfl, ?_, ?_, ?_, ?_, ?_, polar_spec _ _, rfl⟩
  · rw [← e]
    rfl
  · rw [← e]
    rfl
  · intro j hj
    rw [← e, ← e]
    exact h2 j hj
  · rw [major_axis_eq hla, ← e]
    exact hb.trans (h2 k hk)
  · exact (C56_axes hla node pos ru rv).1.2 ⟨_, rfl⟩

/-! ### C57: the sense of rotation -/

/-- C57: the sign of `kappa` tells the sense in which the node runs around its rest position. -/
theorem C57_kappa {la : Lapack} (hla : LapackOk la) (node : ℕ) (pos : ℝ) (ru rv : ℂ) :
    (0 < (Orbit.init la node pos ru rv).kappa ↔ Counterclockwise ru rv) ∧
    ((Orbit.init la node pos ru rv).kappa < 0 ↔ Clockwise ru rv) ∧
    ((Orbit.init la node pos ru rv).kappa = 0 ↔ Line ru rv) := by
  obtain ⟨h1, h2⟩ := kappa_sign hla node pos ru rv
  have e : ∀ τ, areaRate ru rv τ = turn ru rv := areaRate_eq ru rv
  simp only [Counterclockwise, Clockwise, Line, e, forall_const]
  refine ⟨h1, h2, ?_⟩
  constructor
  · intro h
    rw [h] at h1 h2
    exact le_antisymm (not_lt.1 (h1.not.1 (lt_irrefl _))) (not_lt.1 (h2.not.1 (lt_irrefl _)))
  · intro h
    rw [h] at h1 h2
    exact le_antisymm (not_lt.1 (h1.not.2 (lt_irrefl _))) (not_lt.1 (h2.not.2 (lt_irrefl _)))

/-- C57: an orbit is called Forward exactly when the node runs counterclockwise, and Backward when it runs
clockwise; it is never called Mixed. -/
theorem C57_whirl_partial {la : Lapack} (hla : LapackOk la) (node : ℕ) (pos : ℝ) (ru rv : ℂ) :
    ((Orbit.init la node pos ru rv).whirl = .forward ↔ Counterclockwise ru rv) ∧
    (Clockwise ru rv → (Orbit.init la node pos ru rv).whirl = .backward) ∧
    (Orbit.init la node pos ru rv).whirl ≠ .mixed := by
  obtain ⟨h1, h2, -⟩ := C57_kappa hla node pos ru rv
  rw [whirl_eq]
  refine ⟨?_, ?_, ?_⟩
  · rw [← h1]
    split_ifs with h <;> simp [h]
  · intro h
    rw [if_neg (not_lt.2 (h2.2 h).le)]
  · split_ifs <;> simp

/-- C57 fails for lines: a node that moves to and fro on a line does not run clockwise, and its orbit is
called Backward. -/
theorem C57_line_false {la : Lapack} (hla : LapackOk la) (node : ℕ) (pos : ℝ) (ru rv : ℂ)
    (h : Line ru rv) :
    (Orbit.init la node pos ru rv).whirl = .backward ∧ ¬ Clockwise ru rv := by
  obtain ⟨-, -, h3⟩ := C57_kappa hla node pos ru rv
  constructor
  · rw [whirl_eq, h3.2 h, if_neg (lt_irrefl _)]
  · intro hc
    have := hc 0
    rw [h 0] at this
    exact lt_irrefl _ this

/-- Non-vacuity: a line that is not a point. -/
example : Line 1 1 ∧ radius 1 1 0 = Real.sqrt 2 := by
  constructor
  · intro τ
    rw [areaRate_eq]
    simp
  · unfold radius
    rw [coord_eq]
    norm_num

/-! ### C58: what the results do not depend on -/

/-- C58: when both amplitudes are multiplied by a complex number (another scale, another origin of time)
the axes are scaled by its modulus; `kappa` and the sense of rotation stay. -/
theorem C58_scale {la : Lapack} (hla : LapackOk la) (node : ℕ) (pos : ℝ) (ru rv c : ℂ) (hc : c ≠ 0) :
    let o := Orbit.init la node pos ru rv
    let o' := Orbit.init la node pos (c * ru) (c * rv)
    o'.major_axis = ‖c‖ * o.major_axis ∧ o'.minor_axis = ‖c‖ * o.minor_axis ∧
    o'.kappa = o.kappa ∧ o'.whirl = o.whirl := by
  have hn : 0 < ‖c‖ := norm_pos_iff.2 hc
  have hn2 : ‖c‖ ^ 2 = c.re ^ 2 + c.im ^ 2 := by
    rw [← Complex.normSq_eq_norm_sq, Complex.normSq_apply]
    ring
  have hsz : power (c * ru) (c * rv) = ‖c‖ ^ 2 * power ru rv := by
    simp only [power, Complex.mul_re, Complex.mul_im, hn2]
    ring
  have htn : turn (c * ru) (c * rv) = ‖c‖ ^ 2 * turn ru rv := by
    simp only [turn, Complex.mul_re, Complex.mul_im, hn2]
    ring
  have hsk : ‖skew (c * ru) (c * rv)‖ = ‖c‖ ^ 2 * ‖skew ru rv‖ := by
    have : skew (c * ru) (c * rv) = c ^ 2 * skew ru rv := by
      simp only [skew]
      ring
    rw [this, norm_mul, norm_pow]
  have hbg : big (c * ru) (c * rv) = ‖c‖ ^ 2 * big ru rv := by
    rw [big, big, hsz, hsk]
    ring
  have hsm : small (c * ru) (c * rv) = ‖c‖ ^ 2 * small ru rv := by
    rw [small, small, hsz, hsk]
    ring
  have hk : (Orbit.init la node pos (c * ru) (c * rv)).kappa = (Orbit.init la node pos ru rv).kappa := by
    rw [kappa_eq hla, kappa_eq hla, hbg, htn, mul_div_mul_left _ _ (by positivity)]
  refine ⟨?_, ?_, hk, ?_⟩
  · rw [major_axis_eq hla, major_axis_eq hla, hbg, Real.sqrt_mul (by positivity), Real.sqrt_sq hn.le]
  · rw [minor_axis_eq hla, minor_axis_eq hla, hsm, Real.sqrt_mul (by positivity), Real.sqrt_sq hn.le]
  · rw [whirl_eq, whirl_eq, hk]

/-- C58: turning the axes of the coordinates changes neither the axes of the orbit nor the sense of
rotation. -/
theorem C58_rotate {la : Lapack} (hla : LapackOk la) (node : ℕ) (pos : ℝ) (ru rv : ℂ) (θ : ℝ) :
    let o := Orbit.init la node pos ru rv
    let o' := Orbit.init la node pos (Real.cos θ * ru + Real.sin θ * rv) (-Real.sin θ * ru + Real.cos θ * rv)
    o'.major_axis = o.major_axis ∧ o'.minor_axis = o.minor_axis ∧
    o'.kappa = o.kappa ∧ o'.whirl = o.whirl := by
  have hp := Real.sin_sq_add_cos_sq θ
  have hpc : (Real.sin θ : ℂ) ^ 2 + (Real.cos θ : ℂ) ^ 2 = 1 := by
    exact_mod_cast hp
  set a : ℂ := Real.cos θ * ru + Real.sin θ * rv with ha
  set b : ℂ := -Real.sin θ * ru + Real.cos θ * rv with hb
  have e1 : a.re = Real.cos θ * ru.re + Real.sin θ * rv.re := by
    rw [ha]; simp only [Complex.add_re, Complex.re_ofReal_mul]
  have e2 : a.im = Real.cos θ * ru.im + Real.sin θ * rv.im := by
    rw [ha]; simp only [Complex.add_im, Complex.im_ofReal_mul]
  have e3 : b.re = -Real.sin θ * ru.re + Real.cos θ * rv.re := by
    rw [hb, ← Complex.ofReal_neg]; simp only [Complex.add_re, Complex.re_ofReal_mul]
  have e4 : b.im = -Real.sin θ * ru.im + Real.cos θ * rv.im := by
    rw [hb, ← Complex.ofReal_neg]; simp only [Complex.add_im, Complex.im_ofReal_mul]
  have hsz : power a b = power ru rv := by
    simp only [power, e1, e2, e3, e4]
    linear_combination (ru.re ^ 2 + ru.im ^ 2 + (rv.re ^ 2 + rv.im ^ 2)) * hp
  have htn : turn a b = turn ru rv := by
    simp only [turn, e1, e2, e3, e4]
    linear_combination (ru.im * rv.re - ru.re * rv.im) * hp
  have hsk : skew a b = skew ru rv := by
    simp only [skew, ha, hb]
    linear_combination (ru ^ 2 + rv ^ 2) * hpc
  have hbg : big a b = big ru rv := by rw [big, big, hsz, hsk]
  have hsm : small a b = small ru rv := by rw [small, small, hsz, hsk]
  have hk : (Orbit.init la node pos a b).kappa = (Orbit.init la node pos ru rv).kappa := by
    rw [kappa_eq hla, kappa_eq hla, hbg, htn]
  refine ⟨?_, ?_, hk, ?_⟩
  · rw [major_axis_eq hla, major_axis_eq hla, hbg]
  · rw [minor_axis_eq hla, minor_axis_eq hla, hsm]
  · rw [whirl_eq, whirl_eq, hk]

/-- C58: running the motion backwards changes the sign of `kappa` and nothing else. -/
theorem C58_reverse {la : Lapack} (hla : LapackOk la) (node : ℕ) (pos : ℝ) (ru rv : ℂ) :
    let o := Orbit.init la node pos ru rv
    let o' := Orbit.init la node pos ((starRingEnd ℂ) ru) ((starRingEnd ℂ) rv)
    o'.major_axis = o.major_axis ∧ o'.minor_axis = o.minor_axis ∧ o'.kappa = -o.kappa := by
  have hsz : power ((starRingEnd ℂ) ru) ((starRingEnd ℂ) rv) = power ru rv := by
    simp only [power, Complex.conj_re, Complex.conj_im]
    ring
  have htn : turn ((starRingEnd ℂ) ru) ((starRingEnd ℂ) rv) = -turn ru rv := by
    simp only [turn, Complex.conj_re, Complex.conj_im]
    ring
  have hsk : ‖skew ((starRingEnd ℂ) ru) ((starRingEnd ℂ) rv)‖ = ‖skew ru rv‖ := by
    have : skew ((starRingEnd ℂ) ru) ((starRingEnd ℂ) rv) = (starRingEnd ℂ) (skew ru rv) := by
      simp only [skew, map_add, map_pow]
    rw [this, Complex.norm_conj]
  have hbg : big ((starRingEnd ℂ) ru) ((starRingEnd ℂ) rv) = big ru rv := by rw [big, big, hsz, hsk]
  have hsm : small ((starRingEnd ℂ) ru) ((starRingEnd ℂ) rv) = small ru rv := by rw [small, small, hsz, hsk]
  refine ⟨?_, ?_, ?_⟩
  · rw [major_axis_eq hla, major_axis_eq hla, hbg]
  · rw [minor_axis_eq hla, minor_axis_eq hla, hsm]
  · rw [kappa_eq hla, kappa_eq hla, hbg, htn, neg_div]

/-- Non-vacuity: an ellipse with semi-axes 3 and 2, run counterclockwise. -/
example : ∃ la, LapackOk la ∧
    let o := Orbit.init la 4 1.5 3 (-2 * Complex.I)
    o.major_axis = 3 ∧ o.minor_axis = 2 ∧ o.kappa = 2 / 3 ∧ o.whirl = .forward := by
  obtain ⟨la, hla⟩ := lapack_exists
  refine ⟨la, hla, ?_⟩
  have hsz : power 3 (-2 * Complex.I) = 13 := by
    simp [power]
    norm_num
  have htn : turn 3 (-2 * Complex.I) = 6 := by
    simp [turn]
    norm_num
  have hsk : ‖skew 3 (-2 * Complex.I)‖ = 5 := by
    have : skew 3 (-2 * Complex.I) = (5 : ℝ) := by
      simp only [skew, mul_pow, Complex.I_sq]
      push_cast
      norm_num
    rw [this, Complex.norm_real]
    norm_num
  have hbg : big 3 (-2 * Complex.I) = 3 ^ 2 := by rw [big, hsz, hsk]; norm_num
  have hsm : small 3 (-2 * Complex.I) = 2 ^ 2 := by rw [small, hsz, hsk]; norm_num
  have hk : (Orbit.init la 4 1.5 3 (-2 * Complex.I)).kappa = 2 / 3 := by
    rw [kappa_eq hla, hbg, htn]
    norm_num
  refine ⟨?_, ?_, hk, ?_⟩
  · rw [major_axis_eq hla, hbg, Real.sqrt_sq (by norm_num)]
  · rw [minor_axis_eq hla, hsm, Real.sqrt_sq (by norm_num)]
  · rw [whirl_eq, hk, if_pos (by norm_num)]

/-! ### C59: the amplitude at an angle -/

/-- C59: the amplitude at an angle is the distance of the sampled point that is seen closest to that angle,
so it lies between the axes; asked for the axes, the method returns them. -/
theorem C59_amplitude {la : Lapack} (hla : LapackOk la) (node : ℕ) (pos : ℝ) (ru rv : ℂ) (a : ℝ) :
    let o := Orbit.init la node pos ru rv
    (∃ i, i < 360 ∧ (∀ j, j < 360 → |o.angle i - a| ≤ |o.angle j - a|) ∧
      (o.calculate_amplitude (.at a)).1 = radius ru rv (sample i)) ∧
    o.minor_axis ≤ (o.calculate_amplitude (.at a)).1 ∧ (o.calculate_amplitude (.at a)).1 ≤ o.major_axis ∧
    o.calculate_amplitude .major = (o.major_axis, o.major_angle) ∧
    o.calculate_amplitude .minor = (o.minor_axis, o.minor_angle) := by
  intro o
  obtain ⟨hg, hl⟩ := C56_axes hla node pos ru rv
  obtain ⟨h1, h2, -⟩ := argmin_of_pos (fun i => |o.angle i - a|) 360 (by norm_num)
  have e : (o.calculate_amplitude (.at a)).1 =
      radius ru rv (sample (argmin (fun i => |o.angle i - a|) 360)) := by
    obtain ⟨-, -, -, -, hx, hy, -⟩ := C56_points la node pos ru rv (argmin (fun i => |o.angle i - a|) 360)
    rw [radius, ← hx, ← hy]
    rfl
  refine ⟨⟨_, h1, h2, e⟩, ?_, ?_, rfl, rfl⟩
  · rw [e]
    exact hl.2 ⟨_, rfl⟩
  · rw [e]
    exact hg.2 ⟨_, rfl⟩

/-- C59: for a circle the amplitude at any angle is that of the signal of a probe at that angle. -/
theorem C59_circle_partial {la : Lapack} (hla : LapackOk la) (node : ℕ) (pos : ℝ) (ru rv : ℂ) (a : ℝ)
    (h : |(Orbit.init la node pos ru rv).kappa| = 1) :
    IsGreatest (Set.range (probeSignal ru rv a))
      ((Orbit.init la node pos ru rv).calculate_amplitude (.at a)).1 := by
  obtain ⟨r, hr, hc⟩ := (C56_circle hla node pos ru rv).1 h
  obtain ⟨⟨i, -, -, he⟩, -⟩ := C59_amplitude hla node pos ru rv a
  rw [he, hc]
  have hsq : ∀ τ, coord ru τ ^ 2 + coord rv τ ^ 2 = r ^ 2 := by
    intro τ
    rw [← hc τ, radius, Real.sq_sqrt (by positivity)]
  have hb : ∀ τ, probeSignal ru rv a τ ≤ r := by
    intro τ
    unfold probeSignal
    have := hsq τ
    have hp := Real.sin_sq_add_cos_sq a
    nlinarith [sq_nonneg (Real.cos a * coord rv τ - Real.sin a * coord ru τ),
      sq_nonneg (Real.cos a * coord ru τ + Real.sin a * coord rv τ - r),
      sq_nonneg (Real.cos a * coord ru τ + Real.sin a * coord rv τ)]
  refine ⟨?_, fun _ ⟨τ, h⟩ => h ▸ hb τ⟩
  -- the two coordinates are a quarter of a turn apart
  have hsk : skew ru rv = 0 := by
    obtain ⟨hg, hl⟩ := C56_axes hla node pos ru rv
    obtain ⟨τ, h1⟩ := hg.1
    obtain ⟨σ, h2⟩ := hl.1
    rw [hc, major_axis_eq hla] at h1
    rw [hc, minor_axis_eq hla] at h2
    have h3 := Real.sq_sqrt (big_nonneg ru rv)
    have h4 := Real.sq_sqrt (small_nonneg ru rv)
    rw [← h1] at h3
    rw [← h2] at h4
    rw [big] at h3
    rw [small] at h4
    exact norm_eq_zero.1 (by linarith)
  have hrv : rv = Complex.I * ru ∨ rv = -(Complex.I * ru) := by
    apply sq_eq_sq_iff_eq_or_eq_neg.1
    rw [mul_pow, Complex.I_sq]
    unfold skew at hsk
    linear_combination hsk
  have a1 := Complex.norm_mul_cos_arg ru
  have a2 := Complex.norm_mul_sin_arg ru
  have a3 := Real.sin_sq_add_cos_sq (Complex.arg ru)
  have h0 : coord ru (-Complex.arg ru) = ‖ru‖ := by
    rw [coord_eq, Real.cos_neg, Real.sin_neg, ← a1, ← a2]
    linear_combination ‖ru‖ * a3
  have hru : ‖ru‖ = r := by
    have h2 := hsq (-Complex.arg ru)
    have h1 : coord rv (-Complex.arg ru) = 0 := by
      rw [coord_eq, Real.cos_neg, Real.sin_neg]
      rcases hrv with e | e <;> rw [e] <;> simp <;> rw [← a1, ← a2] <;> ring
    rw [h0, h1] at h2
    have h3 : ‖ru‖ ^ 2 = r ^ 2 := by linarith
    exact (sq_eq_sq₀ (norm_nonneg ru) hr.le).1 h3
  rcases hrv with e | e
  · refine ⟨-Complex.arg ru - a, ?_⟩
    rw [← hru, ← h0, (by ring : -Complex.arg ru = (-Complex.arg ru - a) + a)]
    generalize -Complex.arg ru - a = t
    rw [probeSignal, coord_eq, coord_eq, coord_eq, Real.cos_add, Real.sin_add, e]
    simp only [Complex.mul_re, Complex.mul_im, Complex.I_re, Complex.I_im]
    ring_nf
  · refine ⟨-Complex.arg ru + a, ?_⟩
    rw [← hru, ← h0, (by ring : -Complex.arg ru = (-Complex.arg ru + a) - a)]
    generalize -Complex.arg ru + a = t
    rw [probeSignal, coord_eq, coord_eq, coord_eq, Real.cos_sub, Real.sin_sub, e]
    simp only [Complex.mul_re, Complex.mul_im, Complex.I_re, Complex.I_im, Complex.neg_re, Complex.neg_im]
    ring_nf

/-- C59: the phase at the angle zero of a circle run counterclockwise is that of the signal of a probe
there. -/
theorem C59_phase_partial {la : Lapack} (hla : LapackOk la) (node : ℕ) (pos : ℝ) (ru : ℂ) (τ : ℝ) :
    let o := Orbit.init la node pos ru (-Complex.I * ru)
    probeSignal ru (-Complex.I * ru) 0 τ =
      (o.calculate_amplitude (.at 0)).1 * Real.cos (τ + (o.calculate_amplitude (.at 0)).2) := by
  intro o
  have hc0 : Orbit.c 0 = 0 := by simp [Orbit.c]
  have hsq : ∀ σ, coord ru σ ^ 2 + coord (-Complex.I * ru) σ ^ 2 = ru.re ^ 2 + ru.im ^ 2 := by
    intro σ
    rw [coord_eq, coord_eq]
    simp only [neg_mul, Complex.neg_re, Complex.neg_im, Complex.mul_re, Complex.mul_im, Complex.I_re, Complex.I_im]
    linear_combination (ru.re ^ 2 + ru.im ^ 2) * Real.sin_sq_add_cos_sq σ
  obtain ⟨⟨i, -, -, he⟩, -⟩ := C59_amplitude hla node pos ru (-Complex.I * ru) 0
  have ha : (o.calculate_amplitude (.at 0)).1 = Real.sqrt (ru.re ^ 2 + ru.im ^ 2) := by
    rw [← hsq (sample i)]
    exact he
  have hx : o.x_circle 0 = ru.re := by
    show (Orbit.init la node pos ru (-Complex.I * ru)).x_circle 0 = _
    rw [x_circle_eq, hc0, coord_eq]
    simp
  have hy : o.y_circle 0 = ru.im := by
    show (Orbit.init la node pos ru (-Complex.I * ru)).y_circle 0 = _
    rw [y_circle_eq, hc0, coord_eq]
    simp
  have hd := polar_spec (o.x_circle 0) (o.y_circle 0)
  have hp : (o.calculate_amplitude (.at 0)).2 = Orbit.polar (o.x_circle 0) (o.y_circle 0) := by
    show (if 2 * Real.pi < Orbit.polar (o.x_circle 0) (o.y_circle 0) + 0 then
      Orbit.polar (o.x_circle 0) (o.y_circle 0) + 0 - 2 * Real.pi
      else Orbit.polar (o.x_circle 0) (o.y_circle 0) + 0) = _
    rw [add_zero, if_neg (not_lt.2 hd.2.1.le)]
  rw [hp, ha]
  rw [hx, hy] at hd ⊢
  obtain ⟨-, -, h1, h2⟩ := hd
  rw [probeSignal, coord_eq, coord_eq, Real.cos_add, Real.cos_zero, Real.sin_zero]
  linear_combination Real.cos τ * h1 - Real.sin τ * h2

/-- C59 fails for orbits that are no circles: for a line along `x` the amplitude at a right angle to it
is that of the line, although a probe there sees nothing. -/
theorem C59_line_false {la : Lapack} (hla : LapackOk la) (node : ℕ) (pos : ℝ) :
    ((Orbit.init la node pos 1 0).calculate_amplitude (.at (Real.pi / 2))).1 = 1 ∧
    ∀ τ, probeSignal 1 0 (Real.pi / 2) τ = 0 := by
  have hpi := Real.pi_pos
  have hang : ∀ i, |(Orbit.init la node pos 1 0).angle i - Real.pi / 2| = Real.pi / 2 := by
    intro i
    show |Orbit.polar (coord 1 (Orbit.c i)) (coord 0 (Orbit.c i)) - Real.pi / 2| = Real.pi / 2
    have h0 : coord 0 (Orbit.c i) = 0 := by simp [coord_eq]
    rw [h0, Orbit.polar]
    have hm : (⟨coord 1 (Orbit.c i), 0⟩ : ℂ) = ((coord 1 (Orbit.c i) : ℝ) : ℂ) := rfl
    simp only [hm]
    rcases le_or_gt 0 (coord 1 (Orbit.c i)) with h | h
    · rw [Complex.arg_ofReal_of_nonneg h, if_neg (lt_irrefl _), zero_sub, abs_neg,
        abs_of_pos (by positivity)]
    · rw [Complex.arg_ofReal_of_neg h, if_neg (not_lt.2 hpi.le), abs_of_pos (by linarith)]
      ring
  constructor
  · obtain ⟨-, -, h3⟩ := argmin_of_pos
      (fun i => |(Orbit.init la node pos 1 0).angle i - Real.pi / 2|) 360 (by norm_num)
    have hi : argmin (fun i => |(Orbit.init la node pos 1 0).angle i - Real.pi / 2|) 360 = 0 := by
      by_contra hne
      have := h3 0 (Nat.pos_of_ne_zero hne)
      simp only [hang] at this
      exact lt_irrefl _ this
    have e : ((Orbit.init la node pos 1 0).calculate_amplitude (.at (Real.pi / 2))).1 =
        radius 1 0 (Orbit.c (argmin (fun i => |(Orbit.init la node pos 1 0).angle i - Real.pi / 2|) 360)) :=
      rfl
    rw [e, hi, radius, coord_eq, coord_eq]
    simp [Orbit.c]
  · intro τ
    rw [probeSignal, coord_eq, coord_eq]
    simp

/-- C59: all angles that are not positive give the amplitude of the angle zero. -/
theorem C59_negative {la : Lapack} (hla : LapackOk la) (node : ℕ) (pos : ℝ) (ru rv : ℂ) (a : ℝ) (h : a ≤ 0) :
    ((Orbit.init la node pos ru rv).calculate_amplitude (.at a)).1 =
      ((Orbit.init la node pos ru rv).calculate_amplitude (.at 0)).1 := by
  have h0 : ∀ i, 0 ≤ (Orbit.init la node pos ru rv).angle i := fun i => (polar_spec _ _).1
  have key : ∀ b : ℝ, b ≤ 0 → argmin (fun i => |(Orbit.init la node pos ru rv).angle i - b|) 360 =
      argmin (fun i => (Orbit.init la node pos ru rv).angle i) 360 := by
    intro b hb
    obtain ⟨p1, p2, p3⟩ := argmin_of_pos (fun i => |(Orbit.init la node pos ru rv).angle i - b|) 360
      (by norm_num)
    obtain ⟨q1, q2, q3⟩ := argmin_of_pos (fun i => (Orbit.init la node pos ru rv).angle i) 360
      (by norm_num)
    have e : ∀ i, |(Orbit.init la node pos ru rv).angle i - b| =
        (Orbit.init la node pos ru rv).angle i - b := fun i => abs_of_nonneg (by linarith [h0 i])
    simp only [e] at p1 p2 p3 ⊢
    rcases lt_trichotomy (argmin (fun i => (Orbit.init la node pos ru rv).angle i - b) 360)
      (argmin (fun i => (Orbit.init la node pos ru rv).angle i) 360) with h | h | h
    · have := q3 _ h
      have := p2 _ q1
      linarith
    · exact h
    · have := p3 _ h
      have := q2 _ p1
      linarith
  have e : ∀ b : ℝ, ((Orbit.init la node pos ru rv).calculate_amplitude (.at b)).1 =
      radius ru rv (Orbit.c (argmin (fun i => |(Orbit.init la node pos ru rv).angle i - b|) 360)) :=
    fun b => rfl
  rw [e, e, key a h, key 0 le_rfl]

/-- C59 fails for angles outside of a turn: the same direction, given as `-π / 2` and as `3 π / 2`, gives
two amplitudes. -/
theorem C59_period_false {la : Lapack} (hla : LapackOk la) (node : ℕ) (pos : ℝ) :
    ((Orbit.init la node pos 1 (-2 * Complex.I)).calculate_amplitude (.at (-(Real.pi / 2)))).1 = 1 ∧
    ((Orbit.init la node pos 1 (-2 * Complex.I)).calculate_amplitude (.at (3 * Real.pi / 2))).1 ≠ 1 := by
  have hpi := Real.pi_pos
  have hy : ∀ τ, coord (-2 * Complex.I) τ = 2 * Real.sin τ := by
    intro τ
    rw [coord_eq]
    simp
  have hx : ∀ τ, coord 1 τ = Real.cos τ := by
    intro τ
    rw [coord_eq]
    simp
  have e : ∀ b : ℝ, ((Orbit.init la node pos 1 (-2 * Complex.I)).calculate_amplitude (.at b)).1 =
      radius 1 (-2 * Complex.I)
        (Orbit.c (argmin (fun i => |(Orbit.init la node pos 1 (-2 * Complex.I)).angle i - b|) 360)) :=
    fun b => rfl
  have hr : ∀ τ, radius 1 (-2 * Complex.I) τ = 1 → Real.sin τ = 0 := by
    intro τ h
    rw [radius, hx, hy, Real.sqrt_eq_one] at h
    have := Real.sin_sq_add_cos_sq τ
    have : Real.sin τ ^ 2 = 0 := by nlinarith
    exact pow_eq_zero_iff two_ne_zero |>.1 this
  constructor
  · rw [C59_negative hla _ _ _ _ _ (by linarith), e]
    obtain ⟨-, -, h3⟩ := argmin_of_pos
      (fun i => |(Orbit.init la node pos 1 (-2 * Complex.I)).angle i - 0|) 360 (by norm_num)
    have hi : argmin (fun i => |(Orbit.init la node pos 1 (-2 * Complex.I)).angle i - 0|) 360 = 0 := by
      by_contra hne
      have := h3 0 (Nat.pos_of_ne_zero hne)
      have h0 : (Orbit.init la node pos 1 (-2 * Complex.I)).angle 0 = 0 := by
        show Orbit.polar (coord 1 (Orbit.c 0)) (coord (-2 * Complex.I) (Orbit.c 0)) = 0
        have : (⟨1, 0⟩ : ℂ) = 1 := rfl
        rw [hx, hy]
        simp [Orbit.c, Orbit.polar, this]
      rw [h0] at this
      simp at this
      exact absurd this (not_lt.2 (abs_nonneg _))
    rw [hi, radius, hx, hy]
    simp [Orbit.c]
  · rw [e]
    intro h
    set i := argmin (fun i => |(Orbit.init la node pos 1 (-2 * Complex.I)).angle i - 3 * Real.pi / 2|) 360
      with hi
    obtain ⟨-, h2, -⟩ := argmin_of_pos
      (fun i => |(Orbit.init la node pos 1 (-2 * Complex.I)).angle i - 3 * Real.pi / 2|) 360 (by norm_num)
    have hs := hr _ h
    -- the chosen point lies on the horizontal axis
    have h0 : Real.pi / 2 ≤ |(Orbit.init la node pos 1 (-2 * Complex.I)).angle i - 3 * Real.pi / 2| := by
      show Real.pi / 2 ≤
        |Orbit.polar (coord 1 (Orbit.c i)) (coord (-2 * Complex.I) (Orbit.c i)) - 3 * Real.pi / 2|
      rw [hy, hs, mul_zero, Orbit.polar]
      have hm : (⟨coord 1 (Orbit.c i), 0⟩ : ℂ) = ((coord 1 (Orbit.c i) : ℝ) : ℂ) := rfl
      simp only [hm]
      rcases le_or_gt 0 (coord 1 (Orbit.c i)) with h | h
      · rw [Complex.arg_ofReal_of_nonneg h, if_neg (lt_irrefl _), abs_of_neg (by linarith)]
        linarith
      · rw [Complex.arg_ofReal_of_neg h, if_neg (not_lt.2 hpi.le), abs_of_neg (by linarith)]
        linarith
    -- a point in the lower half is closer
    have h1 : |(Orbit.init la node pos 1 (-2 * Complex.I)).angle 200 - 3 * Real.pi / 2| < Real.pi / 2 := by
      show |Orbit.polar (coord 1 (Orbit.c 200)) (coord (-2 * Complex.I) (Orbit.c 200)) - 3 * Real.pi / 2| < _
      have hneg : Real.sin (Orbit.c 200) < 0 := by
        have : Orbit.c 200 = 41 * Real.pi / 359 + Real.pi := by
          unfold Orbit.c
          push_cast
          ring
        rw [this, Real.sin_add_pi]
        have := Real.sin_pos_of_pos_of_lt_pi (x := 41 * Real.pi / 359) (by positivity) (by linarith)
        linarith
      have harg := Complex.arg_mem_Ioc ⟨coord 1 (Orbit.c 200), coord (-2 * Complex.I) (Orbit.c 200)⟩
      have hlt : Complex.arg ⟨coord 1 (Orbit.c 200), coord (-2 * Complex.I) (Orbit.c 200)⟩ < 0 := by
        rw [Complex.arg_neg_iff, hy]
        simp only
        linarith
      simp only [Orbit.polar, if_pos hlt]
      rw [abs_lt]
      constructor <;> linarith [harg.1]
    have := h2 200 (by norm_num)
    rw [← hi] at this
    linarith

/-- C59 fails for the phase: for a circle whose node is at the top at phase zero, a probe at the top sees
the largest displacement then, but the phase that is reported is half a turn. -/
theorem C59_phase_false {la : Lapack} (hla : LapackOk la) (node : ℕ) (pos : ℝ) :
    let o := Orbit.init la node pos Complex.I 1
    |o.kappa| = 1 ∧ (∀ τ, probeSignal Complex.I 1 (Real.pi / 2) τ = Real.cos τ) ∧
    (o.calculate_amplitude (.at (Real.pi / 2))).2 = Real.pi := by
  have hc0 : Orbit.c 0 = 0 := by simp [Orbit.c]
  have hx : coord Complex.I (Orbit.c 0) = 0 := by rw [hc0, coord_eq]; simp
  have hy : coord 1 (Orbit.c 0) = 1 := by rw [hc0, coord_eq]; simp
  refine ⟨?_, ?_, ?_⟩
  · rw [C56_circle hla]
    refine ⟨1, one_pos, fun τ => ?_⟩
    rw [radius, coord_eq, coord_eq]
    simp
  · intro τ
    rw [probeSignal, coord_eq, coord_eq]
    simp
  · show (if 2 * Real.pi < Orbit.polar (coord Complex.I (Orbit.c 0)) (coord 1 (Orbit.c 0)) + Real.pi / 2 then
      _ else Orbit.polar (coord Complex.I (Orbit.c 0)) (coord 1 (Orbit.c 0)) + Real.pi / 2) = Real.pi
    have hp : Orbit.polar 0 1 = Real.pi / 2 := by
      have hI : (⟨0, 1⟩ : ℂ) = Complex.I := rfl
      have : ¬ Real.pi / 2 < 0 := not_lt.2 (by positivity)
      simp only [Orbit.polar, hI, Complex.arg_I, if_neg this]
    rw [hx, hy, hp, if_neg (by linarith [Real.pi_pos])]
    ring

end Ross.Props
