import Verif.Lemmas.FilmFitOk
import Verif.Props.FluidGeometry
import Verif.Props.FluidInit

/-!
# C85: stiffness and damping from the numerical pressure
-/

namespace Ross.Props

open Real Fluid Spec.Fluid FluidLemmas

theorem fit_ok {lib : FlowLib} {F G : FluidFlow} {c : Coefs}
    (h : calculate_stiffness_and_damping_coefficients lib F = .ok (G, c)) :
    ∃ l : List Sample, fit_samples l = .ok c ∧
      List.Forall₂ (Measured lib (atTime F (F.radial_clearance * 0.0001) 0)) (sample_times F.omegap) l ∧
      (∀ t, (sample_times F.omegap).getLast? = some t →
        erase G = erase (move_rotor_center (atTime F (F.radial_clearance * 0.0001) t) 0 0)) := by
  unfold calculate_stiffness_and_damping_coefficients at h
  dsimp only at h
  obtain ⟨⟨F1, l⟩, h1, h⟩ := bindOk h
  obtain ⟨c', h2, h⟩ := bindOk h
  cases h
  have := loop_ok (F0 := atTime F (F.radial_clearance * 0.0001) 0) _ h1 rfl
  exact ⟨l, h2, this.1, this.2.1⟩

theorem times_eq {w : ℝ} (hw : w ≠ 0) (i : ℕ) (hi : i < 6) :
    ∃ t, (sample_times w)[i]? = some t ∧ w * t = 2 * π * i / 5 := by
  refine ⟨i * ((2 * π / w) / 5), ?_, ?_⟩
  · unfold sample_times
    interval_cases i <;> rfl
  · field_simp

/-- C85: the coefficients are calculated from six samples of one period of an oscillation along x and of one along y, of which
each has the force of the film of the bearing displaced and moving accordingly; the displacement is a
ten-thousandth of the clearance. -/
theorem C85_samples {lib : FlowLib} {F G : FluidFlow} {c : Coefs} (hw : F.omegap ≠ 0)
    (h : calculate_stiffness_and_damping_coefficients lib F = .ok (G, c)) :
    ∃ l : List Sample, l.length = 6 ∧ fit_samples l = .ok c ∧ ∀ i : ℕ, i < 6 → ∃ s t, l[i]? = some s ∧
      F.omegap * t = 2 * π * i / 5 ∧
      s.dx = F.radial_clearance / 10000 * sin (2 * π * i / 5) ∧
      s.xdot = F.omegap * (F.radial_clearance / 10000) * cos (2 * π * i / 5) ∧
      s.dy = F.radial_clearance / 10000 * sin (2 * π * i / 5) ∧
      s.ydot = F.omegap * (F.radial_clearance / 10000) * cos (2 * π * i / 5) ∧
      FilmGives lib (move_rotor_center (atTime F (F.radial_clearance / 10000) t) s.dx 0) "x" s.force_xx s.force_yx ∧
      FilmGives lib (move_rotor_center (atTime F (F.radial_clearance / 10000) t) 0 s.dy) "y" s.force_xy s.force_yy := by
  obtain ⟨l, hfit, hl, -⟩ := fit_ok h
  rw [show F.radial_clearance * 0.0001 = F.radial_clearance / 10000 by norm_num; ring] at hl
  have hlen : l.length = 6 := by
    rw [← hl.length_eq]
    simp [sample_times]
  refine ⟨l, hlen, hfit, fun i hi => ?_⟩
  obtain ⟨t, ht, hwt⟩ := times_eq hw i hi
  have hil : i < l.length := by omega
  have hit : i < (sample_times F.omegap).length := by simpa [sample_times] using hi
  have hm := (List.forall₂_iff_get.1 hl).2 i hit hil
  have ht' : (sample_times F.omegap).get ⟨i, hit⟩ = t := by
    rw [List.getElem?_eq_getElem hit] at ht
    simpa using ht
  rw [ht'] at hm
  obtain ⟨m1, m2, m3, m4, m5, m6⟩ := hm
  have e : (atTime F (F.radial_clearance / 10000) 0).omegap * t = 2 * π * i / 5 := hwt
  rw [e] at m1 m2 m3 m4
  exact ⟨l.get ⟨i, hil⟩, t, List.getElem?_eq_getElem hil, hwt, m1, m2, m3, m4, m5, m6⟩

/-- C85: each coefficient pair belongs to the best fit: no other constant, stiffness and damping leave a smaller sum of
squares between the negative forces and `constant + stiffness * displacement + damping * velocity`. -/
theorem C85_least {l : List Sample} {c : Coefs} (hlen : l.length = 6) (h : fit_samples l = .ok c) :
    ∃ kxx kxy kyx kyy cxx cxy cyx cyy, c = ⟨[kxx, kxy, kyx, kyy], [cxx, cxy, cyx, cyy]⟩ ∧
      (∃ a, ∀ b k d, (l.map fun s => (-s.force_xx - (a + kxx * s.dx + cxx * s.xdot)) ^ 2).sum ≤
        (l.map fun s => (-s.force_xx - (b + k * s.dx + d * s.xdot)) ^ 2).sum) ∧
      (∃ a, ∀ b k d, (l.map fun s => (-s.force_xy - (a + kxy * s.dy + cxy * s.ydot)) ^ 2).sum ≤
        (l.map fun s => (-s.force_xy - (b + k * s.dy + d * s.ydot)) ^ 2).sum) ∧
      (∃ a, ∀ b k d, (l.map fun s => (-s.force_yx - (a + kyx * s.dx + cyx * s.xdot)) ^ 2).sum ≤
        (l.map fun s => (-s.force_yx - (b + k * s.dx + d * s.xdot)) ^ 2).sum) ∧
      (∃ a, ∀ b k d, (l.map fun s => (-s.force_yy - (a + kyy * s.dy + cyy * s.ydot)) ^ 2).sum ≤
        (l.map fun s => (-s.force_yy - (b + k * s.dy + d * s.ydot)) ^ 2).sum) := by
  have hsum : ∀ g : Sample → ℝ, (l.map g).sum = ∑ i : Fin 6, g (sampleAt l i) := by
    intro g
    match l, hlen with
    | [s0, s1, s2, s3, s4, s5], _ =>
      simp [sampleAt, Fin.sum_univ_six]
      ring
  have key : ∀ (u v w : Sample → ℝ) (P : Fin 3 → ℝ),
      fit (fun i => ![1, u (sampleAt l i), v (sampleAt l i)]) (fun i => -w (sampleAt l i)) = .ok P →
      ∀ b k d, (l.map fun s => (-w s - (P 0 + P 1 * u s + P 2 * v s)) ^ 2).sum ≤
        (l.map fun s => (-w s - (b + k * u s + d * v s)) ^ 2).sum := by
    intro u v w P hP b k d
    have := fit_least hP ![b, k, d]
    rw [hsum, hsum]
    have e : ∀ (Q : Fin 3 → ℝ) (i : Fin 6),
        Matrix.mulVec (fun i : Fin 6 => ![1, u (sampleAt l i), v (sampleAt l i)]) Q i =
          Q 0 + Q 1 * u (sampleAt l i) + Q 2 * v (sampleAt l i) := by
      intro Q i
      simp only [Matrix.mulVec, dotProduct, Fin.sum_univ_three]
      simp
      ring
    simp only [e] at this
    exact this
  unfold fit_samples at h
  dsimp only at h
  obtain ⟨P1, h1, h⟩ := bindOk h
  obtain ⟨P2, h2, h⟩ := bindOk h
  obtain ⟨P3, h3, h⟩ := bindOk h
  obtain ⟨P4, h4, h⟩ := bindOk h
  cases h
  exact ⟨_, _, _, _, _, _, _, _, rfl, ⟨P1 0, key _ _ _ P1 h1⟩, ⟨P2 0, key _ _ _ P2 h2⟩, ⟨P3 0, key _ _ _ P3 h3⟩,
    ⟨P4 0, key _ _ _ P4 h4⟩⟩

/-- C85: samples of an oscillation whose forces are linear in displacement and velocity give the coefficients of these forces,
in the order xx, xy, yx, yy. -/
theorem C85_linear {A w : ℝ} (hA : A ≠ 0) (hw : w ≠ 0) {l : List Sample} (kxx kxy kyx kyy cxx cxy cyx cyy fx fy : ℝ)
    (hl : ∀ i : ℕ, i < 6 → ∃ s, l[i]? = some s ∧ s.dx = A * sin (2 * π * i / 5) ∧ s.xdot = w * A * cos (2 * π * i / 5) ∧
      s.dy = A * sin (2 * π * i / 5) ∧ s.ydot = w * A * cos (2 * π * i / 5) ∧
      s.force_xx = fx - kxx * s.dx - cxx * s.xdot ∧ s.force_xy = fx - kxy * s.dy - cxy * s.ydot ∧
      s.force_yx = fy - kyx * s.dx - cyx * s.xdot ∧ s.force_yy = fy - kyy * s.dy - cyy * s.ydot) :
    fit_samples l = .ok ⟨[kxx, kxy, kyx, kyy], [cxx, cxy, cyx, cyy]⟩ := by
  have hs : ∀ i : Fin 6, (sampleAt l i).dx = A * sin (2 * π * i / 5) ∧ (sampleAt l i).xdot = w * A * cos (2 * π * i / 5) ∧
      (sampleAt l i).dy = A * sin (2 * π * i / 5) ∧ (sampleAt l i).ydot = w * A * cos (2 * π * i / 5) ∧
      (sampleAt l i).force_xx = fx - kxx * (sampleAt l i).dx - cxx * (sampleAt l i).xdot ∧
      (sampleAt l i).force_xy = fx - kxy * (sampleAt l i).dy - cxy * (sampleAt l i).ydot ∧
      (sampleAt l i).force_yx = fy - kyx * (sampleAt l i).dx - cyx * (sampleAt l i).xdot ∧
      (sampleAt l i).force_yy = fy - kyy * (sampleAt l i).dy - cyy * (sampleAt l i).ydot := by
    intro i
    obtain ⟨s, h1, h2⟩ := hl i i.2
    have : sampleAt l i = s := by
      unfold sampleAt
      rw [List.getD_eq_getElem?_getD, h1]
      rfl
    rw [this]
    exact h2
  have key : ∀ (u v g : Sample → ℝ) (f k d : ℝ), (∀ i : Fin 6, u (sampleAt l i) = A * sin (2 * π * i / 5)) →
      (∀ i : Fin 6, v (sampleAt l i) = w * A * cos (2 * π * i / 5)) →
      (∀ i : Fin 6, g (sampleAt l i) = f - k * u (sampleAt l i) - d * v (sampleAt l i)) →
      fit (fun i => ![1, u (sampleAt l i), v (sampleAt l i)]) (fun i => -g (sampleAt l i)) = .ok ![-f, k, d] := by
    intro u v g f k d hu hv hg
    have e : (fun i : Fin 6 => -g (sampleAt l i)) =
        Matrix.mulVec (fun i : Fin 6 => ![1, u (sampleAt l i), v (sampleAt l i)]) ![-f, k, d] := by
      funext i
      simp only [Matrix.mulVec, dotProduct, Fin.sum_univ_three, hg]
      simp
      ring
    rw [e]
    exact fit_exact (fun q hq => rows_independent hA hw (fun i => by rw [hu, hv]) q hq) _
  unfold fit_samples
  dsimp only
  rw [key _ _ _ fx kxx cxx (fun i => (hs i).1) (fun i => (hs i).2.1) (fun i => (hs i).2.2.2.2.1),
    key _ _ _ fx kxy cxy (fun i => (hs i).2.2.1) (fun i => (hs i).2.2.2.1) (fun i => (hs i).2.2.2.2.2.1),
    key _ _ _ fy kyx cyx (fun i => (hs i).1) (fun i => (hs i).2.1) (fun i => (hs i).2.2.2.2.2.2.1),
    key _ _ _ fy kyy cyy (fun i => (hs i).2.2.1) (fun i => (hs i).2.2.2.1) (fun i => (hs i).2.2.2.2.2.2.2)]
  rfl

/-- C85: when the film force of the displaced and moving bearing is linear in displacement and velocity, its stiffness and damping
are what is returned. -/
theorem C85_coefficients {lib : FlowLib} {F G : FluidFlow} {c : Coefs} (hw : F.omegap ≠ 0) (hc : F.radial_clearance ≠ 0)
    (h : calculate_stiffness_and_damping_coefficients lib F = .ok (G, c)) (kxx kxy kyx kyy cxx cxy cyx cyy fx fy : ℝ)
    (hx : ∀ t gx gy, let A := F.radial_clearance / 10000
      FilmGives lib (move_rotor_center (atTime F A t) (A * sin (F.omegap * t)) 0) "x" gx gy →
      gx = fx - kxx * (A * sin (F.omegap * t)) - cxx * (F.omegap * A * cos (F.omegap * t)) ∧
      gy = fy - kyx * (A * sin (F.omegap * t)) - cyx * (F.omegap * A * cos (F.omegap * t)))
    (hy : ∀ t gx gy, let A := F.radial_clearance / 10000
      FilmGives lib (move_rotor_center (atTime F A t) 0 (A * sin (F.omegap * t))) "y" gx gy →
      gx = fx - kxy * (A * sin (F.omegap * t)) - cxy * (F.omegap * A * cos (F.omegap * t)) ∧
      gy = fy - kyy * (A * sin (F.omegap * t)) - cyy * (F.omegap * A * cos (F.omegap * t))) :
    c = ⟨[kxx, kxy, kyx, kyy], [cxx, cxy, cyx, cyy]⟩ := by
  obtain ⟨l, hlen, hfit, hl⟩ := C85_samples hw h
  have := C85_linear (A := F.radial_clearance / 10000) (w := F.omegap) (by simpa using hc) hw (l := l) kxx kxy kyx kyy cxx cxy cyx
    cyy fx fy fun i hi => by
      obtain ⟨s, t, h1, ht, h2, h3, h4, h5, h6, h7⟩ := hl i hi
      rw [h2] at h6
      rw [h4] at h7
      rw [← ht] at h2 h3 h4 h5 h6 h7
      obtain ⟨x1, x2⟩ := hx t _ _ h6
      obtain ⟨y1, y2⟩ := hy t _ _ h7
      rw [← ht]
      refine ⟨s, h1, h2, h3, h4, h5, ?_, ?_, ?_, ?_⟩
      · rw [h2, h3]; exact x1
      · rw [h4, h5]; exact y1
      · rw [h2, h3]; exact x2
      · rw [h4, h5]; exact y2
  rw [this] at hfit
  exact (Except.ok.inj hfit).symm

/-- Samples with any coefficients. -/
example (kxx kxy kyx kyy cxx cxy cyx cyy fx fy : ℝ) : ∃ l : List Sample, l.length = 6 ∧
    fit_samples l = .ok ⟨[kxx, kxy, kyx, kyy], [cxx, cxy, cyx, cyy]⟩ := by
  let a : ℕ → ℝ := fun i => 1 * sin (2 * π * i / 5)
  let v : ℕ → ℝ := fun i => 1 * 1 * cos (2 * π * i / 5)
  refine ⟨(List.range 6).map fun i => ⟨a i, v i, a i, v i, fx - kxx * a i - cxx * v i, fy - kyx * a i - cyx * v i,
    fx - kxy * a i - cxy * v i, fy - kyy * a i - cyy * v i⟩, by simp, ?_⟩
  refine C85_linear (A := 1) (w := 1) one_ne_zero one_ne_zero kxx kxy kyx kyy cxx cxy cyx cyy fx fy fun i hi => ?_
  rw [List.getElem?_map, List.getElem?_range hi]
  exact ⟨_, rfl, rfl, rfl, rfl, rfl, rfl, rfl, rfl, rfl⟩

/-- C85: afterwards the rotor is back at its position, with the same eccentricity, ratio, attitude angle and load. -/
theorem C85_restored {lib : FlowLib} {F G : FluidFlow} {c : Coefs}
    (h : calculate_stiffness_and_damping_coefficients lib F = .ok (G, c))
    (hc : (F.xi, F.yi) = centre F.eccentricity F.attitude_angle) (he : 0 < F.eccentricity) (ha : 0 ≤ F.attitude_angle)
    (ha' : F.attitude_angle ≤ π / 2) (hr : F.eccentricity_ratio = F.eccentricity / F.radial_clearance) :
    G.xi = F.xi ∧ G.yi = F.yi ∧ G.eccentricity = F.eccentricity ∧ G.eccentricity_ratio = F.eccentricity_ratio ∧
      G.attitude_angle = F.attitude_angle ∧ G.load = F.load ∧ G.p_mat_analytical = F.p_mat_analytical := by
  obtain ⟨l, -, -, hg⟩ := fit_ok h
  have hlast : (sample_times F.omegap).getLast? = some (5 * ((2 * π / F.omegap) / 5)) := by
    unfold sample_times
    simp [List.range_succ]
  have e := hg _ hlast
  have hback := C76_back (atTime F (F.radial_clearance * 0.0001) (5 * ((2 * π / F.omegap) / 5))) 0 0 hc he ha ha' hr
  have e0 : ∀ K : FluidFlow, move_rotor_center (move_rotor_center K 0 0) (-0) (-0) = move_rotor_center K 0 0 := by
    intro K
    simp only [move_rotor_center, FluidFlow.mk.injEq, FluidFlow.radial_clearance]
    simp
  rw [e0] at hback
  rw [hback] at e
  have e1 := congrArg FluidFlow.xi e
  have e2 := congrArg FluidFlow.yi e
  have e3 := congrArg FluidFlow.eccentricity e
  have e4 := congrArg FluidFlow.eccentricity_ratio e
  have e5 := congrArg FluidFlow.attitude_angle e
  have e6 := congrArg FluidFlow.load e
  have e7 := congrArg FluidFlow.p_mat_analytical e
  exact ⟨e1, e2, e3, e4, e5, e6, e7⟩

/-- C85: whatever the solver and the rule of integration return, the coefficients are calculated for a cylindrical bearing whose
rotor is a ten-thousandth of the clearance away from the stator. -/
theorem C85_succeeds (lib : FlowLib) {F : FluidFlow} (hs : F.shape_geometry = "cylindrical") (hw : F.omegap ≠ 0)
    (hc : 0 < F.radial_clearance) (hR : F.radial_clearance ≤ F.radius_rotor)
    (he : √(F.xi ^ 2 + F.yi ^ 2) ≤ 0.9999 * F.radial_clearance) :
    ∃ G c, calculate_stiffness_and_damping_coefficients lib F = .ok (G, c) := by
  have hA : F.radial_clearance * 0.0001 ≠ 0 := mul_ne_zero hc.ne' (by norm_num)
  have room : Room (atTime F (F.radial_clearance * 0.0001) F.t) := by
    refine ⟨hs, mul_nonneg hc.le (by norm_num), rfl, ?_, hR⟩
    show √(F.xi ^ 2 + F.yi ^ 2) + F.radial_clearance * 0.0001 ≤ F.radial_clearance
    linarith
  obtain ⟨G, l, h⟩ := loop_succeeds lib (sample_times F.omegap) room
  obtain ⟨hl, -, -⟩ := loop_ok (F0 := atTime F (F.radial_clearance * 0.0001) F.t) _ h rfl
  have row : ∀ i : Fin 6, (sampleAt l i).dx = F.radial_clearance * 0.0001 * sin (2 * π * i / 5) ∧
      (sampleAt l i).xdot = F.omegap * (F.radial_clearance * 0.0001) * cos (2 * π * i / 5) ∧
      (sampleAt l i).dy = F.radial_clearance * 0.0001 * sin (2 * π * i / 5) ∧
      (sampleAt l i).ydot = F.omegap * (F.radial_clearance * 0.0001) * cos (2 * π * i / 5) := by
    intro i
    have hlen : l.length = 6 := by
      rw [← hl.length_eq]
      simp [sample_times]
    obtain ⟨t, ht, hwt⟩ := times_eq hw i i.2
    have hil : (i : ℕ) < l.length := by omega
    have hit : (i : ℕ) < (sample_times F.omegap).length := by simp [sample_times]
    have hm := (List.forall₂_iff_get.1 hl).2 i hit hil
    have ht' : (sample_times F.omegap).get ⟨i, hit⟩ = t := by
      rw [List.getElem?_eq_getElem hit] at ht
      simpa using ht
    have hsam : l.get ⟨i, hil⟩ = sampleAt l i := by
      unfold sampleAt
      rw [List.getD_eq_getElem?_getD, List.getElem?_eq_getElem hil]
      rfl
    rw [ht', hsam] at hm
    obtain ⟨m1, m2, m3, m4, -, -⟩ := hm
    have e : (atTime F (F.radial_clearance * 0.0001) F.t).omegap * t = 2 * π * i / 5 := hwt
    rw [e] at m1 m2 m3 m4
    exact ⟨m1, m2, m3, m4⟩
  have fits : ∀ X : Matrix (Fin 6) (Fin 3) ℝ, (∀ i : Fin 6, X i = ![1, F.radial_clearance * 0.0001 * sin (2 * π * i / 5),
      F.omegap * (F.radial_clearance * 0.0001) * cos (2 * π * i / 5)]) → ∀ f, ∃ P, fit X f = .ok P := by
    intro X hX f
    unfold fit
    rw [if_neg (normal_det (rows_independent hA hw hX))]
    exact ⟨_, rfl⟩
  unfold calculate_stiffness_and_damping_coefficients
  dsimp only
  unfold atTime at h
  rw [h]
  show ∃ G c, (fit_samples l >>= _) = Except.ok (G, c)
  unfold fit_samples
  dsimp only
  obtain ⟨P1, h1⟩ := fits (fun i => ![1, (sampleAt l i).dx, (sampleAt l i).xdot]) (fun i => by rw [(row i).1, (row i).2.1])
    (fun i => -(sampleAt l i).force_xx)
  obtain ⟨P2, h2⟩ := fits (fun i => ![1, (sampleAt l i).dy, (sampleAt l i).ydot])
    (fun i => by rw [(row i).2.2.1, (row i).2.2.2]) (fun i => -(sampleAt l i).force_xy)
  obtain ⟨P3, h3⟩ := fits (fun i => ![1, (sampleAt l i).dx, (sampleAt l i).xdot]) (fun i => by rw [(row i).1, (row i).2.1])
    (fun i => -(sampleAt l i).force_yx)
  obtain ⟨P4, h4⟩ := fits (fun i => ![1, (sampleAt l i).dy, (sampleAt l i).ydot])
    (fun i => by rw [(row i).2.2.1, (row i).2.2.2]) (fun i => -(sampleAt l i).force_yy)
  rw [h1, h2, h3, h4]
  exact ⟨_, _, rfl⟩

/-- The example of a bearing gets coefficients, and is left as it was found. -/
example (lib : FlowLib) : ∃ F G c, exFlowArgs.init lib = .ok F ∧
    calculate_stiffness_and_damping_coefficients lib F = .ok (G, c) ∧ G.eccentricity = 0.0001 ∧ G.xi = F.xi := by
  obtain ⟨F, hF⟩ := exFlow_exists lib
  obtain ⟨e, he, h1, hr, -, ha⟩ := C77_short_eccentricity hF exFlow_type rfl rfl
  have hd := C77_data hF
  obtain ⟨hcen, -⟩ := C77_centre hF
  have he : e = 0.0001 := by
    cases he
    rfl
  have hcl : F.radial_clearance = 0.0002 := by
    unfold FluidFlow.radial_clearance
    rw [hd.2.2.2.2.2.2.1, hd.2.2.2.2.2.2.2.1]
    norm_num [exFlowArgs]
  have hr' : F.eccentricity_ratio = 1 / 2 := by
    rw [hr, he]
    norm_num [exFlowArgs]
  have hang : F.attitude_angle = calculate_attitude_angle (1 / 2) := by
    rw [ha, hr']
    rfl
  have hnorm : √(F.xi ^ 2 + F.yi ^ 2) = 0.0001 := by
    have e1 : F.xi = (centre F.eccentricity F.attitude_angle).1 := by rw [← hcen]
    have e2 : F.yi = (centre F.eccentricity F.attitude_angle).2 := by rw [← hcen]
    rw [e1, e2, centre_sq, h1, he]
    exact sqrt_sq (by norm_num)
  obtain ⟨G, c, hG⟩ := C85_succeeds lib (F := F) (hd.2.2.2.2.2.2.2.2.2.1.trans rfl)
    (by rw [hd.2.2.2.2.2.2.2.2.2.2.2.2.2.2.1 rfl]; norm_num [exFlowArgs]) (by rw [hcl]; norm_num)
    (by rw [hcl, hd.2.2.2.2.2.2.1]; norm_num [exFlowArgs]) (by rw [hcl, hnorm]; norm_num)
  have hang0 : 0 ≤ F.attitude_angle := by
    rw [hang]
    exact arctan_nonneg.2 (by positivity)
  have hang1 : F.attitude_angle ≤ π / 2 := by
    rw [hang]
    exact (arctan_lt_pi_div_two _).le
  obtain ⟨r1, -, r3, -⟩ := C85_restored hG hcen (by rw [h1, he]; norm_num) hang0 hang1
    (by rw [hr', hcl, h1, he]; norm_num)
  exact ⟨F, G, c, hF, hG, by rw [r3, h1, he], r1⟩

end Ross.Props
