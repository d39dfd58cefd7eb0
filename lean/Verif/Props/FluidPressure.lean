import Verif.Lemmas.FluidPressure
import Verif.Props.FluidCoef

/-!
# The pressure of a fluid-film bearing from finite differences (C81)
-/

namespace Ross.Props

open Real Fluid Fluid.FluidFlow Spec.Fluid FluidLemmas

/-- C81: with coefficients as in C80 there is exactly one pressure field on the grid with the given pressures at the ends
in which as much flows into every cell as out of it. -/
theorem C81_exists {n m : ℕ} {dz dth : ℝ} {c1 c2 : ℕ → ℕ → ℝ} (c0 : ℕ → ℕ → ℝ) (p_in p_out : ℝ) (hn : 2 ≤ n)
    (hm : 4 ≤ m) (hz : dz ≠ 0) (ht : dth = 2 * π / (m - 1)) (h1 : ∀ i < n, ∀ j < m, c1 i j < 0)
    (h2 : ∀ i < n, ∀ j < m, c2 i j < 0) :
    ∃ P, Ends n m p_in p_out P ∧ Balanced n m dz dth c1 c2 c0 P ∧ BalancedSeam n m dz dth c1 c2 c0 P ∧
      ∀ Q, Ends n m p_in p_out Q → Balanced n m dz dth c1 c2 c0 Q → BalancedSeam n m dz dth c1 c2 c0 Q →
        ∀ i < n, ∀ j < m, Q i j = P i j := by
  have hm1 : (0 : ℝ) < (m : ℝ) - 1 := by
    have : (4 : ℝ) ≤ m := by exact_mod_cast hm
    linarith
  have hn1 : (0 : ℝ) < (n : ℝ) - 1 := by
    have : (2 : ℝ) ≤ n := by exact_mod_cast hn
    linarith
  let A : FlowArgs := ⟨n, m, dz * ((n : ℝ) - 1), 0, p_in, p_out, 1, 2, 1, 1, none, none, none, none, true, none,
    "cylindrical", 0, 0, none⟩
  let F : FluidFlow := blank A
  have hFz : F.dz = dz := by
    show dz * ((n : ℝ) - 1) / ((n : ℝ) - 1) = dz
    field_simp
  have hFt : F.dtheta = dth := by rw [ht]; rfl
  have htne : dth ≠ 0 := by rw [ht]; positivity
  -- the last column of coefficients is not needed for the flow
  let d1 : ℕ → ℕ → ℝ := fun i j => if j = m - 1 then c1 i (m - 2) else c1 i j
  let d0 : ℕ → ℕ → ℝ := fun i j => if j = m - 1 then c0 i (m - 2) else c0 i j
  have hs : Signs F d1 c2 := by
    refine ⟨fun i hi j hj => ?_, h2⟩
    show (if j = m - 1 then c1 i (m - 2) else c1 i j) < 0
    split_ifs
    · exact h1 i hi _ (by omega)
    · exact h1 i hi j hj
  have hiff : ∀ P, Grid F d1 c2 d0 P ↔
      Ends n m p_in p_out P ∧ Balanced n m dz dth c1 c2 c0 P ∧ BalancedSeam n m dz dth c1 c2 c0 P := by
    intro P
    have din : ∀ i j, j < m - 1 → d1 i j = c1 i j ∧ d0 i j = c0 i j := by
      intro i j hj
      exact ⟨if_neg (by omega), if_neg (by omega)⟩
    have dlast : ∀ i, d1 i (m - 1) = c1 i (m - 2) ∧ d0 i (m - 1) = c0 i (m - 2) :=
      fun i => ⟨if_pos rfl, if_pos rfl⟩
    have hmm : m - 2 + 1 = m - 1 := by omega
    constructor
    · intro h
      have hper : ∀ i < n, P i (m - 1) = P i 0 := by
        intro i hi
        by_cases hi0 : i = 0
        · subst hi0
          rw [h.inlet _ (by show m - 1 < m; omega), h.inlet _ (by show 0 < m; omega)]
        by_cases hil : i = n - 1
        · subst hil
          exact (h.outlet (m - 1) (by show m - 1 < m; omega)).trans (h.outlet 0 (by show 0 < m; omega)).symm
        · exact h.period i (by omega) (by show i < n - 1; omega)
      refine ⟨⟨h.inlet, h.outlet, hper⟩, fun i h0 hi j h0j hj => ?_, fun i h0 hi => ?_⟩
      · have e := h.inner i h0 hi j h0j hj
        rw [(din i j hj).1, (din i j hj).2, (din i (j - 1) (by omega)).1, (din i (j - 1) (by omega)).2, hFz, hFt] at e
        unfold outflow around along
        rw [show j - 1 + 1 = j by omega]
        linear_combination e
      · have e := h.seam i h0 hi
        change _ * (_ * _ + d1 i (m - 1) * (P i (m - 2) - _)) + _ = (_ - d0 i (m - 1)) / _ at e
        rw [(din i 0 (by omega)).1, (din i 0 (by omega)).2, (dlast i).1, (dlast i).2, hFz, hFt] at e
        unfold outflow around along
        rw [hmm, hper i (by omega)]
        linear_combination e
    · rintro ⟨hE, hB, hS⟩
      refine ⟨hE.inlet, hE.outlet, fun i h0 hi => hE.around i (by change i < n - 1 at hi; omega),
        fun i h0 hi => ?_, fun i h0 hi j h0j hj => ?_⟩
      · have e := hS i h0 hi
        change _ * (_ * _ + d1 i (m - 1) * (P i (m - 2) - _)) + _ = (_ - d0 i (m - 1)) / _
        rw [(din i 0 (by omega)).1, (din i 0 (by omega)).2, (dlast i).1, (dlast i).2, hFz, hFt]
        unfold outflow around along at e
        rw [hmm, hE.around i (by change i < n - 1 at hi; omega)] at e
        linear_combination e
      · have e := hB i h0 hi j h0j hj
        change j < m - 1 at hj
        rw [(din i j hj).1, (din i j hj).2, (din i (j - 1) (by omega)).1, (din i (j - 1) (by omega)).2, hFz, hFt]
        unfold outflow around along at e
        rw [show j - 1 + 1 = j by omega] at e
        linear_combination e
  have hz' : F.dz ≠ 0 := by rw [hFz]; exact hz
  have ht' : F.dtheta ≠ 0 := by rw [hFt]; exact htne
  obtain ⟨x, hx, -⟩ := mounted_solution (F := F) d0 hn hm hz' ht' hs
  rw [solves_iff (F := F) hn hm] at hx
  obtain ⟨e1, e2, e3⟩ := (hiff _).1 hx
  exact ⟨_, e1, e2, e3, fun Q q1 q2 q3 => grid_unique hn hm hz' ht' hs ((hiff Q).2 ⟨q1, q2, q3⟩) hx⟩

/-- C81: the calculated pressure is a field with the given pressures at the ends in which as much flows into every cell
as out of it, except for the first column, with negative pressures replaced by 0.  In the first column the coefficients
of the last column are used for what comes from the one before: the difference is given.  (The claim has no exception:
see `C81_seam_false`.) -/
theorem C81_pressure_partial {sp : Solver} (hsp : SolverOk sp) {F K : FluidFlow} {d : Option String}
    (h : F.calculate_pressure_matrix_numerical sp d = .ok K) (hn : 2 ≤ F.nz) (hm : 4 ≤ F.ntheta) (hL : F.length ≠ 0)
    (hmu : 0 < F.viscosity) (hgap : ∀ i < F.nz, ∀ j < F.ntheta, 0 < F.ri i j ∧ F.ri i j < F.re i j) :
    ∃ c1 c2 c0 P, F.calculate_coefficients d = .ok (c1, c2, c0) ∧
      (∀ i < F.nz, ∀ j < F.ntheta, c1 i j < 0 ∧ c2 i j < 0) ∧
      Ends F.nz F.ntheta F.p_in F.p_out P ∧ Balanced F.nz F.ntheta F.dz F.dtheta c1 c2 c0 P ∧
      (∀ i, 0 < i → i < F.nz - 1 → outflow c1 c2 c0 F.dz F.dtheta P i 0 (F.ntheta - 2) =
        (around c1 c0 F.dtheta i (F.ntheta - 1) (P i (F.ntheta - 2)) (P i (F.ntheta - 1)) -
          around c1 c0 F.dtheta i (F.ntheta - 2) (P i (F.ntheta - 2)) (P i (F.ntheta - 1))) / F.dtheta) ∧
      (∀ i j, K.p_mat_numerical i j = max (P i j) 0) ∧ K.numerical_pressure_matrix_available = true := by
  unfold calculate_pressure_matrix_numerical at h
  split at h
  · cases h
  · rename_i c1 c2 c0 hc
    cases h
    have hm1 : (0 : ℝ) < (F.ntheta : ℝ) - 1 := by
      have : (4 : ℝ) ≤ F.ntheta := by exact_mod_cast hm
      linarith
    have hn1 : (0 : ℝ) < (F.nz : ℝ) - 1 := by
      have : (2 : ℝ) ≤ F.nz := by exact_mod_cast hn
      linarith
    have hz : F.dz ≠ 0 := div_ne_zero hL hn1.ne'
    have ht : F.dtheta ≠ 0 := by unfold dtheta; positivity
    have hsig : ∀ i < F.nz, ∀ j < F.ntheta, c1 i j < 0 ∧ c2 i j < 0 := fun i hi j hj =>
      C80_signs hc hmu (hgap i hi j hj).1 (hgap i hi j hj).2
    have hs : Signs F c1 c2 := ⟨fun i hi j hj => (hsig i hi j hj).1, fun i hi j hj => (hsig i hi j hj).2⟩
    obtain ⟨x, hx, hux⟩ := mounted_solution c0 hn hm hz ht hs
    have hsol := hsp _ _ _ x hx hux
    rw [solves_iff hn hm] at hsol
    have hper : ∀ i < F.nz, sp F.ntotal (F.mounting_matrix c1 c2 c0).1 (F.mounting_matrix c1 c2 c0).2
        ((F.ntheta - 1) * F.nz + i) =
        sp F.ntotal (F.mounting_matrix c1 c2 c0).1 (F.mounting_matrix c1 c2 c0).2 (0 * F.nz + i) := by
      intro i hi
      by_cases hi0 : i = 0
      · subst hi0
        exact (hsol.inlet _ (by omega)).trans (hsol.inlet 0 (by omega)).symm
      by_cases hil : i = F.nz - 1
      · subst hil
        exact (hsol.outlet _ (by omega)).trans (hsol.outlet 0 (by omega)).symm
      · exact hsol.period i (by omega) (by omega)
    refine ⟨c1, c2, c0, _, hc, hsig, ⟨hsol.inlet, hsol.outlet, hper⟩, fun i h0 hi j h0j hj => ?_,
      fun i h0 hi => ?_, fun i j => rfl, rfl⟩
    · have e := hsol.inner i h0 hi j h0j hj
      unfold outflow around along
      rw [show j - 1 + 1 = j by omega]
      linear_combination e
    · have e := hsol.seam i h0 hi
      unfold outflow around along
      rw [show F.ntheta - 2 + 1 = F.ntheta - 1 by omega]
      linear_combination e - c1 i (F.ntheta - 1) / F.dtheta ^ 2 * hper i (by omega)

/-- The arguments of the next example. -/
noncomputable def exSqueezeArgs : FlowArgs where
  nz := 3
  ntheta := 5
  length := 1
  omega := 0
  p_in := 0
  p_out := 0
  radius_rotor := 1
  radius_stator := 2
  viscosity := 1
  density := 1

/-- A bearing of radius 2 with a rotor of radius 1 at its centre, which does not turn and is pushed along x. -/
noncomputable def exSqueeze : FluidFlow :=
  { blank exSqueezeArgs with xp := 1, omegap := 1 }

theorem exSqueeze_geometry : ∃ G, exSqueeze.geometry_description = .ok G ∧ G.nz = 3 ∧ G.ntheta = 5 ∧ G.dz = 1 / 2 ∧
    G.dtheta = π / 2 ∧ G.p_in = 0 ∧ G.p_out = 0 ∧ G.viscosity = 1 ∧ G.length = 1 ∧
    (∀ i j, G.re i j = 2) ∧ (∀ i j, G.ri i j = 1) ∧ (∀ i j, G.gama i j = j * (π / 2) + π / 2) ∧
    G.calculate_coefficients (some "x") = .ok (fun _ _ => coef_1 1 2 1, fun _ _ => coef_2 1 2 1,
      fun _ j => sin (j * (π / 2) + π / 2)) := by
  have hext : ∀ g, exSqueeze.external g = .ok (2, 2 * cos g, 2 * sin g) := fun g =>
    C75_cylindrical g 2 1 0.4 0 none (by show "cylindrical" ≠ _; decide) (by show "cylindrical" ≠ _; decide)
  obtain ⟨G, hG⟩ : ∃ G, exSqueeze.geometry_description = .ok G := by
    unfold geometry_description
    rw [hext]
    exact ⟨_, rfl⟩
  have hGeq := hG
  unfold geometry_description at hGeq
  rw [hext] at hGeq
  have hdth : exSqueeze.dtheta = π / 2 := by
    show 2 * π / (((5 : ℕ) : ℝ) - 1) = π / 2
    push_cast
    ring
  have hdz : exSqueeze.dz = 1 / 2 := by
    show 1 / (((3 : ℕ) : ℝ) - 1) = 1 / 2
    norm_num
  have hang : ∀ j : ℕ, exSqueeze.angle j = j * (π / 2) + π / 2 := by
    intro j
    have hst : exSqueeze.start = π / 2 := by
      unfold start
      have : exSqueeze.shape_geometry = "cylindrical" := rfl
      rw [if_pos this]
      show π / 2 + (0 : ℝ) = _
      ring
    rw [angle, hdth, hst]
  have hint : ∀ g, (exSqueeze.internal g).1 = 1 := by
    intro g
    have h := C74_rotor g 0 1 0 (by norm_num)
    have := h.2.2.2 1 (by norm_num) (by
      unfold OnCircle centre
      have := sin_sq_add_cos_sq g
      simp
      )
    exact this.symm
  have hre : ∀ i j, G.re i j = 2 := by
    intro i j
    cases hGeq
    show (exSqueeze.externalVal (exSqueeze.angle j)).1 = 2
    rw [externalVal, hext]
  have hri : ∀ i j, G.ri i j = 1 := by
    intro i j
    cases hGeq
    exact hint (exSqueeze.angle j)
  have hga : ∀ i j : ℕ, G.gama i j = j * (π / 2) + π / 2 := by
    intro i j
    cases hGeq
    exact hang j
  have hsame := (geometry_same hG).1
  refine ⟨G, hG, hsame.nz, hsame.ntheta, ?_, ?_, by cases hGeq; rfl, by cases hGeq; rfl, by cases hGeq; rfl,
    by cases hGeq; rfl, hre, hri, hga, ?_⟩
  · cases hGeq; exact hdz
  · cases hGeq; exact hdth
  · have hok := ((C80_refused hG (by show |(0 : ℝ)| < 1; norm_num) (fun i j => by rw [hre]; norm_num) (some "x")).2).1
      (fun i _ j _ => by rw [hre, hri]; norm_num)
    obtain ⟨c, hc⟩ := hok
    rw [hc]
    unfold calculate_coefficients at hc
    split_ifs at hc
    cases hc
    have hv : G.viscosity = 1 := by cases hGeq; rfl
    have ho : G.omega = 0 := by cases hGeq; rfl
    have hop : G.omegap = 1 := by cases hGeq; rfl
    have hxp : G.xp = 1 := by cases hGeq; rfl
    have ht : G.t = 0 := by cases hGeq; rfl
    simp only [hre, hri, hv]
    congr 1
    refine Prod.ext rfl (Prod.ext rfl ?_)
    funext i j
    show G.coef_0 (some "x") i j = _
    simp [coef_0, coef_0w, hre, hri, hga, ho, hop, hxp, ht]

/-- C81, refuted: in the bearing of the example the calculated pressure is not the one in which as much flows into every
cell as out of it. -/
theorem C81_seam_false : ∃ F G : FluidFlow, F.geometry_description = .ok G ∧
    (∀ i < G.nz, ∀ j < G.ntheta, 0 < G.ri i j ∧ G.ri i j < G.re i j) ∧
    ∀ sp, SolverOk sp → ∃ c1 c2 c0 K, G.calculate_coefficients (some "x") = .ok (c1, c2, c0) ∧
      G.calculate_pressure_matrix_numerical sp (some "x") = .ok K ∧
      ∀ P, Ends G.nz G.ntheta G.p_in G.p_out P → Balanced G.nz G.ntheta G.dz G.dtheta c1 c2 c0 P →
        BalancedSeam G.nz G.ntheta G.dz G.dtheta c1 c2 c0 P →
        ¬∀ i < G.nz, ∀ j < G.ntheta, K.p_mat_numerical i j = max (P i j) 0 := by
  obtain ⟨G, hG, hnz, hnt, hdz, hdt, hpi, hpo, hv, hL, hre, hri, hga, hc⟩ := exSqueeze_geometry
  refine ⟨exSqueeze, G, hG, fun i _ j _ => by rw [hri, hre]; norm_num, fun sp hsp => ?_⟩
  obtain ⟨K, hK⟩ : ∃ K, G.calculate_pressure_matrix_numerical sp (some "x") = .ok K := by
    unfold calculate_pressure_matrix_numerical
    rw [hc]
    exact ⟨_, rfl⟩
  refine ⟨_, _, _, K, hc, hK, fun P hE hB hS hall => ?_⟩
  obtain ⟨c1, c2, c0, Q, hc', hsig, qE, qB, qS, qK, -⟩ := C81_pressure_partial hsp hK (by omega) (by omega)
    (by rw [hL]; norm_num) (by rw [hv]; norm_num) (fun i _ j _ => by rw [hri, hre]; norm_num)
  rw [hc] at hc'
  cases hc'
  have h1 : coef_1 1 2 1 < 0 := coef_1_neg one_pos one_pos one_lt_two
  have h2 : coef_2 1 2 1 < 0 := coef_2_neg one_pos one_pos one_lt_two
  generalize coef_1 1 2 1 = a at *
  generalize coef_2 1 2 1 = b at *
  have s0 : sin (((0 : ℕ) : ℝ) * (π / 2) + π / 2) = 1 := by simp
  have s1 : sin (((1 : ℕ) : ℝ) * (π / 2) + π / 2) = 0 := by
    rw [show ((1 : ℕ) : ℝ) * (π / 2) + π / 2 = π by push_cast; ring, sin_pi]
  have s2 : sin (((2 : ℕ) : ℝ) * (π / 2) + π / 2) = -1 := by
    rw [show ((2 : ℕ) : ℝ) * (π / 2) + π / 2 = π / 2 + π by push_cast; ring, sin_add_pi, sin_pi_div_two]
  have s3 : sin (((3 : ℕ) : ℝ) * (π / 2) + π / 2) = 0 := by
    rw [show ((3 : ℕ) : ℝ) * (π / 2) + π / 2 = 2 * π by push_cast; ring, sin_two_pi]
  have s4 : sin (((4 : ℕ) : ℝ) * (π / 2) + π / 2) = 1 := by
    rw [show ((4 : ℕ) : ℝ) * (π / 2) + π / 2 = π / 2 + 2 * π by push_cast; ring, sin_add_two_pi, sin_pi_div_two]
  rw [hnz, hnt] at hE hB hS qE
  rw [hnz] at qS
  rw [hnt] at qS
  have hπ := pi_pos
  have htp : 0 < π / 2 := by positivity
  rw [hdz, hdt] at hB hS qS
  rw [hpi, hpo] at hE qE
  have e0 := hS 1 (by norm_num) (by norm_num)
  have e1 := hB 1 (by norm_num) (by norm_num) 1 (by norm_num) (by norm_num)
  have e2 := hB 1 (by norm_num) (by norm_num) 2 (by norm_num) (by norm_num)
  have e3 := hB 1 (by norm_num) (by norm_num) 3 (by norm_num) (by norm_num)
  have ep := hE.around 1 (by norm_num)
  have f0 := qS 1 (by norm_num) (by norm_num)
  have fp := qE.around 1 (by norm_num)
  have z0 := hE.inlet
  have z2 : ∀ j < 5, P 2 j = 0 := hE.outlet
  have y2 : ∀ j < 5, Q 2 j = 0 := qE.outlet
  simp only [outflow, around, along, Nat.reduceSub, Nat.reduceAdd, s0, s1, s2, s3, s4, z0 0 (by norm_num),
    z0 1 (by norm_num), z0 2 (by norm_num), z0 3 (by norm_num), z2 0 (by norm_num), z2 1 (by norm_num),
    z2 2 (by norm_num), z2 3 (by norm_num)] at e0 e1 e2 e3 ep
  simp only [outflow, around, along, Nat.reduceSub, Nat.reduceAdd, s0, s1, s2, s3, s4, qE.inlet 0 (by norm_num),
    y2 0 (by norm_num)] at f0 fp
  have k0 := hall 1 (by rw [hnz]; norm_num) 0 (by rw [hnt]; norm_num)
  have k1 := hall 1 (by rw [hnz]; norm_num) 1 (by rw [hnt]; norm_num)
  have k3 := hall 1 (by rw [hnz]; norm_num) 3 (by rw [hnt]; norm_num)
  rw [qK] at k0 k1 k3
  rw [ep] at e3
  rw [ep] at e0
  rw [fp] at f0
  generalize P 1 0 = p0 at *
  generalize P 1 1 = p1 at *
  generalize P 1 2 = p2 at *
  generalize P 1 3 = p3 at *
  generalize Q 1 0 = q0 at *
  generalize Q 1 1 = q1 at *
  generalize Q 1 3 = q3 at *
  field_simp at e0 e1 e2 e3 f0
  obtain ⟨A, hA⟩ : ∃ A, A = 2 * a := ⟨_, rfl⟩
  obtain ⟨B, hB'⟩ : ∃ B, B = 4 * π ^ 2 * b := ⟨_, rfl⟩
  have hA0 : A < 0 := by rw [hA]; linarith
  have hB0 : B < 0 := by
    have : 0 < 4 * π ^ 2 := by positivity
    rw [hB']
    exact mul_neg_of_pos_of_neg this h2
  have E0 : A * (p1 - 2 * p0 + p3) - π - B * p0 = 0 := by rw [hA, hB']; linear_combination e0 / 2
  have E1 : A * (p2 - 2 * p1 + p0) + π - B * p1 = 0 := by rw [hA, hB']; linear_combination e1 / 2
  have E2 : A * (p3 - 2 * p2 + p1) + π - B * p2 = 0 := by rw [hA, hB']; linear_combination e2 / 2
  have E3 : A * (p0 - 2 * p3 + p2) - π - B * p3 = 0 := by rw [hA, hB']; linear_combination e3 / 2
  have F0 : A * (q1 - 2 * q0 + q3) - B * q0 = 0 := by rw [hA, hB']; linear_combination f0
  have hsum : p0 + p1 + p2 + p3 = 0 := by
    have : B * (p0 + p1 + p2 + p3) = 0 := by linear_combination -(E0 + E1 + E2 + E3)
    exact (mul_eq_zero.1 this).resolve_left hB0.ne
  have h02 : p0 + p2 = 0 := by
    have : (4 * A + B) * (p0 + p2) = 0 := by linear_combination -(E0 + E2) + 2 * A * hsum
    exact (mul_eq_zero.1 this).resolve_left (by linarith)
  have hp0 : -(2 * A + B) * p0 = π := by linear_combination E0 - A * hsum + A * h02
  have hp3 : p3 = p0 := by
    have : (2 * A + B) * (p3 - p0) = 0 := by linear_combination -E3 + E0 + 2 * A * h02 - A * hsum
    linarith [(mul_eq_zero.1 this).resolve_left (by linarith)]
  have hpos : 0 < p0 := by
    by_contra hcon
    push Not at hcon
    have := mul_nonneg_of_nonpos_of_nonpos (by linarith : 2 * A + B ≤ 0) hcon
    linarith
  have hp1 : p1 = -p0 := by linarith
  have hq0 : q0 = p0 := by
    rw [max_eq_left hpos.le] at k0
    rcases max_choice q0 0 with h | h
    · rw [h] at k0; exact k0
    · rw [h] at k0; linarith
  have hq3 : q3 = p0 := by
    rw [hp3, max_eq_left hpos.le] at k3
    rcases max_choice q3 0 with h | h
    · rw [h] at k3; exact k3
    · rw [h] at k3; linarith
  have hq1 : q1 ≤ 0 := by
    rw [hp1, max_eq_right (by linarith : -p0 ≤ 0)] at k1
    exact k1 ▸ le_max_left q1 0
  rw [hq0, hq3] at F0
  have g1 := mul_pos_of_neg_of_neg hA0 (by linarith : q1 - p0 < 0)
  have g2 := mul_neg_of_neg_of_pos hB0 hpos
  linarith

/-- There is a solver as asked for in C81. -/
example : ∃ sp, SolverOk sp := by
  classical
  refine ⟨fun N M f => if h : ∃ x, Solves N M f x then h.choose else 0, fun N M f x hx _ => ?_⟩
  have : ∃ x, Solves N M f x := ⟨x, hx⟩
  dsimp only
  rw [dif_pos this]
  exact this.choose_spec

end Ross.Props
