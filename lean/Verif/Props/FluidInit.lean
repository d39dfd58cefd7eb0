import Verif.Lemmas.FluidInit
import Verif.Props.FluidShort

/-!
# C77: the construction of a fluid flow
-/

namespace Ross.Props

open Real Fluid Spec.Fluid FluidLemmas

/-- C77: the data of a constructed flow are the arguments; the frequency is the speed unless given. -/
theorem C77_data {lib : FlowLib} {a : FlowArgs} {F : FluidFlow} (h : a.init lib = .ok F) :
    F.nz = a.nz ∧ F.ntheta = a.ntheta ∧ F.length = a.length ∧ F.omega = a.omega ∧ F.p_in = a.p_in ∧
      F.p_out = a.p_out ∧ F.radius_rotor = a.radius_rotor ∧ F.radius_stator = a.radius_stator ∧
      F.viscosity = a.viscosity ∧ F.shape_geometry = a.shape_geometry ∧ F.preload = a.preload ∧
      F.displacement = a.displacement ∧ F.max_depth = a.max_depth ∧
      (∀ w, a.omegap = some w → F.omegap = w) ∧ (a.omegap = none → F.omegap = a.omega) ∧
      F.numerical_pressure_matrix_available = a.immediately ∧ F.analytical_pressure_matrix_available = false := by
  obtain ⟨G, hG, -, -, hF, -⟩ := init_ok h
  have hs := (positioned_ok hG).1
  rw [hF]
  refine ⟨hs.nz, hs.ntheta, hs.length, hs.omega, hs.p_in, hs.p_out, hs.radius_rotor, hs.radius_stator, hs.viscosity,
    hs.shape_geometry, hs.preload, hs.displacement, hs.max_depth, ?_, ?_, rfl, rfl⟩
  · intro w hw
    exact hs.omegap.trans (by simp [blank, hw])
  · intro hw
    exact hs.omegap.trans (by simp [blank, hw])

/-- C77: a bearing is short up to a quarter of its diameter, long above eight times, as documented; the type that
is given is kept.  (Between four and eight the documentation is not followed: see `C77_type_false`.) -/
theorem C77_type_partial {lib : FlowLib} {a : FlowArgs} {F : FluidFlow} (h : a.init lib = .ok F) :
    (∀ s, a.bearing_type = some s → F.bearing_type = s) ∧
    (a.bearing_type = none →
      (a.length / (2 * a.radius_stator) ≤ 1 / 4 → F.bearing_type = "short_bearing") ∧
      (8 < a.length / (2 * a.radius_stator) → F.bearing_type = "long_bearing") ∧
      (1 / 4 < a.length / (2 * a.radius_stator) → a.length / (2 * a.radius_stator) ≤ 4 →
        F.bearing_type = "medium_size")) := by
  obtain ⟨G, hG, -, -, hF, -⟩ := init_ok h
  have hs := (positioned_ok hG).1.bearing_type
  have hb : F.bearing_type = bearing_type_of a := by rw [hF]; exact hs
  rw [hb]
  unfold bearing_type_of
  refine ⟨fun s hs => by rw [hs], fun hn => ?_⟩
  rw [hn]
  refine ⟨fun h => if_pos h, fun h => ?_, fun h1 h2 => ?_⟩
  · dsimp only
    rw [if_neg (by linarith), if_pos (by linarith)]
  · dsimp only
    rw [if_neg (by linarith), if_neg (by linarith)]

/-- C77, refuted: a bearing five times as long as its diameter is taken as long, although the limit is documented to be
eight times. -/
theorem C77_type_false {lib : FlowLib} {a : FlowArgs} {F : FluidFlow} (h : a.init lib = .ok F)
    (hn : a.bearing_type = none) (hl : a.length / (2 * a.radius_stator) = 5) : F.bearing_type = "long_bearing" := by
  obtain ⟨G, hG, -, -, hF, -⟩ := init_ok h
  have hs := (positioned_ok hG).1.bearing_type
  have hb : F.bearing_type = bearing_type_of a := by rw [hF]; exact hs
  rw [hb]
  unfold bearing_type_of
  rw [hn]
  dsimp only
  rw [hl, if_neg (by norm_num), if_pos (by norm_num)]

/-- C77: whatever is given, the position of the rotor agrees with eccentricity and attitude angle, and every point of the
grid lies on the circle of the rotor around that position. -/
theorem C77_centre {lib : FlowLib} {a : FlowArgs} {F : FluidFlow} (h : a.init lib = .ok F) :
    (F.xi, F.yi) = centre F.eccentricity F.attitude_angle ∧
      (|F.eccentricity| < F.radius_rotor → ∀ i j, 0 < F.ri i j ∧
        Polar (F.ri i j) (F.gama i j) (F.xri i j, F.yri i j) ∧
        OnCircle (F.xi, F.yi) F.radius_rotor (F.xri i j, F.yri i j)) := by
  obtain ⟨G, hG, -, -, hF, -⟩ := init_ok h
  obtain ⟨hs, hd, hc⟩ := positioned_ok hG
  rw [hF]
  refine ⟨hc, fun hlt i j => ?_⟩
  obtain ⟨-, -, h3, -, -, -, h7, h8, h9⟩ := hd
  change |G.eccentricity| < G.radius_rotor at hlt
  show 0 < G.ri i j ∧ Polar (G.ri i j) (G.gama i j) (G.xri i j, G.yri i j) ∧
    OnCircle (G.xi, G.yi) G.radius_rotor (G.xri i j, G.yri i j)
  rw [hc, h3, h7, h8, h9]
  exact ⟨internal_pos hlt _ _, rfl, internal_onCircle hlt.le _ _⟩

/-- C77: without a load, and unless the bearing is short and cylindrical, both eccentricity and attitude angle must be
given, and they are kept. -/
theorem C77_given {lib : FlowLib} {a : FlowArgs} (hl : a.load = none)
    (hb : ¬(bearing_type_of a = "short_bearing" ∧ a.shape_geometry = "cylindrical")) (hn : a.nz ≠ 1)
    (hn' : a.ntheta ≠ 1) :
    ((a.attitude_angle = none ∨ a.eccentricity = none) → a.init lib = .error .exception) ∧
    ∀ e b F, a.eccentricity = some e → a.attitude_angle = some b → a.init lib = .ok F →
      F.eccentricity = e ∧ F.attitude_angle = b ∧ F.eccentricity_ratio = e / (a.radius_stator - a.radius_rotor) ∧
        F.load = none := by
  have hb' : ¬((blank a).bearing_type = "short_bearing" ∧ (blank a).shape_geometry = "cylindrical") := hb
  constructor
  · intro hx
    have ho : other_position lib a (blank a) = .error .exception := by
      unfold other_position
      rw [hl]
      dsimp only
      split
      · rfl
      · rfl
      · rename_i h1 h2
        rcases hx with hx | hx
        · rw [hx] at h1; cases h1
        · rw [hx] at h2; cases h2
    unfold FlowArgs.init
    rw [if_neg (by tauto)]
    unfold positioned
    dsimp only
    rw [if_neg hb', ho]
    rfl
  · intro e b F he hat h
    obtain ⟨G, hG, -, -, hF, -⟩ := init_ok h
    unfold positioned at hG
    dsimp only at hG
    rw [if_neg hb'] at hG
    have ho : other_position lib a (blank a) = .ok (blank a) := by
      unfold other_position
      rw [hl, hat, he]
    rw [ho] at hG
    obtain ⟨K, hK, hG1⟩ := bindOk hG
    obtain ⟨K2, hK2, hG2⟩ := bindOk hG1
    cases hK
    obtain ⟨hs, g1, g2, -, g4, -⟩ := geometry_same hK2
    cases hG2
    rw [hF]
    refine ⟨g1.trans (by simp [blank, he]), g2.trans (by simp [blank, hat]), ?_, g4.trans hl⟩
    show K2.eccentricity / K2.radial_clearance = _
    rw [g1]
    unfold FluidFlow.radial_clearance
    rw [hs.radius_rotor, hs.radius_stator]
    simp [blank, he]

/-- C77: an eccentricity or an attitude angle that is given is kept, in every bearing, with a load or without. -/
theorem C77_kept {lib : FlowLib} {a : FlowArgs} {F : FluidFlow} (h : a.init lib = .ok F) :
    (∀ e, a.eccentricity = some e → F.eccentricity = e) ∧
    (∀ b, a.attitude_angle = some b → F.attitude_angle = b) := by
  obtain ⟨G, hG, -, -, hF, -⟩ := init_ok h
  suffices hs : (∀ e, a.eccentricity = some e → G.eccentricity = e) ∧
      (∀ b, a.attitude_angle = some b → G.attitude_angle = b) by
    rw [hF]
    exact hs
  unfold positioned at hG
  dsimp only at hG
  split_ifs at hG with hb
  · obtain ⟨K, hK, hG1⟩ := bindOk hG
    obtain ⟨-, g1, g2, -⟩ := geometry_same hG1
    have hk : (∀ e, a.eccentricity = some e → K.eccentricity = e) ∧
        (∀ b, a.attitude_angle = some b → K.attitude_angle = b) := by
      unfold short_position at hK
      split at hK
      · rename_i h1 h2
        obtain ⟨r, -, hK⟩ := bindOk hK
        cases hK
        exact ⟨fun e he => by (rw [he] at h1; cases h1), fun b hb => by (show a.attitude_angle.getD _ = b; rw [hb]; rfl)⟩
      · rename_i h1 h2
        obtain ⟨r, -, hK⟩ := bindOk hK
        cases hK
        exact ⟨fun e he => by (show a.eccentricity.getD 0 = e; rw [he]; rfl),
          fun b hb => by (show a.attitude_angle.getD _ = b; rw [hb]; rfl)⟩
      · cases hK
        exact ⟨fun e he => by (show a.eccentricity.getD 0 = e; rw [he]; rfl),
          fun b hb => by (show a.attitude_angle.getD _ = b; rw [hb]; rfl)⟩
      · cases hK
    exact ⟨fun e he => g1.trans (hk.1 e he), fun b hb => g2.trans (hk.2 b hb)⟩
  · obtain ⟨K, hK, hG1⟩ := bindOk hG
    obtain ⟨K2, hK2, hG2⟩ := bindOk hG1
    cases hG2
    obtain ⟨-, g1, g2, -⟩ := geometry_same hK2
    have hk : (∀ e, a.eccentricity = some e → K.eccentricity = e) ∧
        (∀ b, a.attitude_angle = some b → K.attitude_angle = b) := by
      unfold other_position at hK
      split at hK
      · obtain ⟨r, -, hK⟩ := bindOk hK
        cases hK
        exact ⟨fun e he => by (show a.eccentricity.getD _ = e; rw [he]; rfl),
          fun b hb => by (show a.attitude_angle.getD _ = b; rw [hb]; rfl)⟩
      · split at hK
        · cases hK
        · cases hK
        · cases hK
          exact ⟨fun e he => by (show a.eccentricity.getD 0 = e; rw [he]; rfl),
            fun b hb => by (show a.attitude_angle.getD 0 = b; rw [hb]; rfl)⟩
    exact ⟨fun e he => g1.trans (hk.1 e he), fun b hb => g2.trans (hk.2 b hb)⟩

/-- C77: a short cylindrical bearing with an eccentricity and no load gets the load of that eccentricity. -/
theorem C77_short_eccentricity {lib : FlowLib} {a : FlowArgs} {F : FluidFlow} (h : a.init lib = .ok F)
    (hb : bearing_type_of a = "short_bearing") (hs : a.shape_geometry = "cylindrical") (hl : a.load = none) :
    ∃ e, a.eccentricity = some e ∧ F.eccentricity = e ∧ F.eccentricity_ratio = e / (a.radius_stator - a.radius_rotor) ∧
      F.load = some (calculate_rotor_load a.radius_stator a.omega a.viscosity a.length
        (a.radius_stator - a.radius_rotor) F.eccentricity_ratio) ∧
      F.attitude_angle = a.attitude_angle.getD (calculate_attitude_angle F.eccentricity_ratio) := by
  obtain ⟨G, hG, -, -, hF, -⟩ := init_ok h
  unfold positioned at hG
  dsimp only at hG
  rw [if_pos ⟨hb, hs⟩] at hG
  obtain ⟨K, hK, hG⟩ := bindOk hG
  obtain ⟨-, g1, g2, g3, g4, -⟩ := geometry_same hG
  unfold short_position at hK
  rw [hl] at hK
  cases he : a.eccentricity with
  | none => rw [he] at hK; cases hK
  | some e =>
    rw [he] at hK
    cases hK
    refine ⟨e, rfl, ?_⟩
    rw [hF]
    refine ⟨g1.trans (by simp [set_center, blank, he]), g3, ?_, ?_⟩
    · show G.load = some (calculate_rotor_load _ _ _ _ _ G.eccentricity_ratio)
      rw [g4, g3]
      rfl
    · show G.attitude_angle = a.attitude_angle.getD (calculate_attitude_angle G.eccentricity_ratio)
      rw [g2, g3]
      rfl

/-- C77: a short cylindrical bearing with a positive load and no eccentricity gets the eccentricity that carries the
load. -/
theorem C77_short_load {lib : FlowLib} (hlib : RootsOk lib.toRootLib) {a : FlowArgs} {F : FluidFlow}
    (h : a.init lib = .ok F) (hb : bearing_type_of a = "short_bearing") (hs : a.shape_geometry = "cylindrical") {W : ℝ}
    (hl : a.load = some W) (he : a.eccentricity = none) (h1 : 0 < a.radius_stator) (h2 : 0 < a.omega)
    (h3 : 0 < a.viscosity) (h4 : 0 < a.length) (h5 : 0 < W) (h6 : a.radius_rotor < a.radius_stator) :
    F.load = some W ∧ 0 < F.eccentricity_ratio ∧ F.eccentricity_ratio < 1 ∧
      F.eccentricity = F.eccentricity_ratio * (a.radius_stator - a.radius_rotor) ∧
      calculate_rotor_load a.radius_stator a.omega a.viscosity a.length (a.radius_stator - a.radius_rotor)
        F.eccentricity_ratio = W ∧
      F.attitude_angle = a.attitude_angle.getD (calculate_attitude_angle F.eccentricity_ratio) := by
  obtain ⟨G, hG, -, -, hF, -⟩ := init_ok h
  unfold positioned at hG
  dsimp only at hG
  rw [if_pos ⟨hb, hs⟩] at hG
  obtain ⟨K, hK, hG⟩ := bindOk hG
  obtain ⟨-, g1, g2, g3, g4, -⟩ := geometry_same hG
  unfold short_position at hK
  rw [hl, he] at hK
  obtain ⟨r, hr, hK⟩ := bindOk hK
  obtain ⟨e, hok, he0, he1, hu⟩ := C78_ratio hlib h1 h2 h3 h4 h5 (sub_pos.2 h6)
  have hre : r = e := by
    have : (Except.ok r : Res ℝ) = .ok e := hr.symm.trans hok
    cases this; rfl
  subst hre
  cases hK
  rw [hF]
  have hr3 : G.eccentricity_ratio = r := g3
  refine ⟨g4.trans hl, ?_, ?_, ?_, ?_, ?_⟩
  · rw [hr3]; exact he0
  · rw [hr3]; exact he1
  · show G.eccentricity = G.eccentricity_ratio * _
    rw [hr3, g1]; rfl
  · show calculate_rotor_load _ _ _ _ _ G.eccentricity_ratio = W
    rw [hr3]; exact (hu r he0 he1).2 rfl
  · show G.attitude_angle = a.attitude_angle.getD (calculate_attitude_angle G.eccentricity_ratio)
    rw [hr3, g2]; rfl

/-- C77: the eccentricity ratio is eccentricity over clearance, unless both a load and an eccentricity are given to a
short cylindrical bearing.  (The documentation has no exception: see `C77_ratio_false`.) -/
theorem C77_ratio_partial {lib : FlowLib} {a : FlowArgs} {F : FluidFlow} (h : a.init lib = .ok F)
    (hc : a.radius_rotor < a.radius_stator)
    (hex : a.load = none ∨ a.eccentricity = none ∨ bearing_type_of a ≠ "short_bearing" ∨
      a.shape_geometry ≠ "cylindrical") :
    F.eccentricity_ratio = F.eccentricity / (F.radius_stator - F.radius_rotor) := by
  obtain ⟨G, hG, -, -, hF, -⟩ := init_ok h
  have hdata := (positioned_ok hG).1
  rw [hF]
  show G.eccentricity_ratio = G.eccentricity / (G.radius_stator - G.radius_rotor)
  unfold positioned at hG
  dsimp only at hG
  split_ifs at hG with hif
  · obtain ⟨K, hK, hG⟩ := bindOk hG
    obtain ⟨hs, g1, g2, g3, g4, -⟩ := geometry_same hG
    rw [g1, g3, hdata.radius_rotor, hdata.radius_stator]
    unfold short_position at hK
    split at hK
    · obtain ⟨r, hr, hK⟩ := bindOk hK
      cases hK
      show r = r * (blank a).radial_clearance / (a.radius_stator - a.radius_rotor)
      have : (blank a).radial_clearance = a.radius_stator - a.radius_rotor := rfl
      rw [this, mul_div_cancel_right₀ _ (by linarith)]
    · rename_i h1 h2
      have h3 := hif.1
      have h4 := hif.2
      change bearing_type_of a = _ at h3
      change a.shape_geometry = _ at h4
      rw [h1, h2, h3, h4] at hex
      simp at hex
    · rename_i e h1 h2
      cases hK
      show e / (blank a).radial_clearance = (blank a).eccentricity / (a.radius_stator - a.radius_rotor)
      simp [blank, FluidFlow.radial_clearance, h1]
    · cases hK
  · obtain ⟨K, hK, hG⟩ := bindOk hG
    obtain ⟨K2, hK2, hG⟩ := bindOk hG
    cases hG
    rfl

/-- C77, refuted for a short cylindrical bearing with both a load and an eccentricity: the eccentricity is kept but the
ratio is the one of the load.  With the load of ratio 1/2 and a quarter of the clearance as eccentricity, the
ratio is 1/2. -/
theorem C77_ratio_false {lib : FlowLib} (hlib : RootsOk lib.toRootLib) {a : FlowArgs} {F : FluidFlow}
    (h : a.init lib = .ok F) (hb : bearing_type_of a = "short_bearing") (hs : a.shape_geometry = "cylindrical")
    (h1 : 0 < a.radius_stator) (h2 : 0 < a.omega) (h3 : 0 < a.viscosity) (h4 : 0 < a.length)
    (h6 : a.radius_rotor < a.radius_stator) (he : a.eccentricity = some ((a.radius_stator - a.radius_rotor) / 4))
    (hl : a.load = some (calculate_rotor_load a.radius_stator a.omega a.viscosity a.length
      (a.radius_stator - a.radius_rotor) (1 / 2))) :
    F.eccentricity = (F.radius_stator - F.radius_rotor) / 4 ∧ F.eccentricity_ratio = 1 / 2 := by
  obtain ⟨G, hG, -, -, hF, -⟩ := init_ok h
  have hdata := (positioned_ok hG).1
  unfold positioned at hG
  dsimp only at hG
  rw [if_pos ⟨hb, hs⟩] at hG
  obtain ⟨K, hK, hG⟩ := bindOk hG
  obtain ⟨-, g1, g2, g3, g4, -⟩ := geometry_same hG
  unfold short_position at hK
  rw [hl, he] at hK
  obtain ⟨r, hr, hK⟩ := bindOk hK
  have hi := C78_inverse hlib h1 h2 h3 h4 (sub_pos.2 h6) (e := 1 / 2) (by norm_num) (by norm_num)
  have hre : r = 1 / 2 := by
    have : (Except.ok r : Res ℝ) = .ok (1 / 2) := hr.symm.trans hi
    cases this; rfl
  cases hK
  rw [hF]
  refine ⟨?_, g3.trans hre⟩
  show G.eccentricity = (G.radius_stator - G.radius_rotor) / 4
  rw [g1, hdata.radius_rotor, hdata.radius_stator]
  simp [set_center, blank, he]

/-- C77: with a load only, a bearing that is not short and cylindrical is put where the minimiser ends: if that is within
the bounds that it was given, and not at the centre, position, eccentricity and attitude angle are those of that point. -/
theorem C77_equilibrium {lib : FlowLib} {a : FlowArgs} {F : FluidFlow} (h : a.init lib = .ok F)
    (hb : ¬(bearing_type_of a = "short_bearing" ∧ a.shape_geometry = "cylindrical")) {W : ℝ} (hl : a.load = some W)
    (he : a.eccentricity = none) (hat : a.attitude_angle = none) (hc : a.radius_rotor < a.radius_stator)
    (hls : ∀ res x0 x, lib.least_squares res x0 = .ok x → 0 ≤ x.1 ∧ x.2 ≤ 0 ∧ x ≠ 0) :
    ∃ res x0 x, lib.least_squares res x0 = .ok x ∧ F.xi = x.1 * (a.radius_stator - a.radius_rotor) ∧
      F.yi = x.2 * (a.radius_stator - a.radius_rotor) ∧ F.eccentricity ^ 2 = F.xi ^ 2 + F.yi ^ 2 ∧ F.load = some W := by
  obtain ⟨G, hG, -, -, hF, -⟩ := init_ok h
  have hcen := (positioned_ok hG).2.2
  have hb' : ¬((blank a).bearing_type = "short_bearing" ∧ (blank a).shape_geometry = "cylindrical") := hb
  unfold positioned at hG
  dsimp only at hG
  rw [if_neg hb'] at hG
  obtain ⟨K, hK, hG1⟩ := bindOk hG
  obtain ⟨K2, hK2, hG2⟩ := bindOk hG1
  unfold other_position at hK
  rw [hl, he, hat] at hK
  obtain ⟨E, hE, hK⟩ := bindOk hK
  obtain ⟨N, res, x0, x, hs, hload, hx, hg⟩ := equilibrium_ok hE
  obtain ⟨-, g1, g2, -, g4, -⟩ := geometry_same hg
  cases hK
  obtain ⟨-, k1, k2, -, k4, -⟩ := geometry_same hK2
  have e1 : G.eccentricity = E.eccentricity := by cases hG2; exact k1
  have e2 : G.attitude_angle = E.attitude_angle := by cases hG2; exact k2
  have e4 : G.load = E.load := by cases hG2; exact k4
  obtain ⟨b1, b2, b3⟩ := hls _ _ _ hx
  have hcl : (blank a).radial_clearance = a.radius_stator - a.radius_rotor := rfl
  have hcp : 0 < a.radius_stator - a.radius_rotor := by linarith
  rw [hcl] at hg g1 g2
  rw [e1, e2, g1, g2] at hcen
  have hne : x.1 * (a.radius_stator - a.radius_rotor) ≠ 0 ∨ x.2 * (a.radius_stator - a.radius_rotor) ≠ 0 := by
    by_contra hcon
    push Not at hcon
    apply b3
    have h1 := (mul_eq_zero.1 hcon.1).resolve_right hcp.ne'
    have h2 := (mul_eq_zero.1 hcon.2).resolve_right hcp.ne'
    exact Prod.ext h1 h2
  have hm := moved_centre hne
  rw [abs_of_nonneg (mul_nonneg b1 hcp.le), abs_of_nonpos (mul_nonpos_of_nonpos_of_nonneg b2 hcp.le), neg_neg] at hm
  have hcen' : (G.xi, G.yi) = (x.1 * (a.radius_stator - a.radius_rotor), x.2 * (a.radius_stator - a.radius_rotor)) :=
    hcen.trans hm
  rw [Prod.mk.injEq] at hcen'
  refine ⟨res, x0, x, hx, ?_⟩
  rw [hF]
  refine ⟨hcen'.1, hcen'.2, ?_, ?_⟩
  · show G.eccentricity ^ 2 = G.xi ^ 2 + G.yi ^ 2
    rw [e1, g1, hcen'.1, hcen'.2]
    exact sq_sqrt (by positivity)
  · show G.load = some W
    rw [e4, g4]
    exact hload.trans hl

/-- An example of arguments: the ones of `fluid_flow_example`, without the attitude angle. -/
noncomputable def exFlowArgs : FlowArgs :=
  { nz := 8, ntheta := 32, length := 0.04, omega := 10, p_in := 0, p_out := 0, radius_rotor := 0.2,
    radius_stator := 0.2002, viscosity := 0.015, density := 860, eccentricity := some 0.0001, immediately := false }

theorem exFlow_type : bearing_type_of exFlowArgs = "short_bearing" := by
  unfold bearing_type_of
  exact if_pos (by norm_num [exFlowArgs])

theorem exFlow_exists (lib : FlowLib) : ∃ F, exFlowArgs.init lib = .ok F := by
  have h1 : positioned lib exFlowArgs = (set_center { blank exFlowArgs with
      eccentricity_ratio := 0.0001 / (blank exFlowArgs).radial_clearance
      load := some (calculate_rotor_load (blank exFlowArgs).radius_stator (blank exFlowArgs).omega
        (blank exFlowArgs).viscosity (blank exFlowArgs).length (blank exFlowArgs).radial_clearance
        (0.0001 / (blank exFlowArgs).radial_clearance))
      attitude_angle := calculate_attitude_angle
        (0.0001 / (blank exFlowArgs).radial_clearance) }).geometry_description := by
    unfold positioned
    dsimp only
    rw [if_pos ⟨exFlow_type, rfl⟩]
    rfl
  have h2 : ∀ G : FluidFlow, G.shape_geometry = "cylindrical" → ∃ K, G.geometry_description = .ok K := by
    intro G hG
    unfold FluidFlow.geometry_description FluidFlow.external external_radius_function
    simp [hG]
  have h3 : ∃ K, positioned lib exFlowArgs = .ok K := by
    rw [h1]
    exact h2 _ rfl
  obtain ⟨K, hK⟩ := h3
  unfold FlowArgs.init
  rw [if_neg (by simp [exFlowArgs]), hK]
  exact ⟨_, rfl⟩

/-- The film force of the example is vertical. -/
example (lib : FlowLib) : ∃ F, exFlowArgs.init lib = .ok F ∧ F.eccentricity_ratio = 1 / 2 ∧
    (calculate_oil_film_force lib F none).x = 0 := by
  obtain ⟨F, hF⟩ := exFlow_exists lib
  obtain ⟨e, he, -, hr, -, ha⟩ := C77_short_eccentricity hF exFlow_type rfl rfl
  have hd := C77_data hF
  have ht := (C77_type_partial hF).2 rfl |>.1 (by norm_num [exFlowArgs])
  have h12 : F.eccentricity_ratio = 1 / 2 := by
    rw [hr]
    cases he
    norm_num [exFlowArgs]
  refine ⟨F, hF, h12, (C79_balance_partial lib F ht ha ?_ ?_ ?_ ?_).1⟩
  · rw [h12]; norm_num
  · rw [h12]; norm_num
  · rw [hd.2.2.2.2.2.2.1]; norm_num [exFlowArgs]
  · rw [hd.2.2.2.2.2.2.1, hd.2.2.2.2.2.2.2.1]; norm_num [exFlowArgs]

end Ross.Props
