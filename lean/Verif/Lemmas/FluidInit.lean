import Verif.Lemmas.FluidShort

/-!
# Lemmas on the construction of fluid flows
-/

namespace Ross.FluidLemmas

open Real Fluid Spec.Fluid

theorem bindOk {α β : Type} {x : Res α} {f : α → Res β} {z : β} (h : x >>= f = .ok z) :
    ∃ y, x = .ok y ∧ f y = .ok z := by
  cases x with
  | error e => cases h
  | ok y => exact ⟨y, rfl, h⟩

/-- Everything but position and results. -/
structure SameData (F G : FluidFlow) : Prop where
  nz : G.nz = F.nz
  ntheta : G.ntheta = F.ntheta
  length : G.length = F.length
  omega : G.omega = F.omega
  p_in : G.p_in = F.p_in
  p_out : G.p_out = F.p_out
  radius_rotor : G.radius_rotor = F.radius_rotor
  radius_stator : G.radius_stator = F.radius_stator
  viscosity : G.viscosity = F.viscosity
  bearing_type : G.bearing_type = F.bearing_type
  shape_geometry : G.shape_geometry = F.shape_geometry
  preload : G.preload = F.preload
  displacement : G.displacement = F.displacement
  max_depth : G.max_depth = F.max_depth
  omegap : G.omegap = F.omegap

theorem SameData.refl (F : FluidFlow) : SameData F F := by constructor <;> rfl

theorem SameData.trans {F G K : FluidFlow} (h1 : SameData F G) (h2 : SameData G K) : SameData F K := by
  cases h1; cases h2
  constructor <;> simp_all

theorem geometry_same {F G : FluidFlow} (h : F.geometry_description = .ok G) :
    SameData F G ∧ G.eccentricity = F.eccentricity ∧ G.attitude_angle = F.attitude_angle ∧
      G.eccentricity_ratio = F.eccentricity_ratio ∧ G.load = F.load ∧ G.xi = F.xi ∧ G.yi = F.yi ∧
      G.t = F.t ∧ G.xp = F.xp ∧ G.yp = F.yp ∧ G.p_mat_numerical = F.p_mat_numerical := by
  unfold FluidFlow.geometry_description at h
  split at h
  · cases h
  · cases h
    exact ⟨by constructor <;> rfl, rfl, rfl, rfl, rfl, rfl, rfl, rfl, rfl, rfl, rfl⟩

theorem pressure_same {sp : FluidFlow.Solver} {F G : FluidFlow} {d : Option String}
    (h : F.calculate_pressure_matrix_numerical sp d = .ok G) :
    G = { F with p_mat_numerical := G.p_mat_numerical, numerical_pressure_matrix_available := true } := by
  unfold FluidFlow.calculate_pressure_matrix_numerical at h
  split at h
  · cases h
  · cases h; rfl

/-- The described geometry of `G` is the one of its own eccentricity and attitude angle. -/
def Described (G : FluidFlow) : Prop :=
  (∀ g, ∃ r, G.external g = .ok r) ∧ G.z_list = (fun i : ℕ => (i : ℝ) * G.dz) ∧ (G.gama = fun _ j => G.angle j) ∧
    (G.re = fun _ j => (G.externalVal (G.angle j)).1) ∧ (G.xre = fun _ j => (G.externalVal (G.angle j)).2.1) ∧
    (G.yre = fun _ j => (G.externalVal (G.angle j)).2.2) ∧ (G.ri = fun _ j => (G.internal (G.angle j)).1) ∧
    (G.xri = fun _ j => (G.internal (G.angle j)).2.1) ∧ (G.yri = fun _ j => (G.internal (G.angle j)).2.2)

theorem external_total {F : FluidFlow} {g : ℝ} {r : ℝ × ℝ × ℝ} (h : F.external g = .ok r) (g' : ℝ) :
    ∃ r, F.external g' = .ok r := by
  unfold FluidFlow.external external_radius_function at h ⊢
  split_ifs at h ⊢
  · exact ⟨_, rfl⟩
  · split at h
    · cases h
    · exact ⟨_, rfl⟩
  · exact ⟨_, rfl⟩

theorem geometry_described {F G : FluidFlow} (h : F.geometry_description = .ok G) : Described G := by
  unfold FluidFlow.geometry_description at h
  split at h
  · cases h
  · rename_i r hr
    cases h
    exact ⟨fun g => external_total hr g, rfl, rfl, rfl, rfl, rfl, rfl, rfl, rfl⟩

theorem film_after_ok {lib : FlowLib} {F G : FluidFlow} {d : Option String} {f : Forces}
    (h : film_after lib F d = .ok (G, f)) :
    SameData F G ∧ G.eccentricity = F.eccentricity ∧ G.attitude_angle = F.attitude_angle ∧
      G.eccentricity_ratio = F.eccentricity_ratio ∧ G.load = F.load ∧ G.xi = F.xi ∧ G.yi = F.yi ∧
      G.t = F.t ∧ G.xp = F.xp ∧ G.yp = F.yp ∧ Described G := by
  unfold film_after at h
  obtain ⟨F1, h1, h⟩ := bindOk h
  obtain ⟨F2, h2, h⟩ := bindOk h
  obtain ⟨hs, g1, g2, g3, g4, g5, g6, g7, g8, g9, g10⟩ := geometry_same h1
  have hd := geometry_described h1
  have hp := pressure_same h2
  cases h
  rw [hp]
  refine ⟨hs.trans (by constructor <;> rfl), g1, g2, g3, g4, g5, g6, g7, g8, g9, ?_⟩
  exact hd

theorem short_same {lib : FlowLib} {a : FlowArgs} {F G : FluidFlow} (h : short_position lib a F = .ok G) :
    SameData F G := by
  unfold short_position at h
  split at h
  · obtain ⟨r, -, h⟩ := bindOk h
    cases h; constructor <;> rfl
  · obtain ⟨r, -, h⟩ := bindOk h
    cases h; constructor <;> rfl
  · cases h; constructor <;> rfl
  · cases h

theorem equilibrium_ok {lib : FlowLib} {F G : FluidFlow} (h : find_equilibrium_position lib F = .ok G) :
    ∃ K res x0 x, SameData F K ∧ K.load = F.load ∧ lib.least_squares res x0 = .ok x ∧
      (move_rotor_center_abs K (x.1 * F.radial_clearance) (x.2 * F.radial_clearance)).geometry_description = .ok G := by
  unfold find_equilibrium_position at h
  split at h
  · cases h
  · obtain ⟨⟨K, f⟩, h1, h⟩ := bindOk h
    obtain ⟨x, h2, h⟩ := bindOk h
    have hk := film_after_ok h1
    have hs : SameData F K := SameData.trans (by constructor <;> rfl) hk.1
    refine ⟨K, _, _, x, hs, hk.2.2.2.2.1, h2, ?_⟩
    have : F.radial_clearance = K.radial_clearance := by
      unfold FluidFlow.radial_clearance
      rw [hs.radius_rotor, hs.radius_stator]
    rw [this]
    exact h

theorem other_same {lib : FlowLib} {a : FlowArgs} {F G : FluidFlow} (h : other_position lib a F = .ok G) :
    SameData F G := by
  unfold other_position at h
  split at h
  · obtain ⟨K, hK, h⟩ := bindOk h
    obtain ⟨K', _, _, x, hs, -, -, hg⟩ := equilibrium_ok hK
    have := geometry_same hg
    cases h
    exact hs.trans (SameData.trans (by constructor <;> rfl) (this.1.trans (by constructor <;> rfl)))
  · split at h
    · cases h
    · cases h
    · cases h; exact SameData.refl F

theorem described_center {G : FluidFlow} (h : Described G) (r : ℝ) :
    Described (set_center { G with eccentricity_ratio := r }) := h

theorem positioned_ok {lib : FlowLib} {a : FlowArgs} {G : FluidFlow} (h : positioned lib a = .ok G) :
    SameData (blank a) G ∧ Described G ∧ (G.xi, G.yi) = centre G.eccentricity G.attitude_angle := by
  have hc : ∀ e b : ℝ, (e * cos (3 * π / 2 + b), e * sin (3 * π / 2 + b)) = centre e b := by
    intro e b
    rw [cos_three_half, sin_three_half]
    unfold centre
    rw [Prod.mk.injEq]
    exact ⟨rfl, by ring⟩
  unfold positioned at h
  dsimp only at h
  split_ifs at h
  · obtain ⟨F, h1, h⟩ := bindOk h
    have hs := short_same h1
    obtain ⟨hg, g1, g2, -, -, g5, g6, -⟩ := geometry_same h
    refine ⟨hs.trans (SameData.trans (by constructor <;> rfl) hg), geometry_described h, ?_⟩
    rw [g1, g2, g5, g6]
    exact hc _ _
  · obtain ⟨F, h1, h⟩ := bindOk h
    obtain ⟨F2, h2, h⟩ := bindOk h
    have hs := other_same h1
    have hg := geometry_same h2
    have hd := geometry_described h2
    cases h
    exact ⟨hs.trans (hg.1.trans (by constructor <;> rfl)), hd, hc _ _⟩

theorem init_ok {lib : FlowLib} {a : FlowArgs} {F : FluidFlow} (h : a.init lib = .ok F) :
    ∃ G, positioned lib a = .ok G ∧ a.nz ≠ 1 ∧ a.ntheta ≠ 1 ∧
      F = { G with p_mat_analytical := fun _ _ => 0, analytical_pressure_matrix_available := false,
                   p_mat_numerical := F.p_mat_numerical,
                   numerical_pressure_matrix_available := a.immediately } ∧
      (a.immediately = true → { G with
          p_mat_analytical := fun _ _ => 0
          p_mat_numerical := fun _ _ => 0
          analytical_pressure_matrix_available := false
          numerical_pressure_matrix_available := false }.calculate_pressure_matrix_numerical lib.spsolve none = .ok F) := by
  unfold FlowArgs.init at h
  by_cases h0 : a.nz = 1 ∨ a.ntheta = 1
  · rw [if_pos h0] at h
    cases h
  rw [if_neg h0] at h
  obtain ⟨G, hG, h⟩ := bindOk h
  push Not at h0
  refine ⟨G, hG, h0.1, h0.2, ?_⟩
  dsimp only at h
  split_ifs at h with hi
  · exact ⟨by rw [pressure_same h, hi], fun _ => h⟩
  · refine ⟨?_, fun h' => absurd h' hi⟩
    rw [Bool.not_eq_true] at hi
    rw [hi]
    cases h
    rfl

end Ross.FluidLemmas
