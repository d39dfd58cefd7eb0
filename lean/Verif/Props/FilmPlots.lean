import Verif.Spec.FilmPlots
import Verif.Lemmas.Ucs
import Verif.Props.Extrapolation
import Verif.Props.FluidGeometry
import Verif.Props.FluidInit

/-! # C127, C128: the figures of a fluid film -/

namespace Ross.FilmPlotLemmas

open Ross Ross.Fluid Ross.FilmPlots Ross.Spec.FilmPlots

theorem axisAt_of {n : ℕ} {i : ℤ} {k : ℕ} (h : StandsFor n i k) : axisAt n i = .ok k := by
  obtain ⟨h1, h2⟩ := h
  unfold axisAt
  rcases h2 with h2 | h2
  · rw [if_pos (by omega)]
    congr 1
    omega
  · rw [if_neg (by omega), if_pos (by omega)]
    congr 1
    omega

theorem axisAt_none {n : ℕ} {i : ℤ} (h : ∀ k, ¬ StandsFor n i k) : axisAt n i = .error .indexError := by
  unfold axisAt
  rw [if_neg, if_neg]
  · intro hc
    exact h (n + i).toNat ⟨by omega, Or.inr (by omega)⟩
  · intro hc
    exact h i.toNat ⟨by omega, Or.inl (by omega)⟩

theorem line_eq (n : ℕ) (f : ℕ → ℝ) : line n f = List.ofFn fun i : Fin n => f i := by
  unfold line
  rw [List.ofFn_eq_map, ← List.map_coe_finRange_eq_range, List.map_map]
  rfl

theorem minOf_line {n : ℕ} (hn : 0 < n) (f : ℕ → ℝ) :
    ∃ m, minOf (line n f) = .ok m ∧ (∀ j < n, m ≤ f j) ∧ ∃ j < n, m = f j := by
  have hne : ∃ m, minOf (line n f) = .ok m := by
    cases hl : line n f with
    | nil =>
      have := congrArg List.length hl
      simp [line] at this
      omega
    | cons a t => exact ⟨_, rfl⟩
  obtain ⟨m, hm⟩ := hne
  obtain ⟨h1, h2⟩ := Props.minOf_ok hm
  refine ⟨m, hm, fun j hj => h1 _ (List.mem_map.2 ⟨j, List.mem_range.2 hj, rfl⟩), ?_⟩
  obtain ⟨j, hj, e⟩ := List.mem_map.1 h2
  exact ⟨j, List.mem_range.1 hj, e.symm⟩

end Ross.FilmPlotLemmas

namespace Ross.Props

open Ross Ross.Fluid Ross.FilmPlots Ross.Spec.FilmPlots Ross.FilmPlotLemmas

variable {F : FluidFlow}

/-- **C127** when no pressure has been calculated, all figures of pressures are refused. -/
theorem C127_refused (hn : F.numerical_pressure_matrix_available = false)
    (ha : F.analytical_pressure_matrix_available = false) (i : ℤ) (b : Bool) :
    plot_pressure_z F i = .error .valueError ∧ plot_pressure_theta F i = .error .valueError ∧
      plot_pressure_theta_cylindrical F i b = .error .valueError ∧ plot_pressure_surface F = .error .valueError := by
  have hu : unavailable F = true := by simp [unavailable, hn, ha]
  refine ⟨?_, ?_, ?_, ?_⟩
  · simp [plot_pressure_z, hu]
  · simp [plot_pressure_theta, hu]
  · simp [plot_pressure_theta_cylindrical, hu]
  · simp [plot_pressure_surface, hu]

/-- **C127** the figure along the axis has one curve for each pressure that has been calculated, with all rows of the
column asked for, each at its place on the axis. -/
theorem C127_axial {theta : ℤ} {j : ℕ} (hj : StandsFor F.ntheta theta j) (hav :
    F.numerical_pressure_matrix_available = true ∨ F.analytical_pressure_matrix_available = true) :
    ∃ cs, plot_pressure_z F theta = .ok cs ∧ cs.Nodup ∧ ∀ c, c ∈ cs ↔
      F.numerical_pressure_matrix_available = true ∧ c = axialNumerical F j ∨
      F.analytical_pressure_matrix_available = true ∧ c = axialAnalytical F j := by
  have hne : axialNumerical F j ≠ axialAnalytical F j := by
    intro hc
    have := congrArg FilmPlots.Curve.name hc
    simp [axialNumerical, axialAnalytical, curve] at this
  have hu : unavailable F = false := by
    unfold unavailable
    rcases hav with h | h <;> simp [h]
  unfold plot_pressure_z
  simp only [hu, axisAt_of hj, line_eq]
  cases hn : F.numerical_pressure_matrix_available <;> cases ha : F.analytical_pressure_matrix_available
  · simp [hn, ha] at hav
  · exact ⟨[axialAnalytical F j], rfl, by simp, by simp⟩
  · exact ⟨[axialNumerical F j], rfl, by simp, by simp⟩
  · exact ⟨[axialNumerical F j, axialAnalytical F j], rfl, by simp [hne], by simp⟩

/-- **C127** a column or row that does not exist is refused. -/
theorem C127_no_column {i : ℤ} (b : Bool) (hav :
    F.numerical_pressure_matrix_available = true ∨ F.analytical_pressure_matrix_available = true) :
    ((∀ j, ¬ StandsFor F.ntheta i j) → plot_pressure_z F i = .error .indexError ∧ plot_shape F i = .error .indexError) ∧
    ((∀ k, ¬ StandsFor F.nz i k) → plot_pressure_theta F i = .error .indexError ∧
      plot_pressure_theta_cylindrical F i b = .error .indexError) := by
  have hu : unavailable F = false := by
    unfold unavailable
    rcases hav with h | h <;> simp [h]
  constructor
  · intro h
    have hx := axisAt_none h
    refine ⟨?_, by simp only [plot_shape, hx]; rfl⟩
    unfold plot_pressure_z
    simp only [hu, hx]
    cases hn : F.numerical_pressure_matrix_available <;> cases ha : F.analytical_pressure_matrix_available
    · simp [hn, ha] at hav
    all_goals rfl
  · intro h
    have hx := axisAt_none h
    constructor
    · unfold plot_pressure_theta
      simp only [hu, hx]
      cases hn : F.numerical_pressure_matrix_available <;> cases ha : F.analytical_pressure_matrix_available
      · simp [hn, ha] at hav
      all_goals rfl
    · unfold plot_pressure_theta_cylindrical
      simp only [hu, hx]
      rfl

/-- **C127** the figure of the shape has the radii of stator and rotor along the axis. -/
theorem C127_shape {theta : ℤ} {j : ℕ} (hj : StandsFor F.ntheta theta j) : plot_shape F theta =
    .ok [curve "<b>Stator</b>" F.nz F.z_list fun i => F.re i j, curve "<b>Rotor</b>" F.nz F.z_list fun i => F.ri i j] := by
  simp only [plot_shape, axisAt_of hj, line_eq]
  rfl

/-- **C127 (partial)** when one of the two pressures has been calculated, the figure around the bearing has its curve,
with each value at the angle of its column.  Missing: both, see `C127_round_false`. -/
theorem C127_round_partial {z : ℤ} {i : ℕ} (hi : StandsFor F.nz z i) :
    (F.numerical_pressure_matrix_available = true → F.analytical_pressure_matrix_available = false →
      plot_pressure_theta F z = .ok [roundNumerical F i]) ∧
    (F.numerical_pressure_matrix_available = false → F.analytical_pressure_matrix_available = true →
      plot_pressure_theta F z = .ok [roundAnalytical F i]) := by
  constructor <;> intro hn ha <;>
    · unfold plot_pressure_theta
      simp only [unavailable, hn, ha, axisAt_of hi, line_eq]
      rfl

/-- **C127 (negation)** when both pressures have been calculated, the figure around the bearing does not have the one
by the formulas. -/
theorem C127_round_false {z : ℤ} {i : ℕ} (hi : StandsFor F.nz z i) (hn : F.numerical_pressure_matrix_available = true)
    (_ha : F.analytical_pressure_matrix_available = true) :
    ∃ cs, plot_pressure_theta F z = .ok cs ∧ roundNumerical F i ∈ cs ∧ roundAnalytical F i ∉ cs := by
  refine ⟨[roundNumerical F i], ?_, by simp, ?_⟩
  · unfold plot_pressure_theta
    simp only [unavailable, hn, axisAt_of hi, line_eq]
    rfl
  · intro hc
    have := congrArg FilmPlots.Curve.name (List.mem_singleton.1 hc)
    simp [roundNumerical, roundAnalytical, curve] at this

/-- **C127 (partial)** the surface has all values of the pressure by finite differences, each over its place on the
axis and its angle.  Missing: the pressure by the formulas, see `C127_surface_false`. -/
theorem C127_surface_partial (hz : 0 < F.nz) (hn : F.numerical_pressure_matrix_available = true) :
    ∃ S, plot_pressure_surface F = .ok (some S) ∧ S.x.length = F.ntheta ∧ S.y.length = F.ntheta ∧
      S.z.length = F.ntheta ∧ ∀ i < F.ntheta,
        S.x[i]? = some (List.ofFn fun j : Fin F.nz => F.z_list j) ∧
        S.y[i]? = some (List.ofFn fun _ : Fin F.nz => F.gama 0 i) ∧
        S.z[i]? = some (List.ofFn fun j : Fin F.nz => F.p_mat_numerical j i) := by
  have h0 : axisAt F.nz 0 = .ok 0 := axisAt_of ⟨hz, Or.inl rfl⟩
  refine ⟨_, by simp only [plot_pressure_surface, unavailable, hn, h0]; rfl, by simp, by simp [line], by simp, ?_⟩
  intro i hi
  refine ⟨?_, ?_, ?_⟩
  · rw [List.getElem?_replicate, if_pos hi, line_eq]
  · simp [line, hi]
  · simp [hi, line_eq]

/-- **C127 (negation)** when only the pressure by the formulas has been calculated, the figure is made and has no
surface. -/
theorem C127_surface_false (hn : F.numerical_pressure_matrix_available = false)
    (ha : F.analytical_pressure_matrix_available = true) : plot_pressure_surface F = .ok none := by
  simp [plot_pressure_surface, unavailable, hn, ha]

/-- **C127** the bars of the figure on polar axes: 50 for each column, from the radius of the rotor to that of the
stator.  A bar inside the rotor has the value 0.  The others have the pressure of the column asked for above the least
one, plus 0.01. -/
theorem C127_ring {z : ℤ} {k : ℕ} (hk : StandsFor F.nz z k) (ht : 0 < F.ntheta) (b : Bool) (hav :
    F.numerical_pressure_matrix_available = true ∨ F.analytical_pressure_matrix_available = true) :
    ∃ bars P m, plot_pressure_theta_cylindrical F z b = .ok bars ∧ bars.length = F.ntheta * 50 ∧ Asked F b P ∧
      (∀ i < F.ntheta, m ≤ P k i) ∧ (∃ i < F.ntheta, m = P k i) ∧
      ∀ i < F.ntheta, ∀ j < 50, ∃ bar, bars[i * 50 + j]? = some bar ∧
        bar.r = F.radius_rotor + j * (F.radius_stator - F.radius_rotor) / 49 ∧
        (bar.r < dist0 (F.xri k i, F.yri k i) → bar.value = 0) ∧
        (dist0 (F.xri k i, F.yri k i) ≤ bar.r → bar.value = P k i - m + 0.01) := by
  have hu : unavailable F = false := by
    unfold unavailable
    rcases hav with h | h <;> simp [h]
  obtain ⟨m, hm, hlo, hex⟩ := minOf_line ht (chosen F b k)
  refine ⟨_, chosen F b, m, by
    rw [plot_pressure_theta_cylindrical, if_neg (by simp [hu]), axisAt_of hk]
    exact BearingLemmas.bind_ok.2 ⟨k, rfl, BearingLemmas.bind_ok.2 ⟨m, hm, rfl⟩⟩, by simp, ?_, hlo,
    hex, ?_⟩
  · unfold Asked chosen
    constructor
    · rintro h (h' | h') <;> simp [h, h']
    · rintro h (h' | h') <;> simp [h, h']
  · intro i hi j hj
    have hlt : i * 50 + j < F.ntheta * 50 := by omega
    have hd : (i * 50 + j) / 50 = i := by omega
    have hm' : (i * 50 + j) % 50 = j := by omega
    have hr : (linspace F.radius_rotor F.radius_stator 50).getD j 0 =
        F.radius_rotor + j * (F.radius_stator - F.radius_rotor) / 49 := by
      rw [List.getD_eq_getElem?_getD, linspace]
      simp only [List.getElem?_map, List.getElem?_range hj, Option.map_some, Option.getD_some]
      norm_num
      ring
    have hp : (line F.ntheta (chosen F b k)).getD i 0 = chosen F b k i := by
      rw [List.getD_eq_getElem?_getD, line]
      simp [hi]
    have hs : dist0 (F.xri k i, F.yri k i) = Real.sqrt (F.xri k i * F.xri k i + F.yri k i * F.yri k i) := by
      simp only [dist0, pow_two]
    refine ⟨_, by rw [List.getElem?_map, List.getElem?_range hlt, Option.map_some], ?_, ?_, ?_⟩
    · simp only [hm', hr]
    · simp only [hd, hm', hr, hp, hs]
      intro h
      rw [if_pos h]
    · simp only [hd, hm', hr, hp, hs]
      intro h
      rw [if_neg (not_lt.2 h)]

/-- What the figure on polar axes says of a film: the bars inside the rotor are below all others, and those in the
film differ as the pressures do. -/
theorem C127_ring_film {z : ℤ} {k : ℕ} (hk : StandsFor F.nz z k) (ht : 0 < F.ntheta) (b : Bool) (hav :
    F.numerical_pressure_matrix_available = true ∨ F.analytical_pressure_matrix_available = true) :
    ∃ bars P, plot_pressure_theta_cylindrical F z b = .ok bars ∧ Asked F b P ∧
      ∀ i < F.ntheta, ∀ j < 50, ∀ i' < F.ntheta, ∀ j' < 50, ∀ bar bar', bars[i * 50 + j]? = some bar →
        bars[i' * 50 + j']? = some bar' → dist0 (F.xri k i, F.yri k i) ≤ bar.r →
        (dist0 (F.xri k i', F.yri k i') ≤ bar'.r → bar.value - bar'.value = P k i - P k i') ∧
        (bar'.r < dist0 (F.xri k i', F.yri k i') → bar'.value < bar.value) := by
  obtain ⟨bars, P, m, h1, -, h2, hlo, -, h3⟩ := C127_ring hk ht b hav
  refine ⟨bars, P, h1, h2, ?_⟩
  intro i hi j hj i' hi' j' hj' bar bar' e e' hf
  obtain ⟨x, ex, -, -, hx⟩ := h3 i hi j hj
  obtain ⟨y, ey, -, hy, hy'⟩ := h3 i' hi' j' hj'
  cases Option.some.inj (e.symm.trans ex)
  cases Option.some.inj (e'.symm.trans ey)
  constructor
  · intro hf'
    rw [hx hf, hy' hf']
    ring
  · intro hf'
    rw [hx hf, hy hf']
    have := hlo i hi
    norm_num
    linarith

theorem ring_angle {z : ℤ} {b : Bool} {bars : List Bar} (h : plot_pressure_theta_cylindrical F z b = .ok bars)
    (hn : 2 ≤ F.ntheta) {i j : ℕ} (hi : i < F.ntheta) (hj : j < 50) {bar : Bar} (hb : bars[i * 50 + j]? = some bar) :
    bar.theta = (i * F.dtheta + i * (F.dtheta / 2 / (F.ntheta - 1))) * (180 / Real.pi) := by
  unfold plot_pressure_theta_cylindrical at h
  split_ifs at h
  obtain ⟨k, hk, h⟩ := BearingLemmas.bind_ok.1 h
  obtain ⟨m, hm, h⟩ := BearingLemmas.bind_ok.1 h
  cases Except.ok.inj h
  have hlt : i * 50 + j < F.ntheta * 50 := by omega
  rw [List.getElem?_map, List.getElem?_range hlt, Option.map_some] at hb
  cases Option.some.inj hb
  have hd : (i * 50 + j) / 50 = i := by omega
  simp only [hd]
  rw [List.getD_eq_getElem?_getD, List.getElem?_map, linspace, List.getElem?_map, List.getElem?_range hi]
  simp only [Option.map_some, Option.getD_some]
  rw [if_neg (by omega)]
  simp only [FluidFlow.dtheta]
  ring

theorem gama_step {G H : FluidFlow} (hG : F.geometry_description = .ok G) (hg : H.gama = G.gama)
    (ht : H.ntheta = G.ntheta) (hn : 2 ≤ H.ntheta) (k i : ℕ) :
    H.gama k i - H.gama k 0 = i * H.dtheta ∧ 0 < H.dtheta ∧ (0 : ℝ) < H.ntheta - 1 := by
  have h1 : (0 : ℝ) < H.ntheta - 1 := by
    have : (2 : ℝ) ≤ H.ntheta := by exact_mod_cast hn
    linarith
  refine ⟨?_, div_pos (by positivity) h1, h1⟩
  simp only [hg, FluidFlow.dtheta, ht]
  unfold FluidFlow.geometry_description at hG
  split at hG
  · cases hG
  · cases hG
    simp [FluidFlow.angle, FluidFlow.dtheta]

/-- **C127 (partial)** the bars of the first column are at angle 0, and the angle of no column is off by more than half
a step of the grid.  Missing: the other angles are too large, see `C127_ring_false`. -/
theorem C127_ring_partial {G H : FluidFlow} (hG : F.geometry_description = .ok G) (hg : H.gama = G.gama)
    (ht : H.ntheta = G.ntheta) (hn : 2 ≤ H.ntheta) {z : ℤ} {b : Bool} {bars : List Bar} (h : plot_pressure_theta_cylindrical H z b = .ok bars) (k : ℕ) {i j : ℕ} (hi : i < H.ntheta)
    (hj : j < 50) {bar : Bar} (hb : bars[i * 50 + j]? = some bar) :
    (i = 0 → bar.theta = 0) ∧ |bar.theta - (H.gama k i - H.gama k 0) * (180 / Real.pi)| ≤
      (H.gama k 1 - H.gama k 0) / 2 * (180 / Real.pi) := by
  have ha := ring_angle h hn hi hj hb
  obtain ⟨g1, g2, g3⟩ := gama_step hG hg ht hn k i
  obtain ⟨g4, -, -⟩ := gama_step hG hg ht hn k 1
  have hpi : 0 < 180 / Real.pi := by positivity
  have hi' : (i : ℝ) ≤ H.ntheta - 1 := by
    have : ((i + 1 : ℕ) : ℝ) ≤ H.ntheta := by exact_mod_cast hi
    push_cast at this
    linarith
  constructor
  · intro h0
    rw [ha, h0]
    simp
  · have e : bar.theta - (H.gama k i - H.gama k 0) * (180 / Real.pi) =
        (i / (H.ntheta - 1)) * (H.dtheta / 2) * (180 / Real.pi) := by
      rw [ha, g1]
      ring
    have hq : (i : ℝ) / (H.ntheta - 1) ≤ 1 := (div_le_one g3).2 hi'
    have hq0 : 0 ≤ (i : ℝ) / (H.ntheta - 1) := by positivity
    rw [e, g4, abs_of_nonneg (by positivity)]
    refine mul_le_mul_of_nonneg_right ?_ hpi.le
    nlinarith

/-- **C127 (negation)** all columns but the first are drawn at an angle larger than theirs, the last one by half a step
of the grid. -/
theorem C127_ring_false {G H : FluidFlow} (hG : F.geometry_description = .ok G) (hg : H.gama = G.gama)
    (ht : H.ntheta = G.ntheta) (hn : 2 ≤ H.ntheta) {z : ℤ} {b : Bool} {bars : List Bar} (h : plot_pressure_theta_cylindrical H z b = .ok bars) (k : ℕ) {i j : ℕ} (hi : i < H.ntheta)
    (hj : j < 50) {bar : Bar} (hb : bars[i * 50 + j]? = some bar) :
    (0 < i → (H.gama k i - H.gama k 0) * (180 / Real.pi) < bar.theta) ∧
    (i + 1 = H.ntheta → bar.theta - (H.gama k i - H.gama k 0) * (180 / Real.pi) =
      (H.gama k 1 - H.gama k 0) / 2 * (180 / Real.pi)) := by
  have ha := ring_angle h hn hi hj hb
  obtain ⟨g1, g2, g3⟩ := gama_step hG hg ht hn k i
  obtain ⟨g4, -, -⟩ := gama_step hG hg ht hn k 1
  have hpi : 0 < 180 / Real.pi := by positivity
  have e : bar.theta - (H.gama k i - H.gama k 0) * (180 / Real.pi) =
      (i / (H.ntheta - 1)) * (H.dtheta / 2) * (180 / Real.pi) := by
    rw [ha, g1]
    ring
  constructor
  · intro h0
    have h0' : (0 : ℝ) < i := by exact_mod_cast h0
    have : 0 < (i / (H.ntheta - 1)) * (H.dtheta / 2) * (180 / Real.pi) := by positivity
    linarith
  · intro hl
    have hl' : (i : ℝ) = H.ntheta - 1 := by
      have : ((i + 1 : ℕ) : ℝ) = H.ntheta := by exact_mod_cast hl
      push_cast at this
      linarith
    rw [e, g4, hl', div_self g3.ne']
    simp

/-- **C128** a scale outside 0 to 1 is refused. -/
theorem C128_refused {z : ℤ} {scale : ℝ} (h : scale < 0 ∨ 1 < scale) : plot_eccentricity F z scale = .error .valueError := by
  unfold plot_eccentricity
  rw [if_pos]
  rintro ⟨h1, h2⟩
  rcases h with h | h <;> linarith

theorem section_at {z : ℤ} {k : ℕ} (hk : StandsFor F.nz z k) (ht : 0 < F.ntheta) {scale : ℝ} (h0 : 0 ≤ scale)
    (h1 : scale ≤ 1) : ∃ a b S, plot_eccentricity F z scale = .ok S ∧
      (∀ j < F.ntheta, a ≤ dist0 (F.xre k j, F.yre k j) - (1 + scale) / 2 * dist0 (F.xri k j, F.yri k j)) ∧
      (∃ j < F.ntheta, a = dist0 (F.xre k j, F.yre k j) - (1 + scale) / 2 * dist0 (F.xri k j, F.yri k j)) ∧
      (∀ j < F.ntheta, b ≤ dist0 (F.xre k j, F.yre k j) - dist0 (F.xri k j, F.yri k j)) ∧
      (∃ j < F.ntheta, b = dist0 (F.xre k j, F.yre k j) - dist0 (F.xri k j, F.yri k j)) ∧
      S.stator = (List.ofFn fun j : Fin F.ntheta => (F.xre k j, F.yre k j)) ∧
      S.rotor = (List.ofFn fun j : Fin F.ntheta =>
        ((1 + scale) / 2 * F.xri k j + (1 + scale) / 2 * (a - b) * Real.sin F.attitude_angle,
         (1 + scale) / 2 * F.yri k j - (1 + scale) / 2 * (a - b) * Real.cos F.attitude_angle)) ∧
      S.rotorCentre = ((1 + scale) / 2 * F.xi + (1 + scale) / 2 * (a - b) * Real.sin F.attitude_angle,
        (1 + scale) / 2 * F.yi - (1 + scale) / 2 * (a - b) * Real.cos F.attitude_angle) ∧
      S.statorCentre = (0, 0) := by
  set s := (1 + scale) / 2 with hs
  have hs0 : 0 ≤ s := by linarith
  have hse : 0.5 * scale + 0.5 = s := by rw [hs]; norm_num; ring
  have hsq : ∀ j, Real.sqrt ((F.xri k j * s) ^ 2 + (F.yri k j * s) ^ 2) = s * dist0 (F.xri k j, F.yri k j) := by
    intro j
    have : (F.xri k j * s) ^ 2 + (F.yri k j * s) ^ 2 = s ^ 2 * (F.xri k j ^ 2 + F.yri k j ^ 2) := by ring
    rw [this, Real.sqrt_mul (sq_nonneg s), Real.sqrt_sq hs0]
    rfl
  obtain ⟨a, ha, ha1, ha2⟩ := minOf_line ht fun j =>
    Real.sqrt (F.xre k j ^ 2 + F.yre k j ^ 2) - Real.sqrt ((F.xri k j * s) ^ 2 + (F.yri k j * s) ^ 2)
  obtain ⟨b, hb, hb1, hb2⟩ := minOf_line ht fun j =>
    Real.sqrt (F.xre k j ^ 2 + F.yre k j ^ 2) - Real.sqrt (F.xri k j ^ 2 + F.yri k j ^ 2)
  have hmap : ∀ f : ℕ → ℝ × ℝ, (List.range F.ntheta).map f = List.ofFn fun j : Fin F.ntheta => f j := by
    intro f
    rw [List.ofFn_eq_map, ← List.map_coe_finRange_eq_range, List.map_map]
    rfl
  refine ⟨a, b, _, by
    rw [plot_eccentricity, if_neg (not_not.2 ⟨h0, h1⟩)]
    simp only [hse]
    exact BearingLemmas.bind_ok.2 ⟨k, axisAt_of hk, BearingLemmas.bind_ok.2 ⟨a, ha, BearingLemmas.bind_ok.2 ⟨b, hb, rfl⟩⟩⟩,
    ?_, ?_, hb1, hb2, hmap _, ?_, ?_, rfl⟩
  · intro j hj
    have := ha1 j hj
    rw [hsq] at this
    exact this
  · obtain ⟨j, hj, e⟩ := ha2
    rw [hsq] at e
    exact ⟨j, hj, e⟩
  · simp only [mul_comm]
    exact hmap _
  · simp only [mul_comm]

/-- **C128** at scale 1 the figure has the points of the stator, of the rotor and of the centres as they are. -/
theorem C128_true {z : ℤ} {k : ℕ} (hk : StandsFor F.nz z k) (ht : 0 < F.ntheta) : plot_eccentricity F z 1 = .ok
    ⟨List.ofFn fun j : Fin F.ntheta => (F.xre k j, F.yre k j), List.ofFn fun j : Fin F.ntheta => (F.xri k j, F.yri k j),
      (F.xi, F.yi), (0, 0)⟩ := by
  obtain ⟨a, b, ⟨S1, S2, S3, S4⟩, h, ha1, ⟨j, hj, ha2⟩, hb1, ⟨j', hj', hb2⟩, e1, e2, e3, e4⟩ :=
    section_at hk ht (zero_le_one) (le_refl 1)
  have hab : a = b := by
    norm_num at ha1 ha2
    exact le_antisymm (hb2 ▸ ha1 j' hj') (ha2 ▸ hb1 j hj)
  subst hab
  simp only at e1 e2 e3 e4
  rw [h, e1, e2, e3, e4]
  norm_num

/-- **C128** at any scale from 0 to 1 the stator is drawn as it is and the rotor with its centre true to shape: a
rotor of half to full size, moved as a whole. -/
theorem C128_similar {z : ℤ} {k : ℕ} (hk : StandsFor F.nz z k) (ht : 0 < F.ntheta) {scale : ℝ} (h0 : 0 ≤ scale)
    (h1 : scale ≤ 1) : ∃ S, plot_eccentricity F z scale = .ok S ∧
      S.stator = (List.ofFn fun j : Fin F.ntheta => (F.xre k j, F.yre k j)) ∧ S.statorCentre = (0, 0) ∧
      S.rotor.length = F.ntheta ∧ ∀ j < F.ntheta, ∃ p, S.rotor[j]? = some p ∧
        p.1 - S.rotorCentre.1 = (1 + scale) / 2 * (F.xri k j - F.xi) ∧
        p.2 - S.rotorCentre.2 = (1 + scale) / 2 * (F.yri k j - F.yi) := by
  obtain ⟨a, b, S, h, -, -, -, -, e1, e2, e3, e4⟩ := section_at hk ht h0 h1
  refine ⟨S, h, e1, e4, by rw [e2]; simp, fun j hj => ?_⟩
  refine ⟨_, by rw [e2, List.getElem?_ofFn, dif_pos hj], ?_, ?_⟩
  · rw [e3]
    ring
  · rw [e3]
    ring

/-- **C128** in a round stator the rotor is not drawn across the stator, at any scale. -/
theorem C128_inside {z : ℤ} {k : ℕ} (hk : StandsFor F.nz z k) (ht : 0 < F.ntheta) {scale R : ℝ} (h0 : 0 ≤ scale)
    (h1 : scale ≤ 1) (hround : ∀ j < F.ntheta, dist0 (F.xre k j, F.yre k j) = R)
    (hin : ∀ j < F.ntheta, dist0 (F.xri k j, F.yri k j) ≤ R) :
    ∃ S, plot_eccentricity F z scale = .ok S ∧ ∀ p ∈ S.rotor, dist0 p ≤ R := by
  obtain ⟨a, b, S, h, ha1, ⟨j₁, hj₁, ha2⟩, hb1, ⟨j₂, hj₂, hb2⟩, -, e2, -, -⟩ := section_at hk ht h0 h1
  refine ⟨S, h, ?_⟩
  intro p hp
  rw [e2, List.mem_ofFn] at hp
  obtain ⟨j, rfl⟩ := hp
  set s := (1 + scale) / 2 with hs
  have hs0 : 0 ≤ s := by linarith
  have hs1 : s ≤ 1 := by linarith
  set ρ : ℕ → ℝ := fun j => dist0 (F.xri k j, F.yri k j) with hρ
  have hρ0 : ∀ j, 0 ≤ ρ j := fun j => Real.sqrt_nonneg _
  -- the point nearest to the stator
  have hmax : ∀ j < F.ntheta, ρ j ≤ ρ j₂ := by
    intro j hj
    have := hb1 j hj
    rw [hb2, hround j hj, hround j₂ hj₂] at this
    linarith
  have hab : a - b = (1 - s) * ρ j₂ := by
    have hb' : b = R - ρ j₂ := by rw [hb2, hround j₂ hj₂]
    have ha' : a = R - s * ρ j₂ := by
      refine le_antisymm ?_ ?_
      · have := ha1 j₂ hj₂
        rwa [hround j₂ hj₂] at this
      · rw [ha2, hround j₁ hj₁]
        have := mul_le_mul_of_nonneg_left (hmax j₁ hj₁) hs0
        linarith
    rw [ha', hb']
    ring
  have hd0 : 0 ≤ s * (a - b) := by
    rw [hab]
    exact mul_nonneg hs0 (mul_nonneg (by linarith) (hρ0 _))
  -- the triangle inequality
  have htri : dist0 (s * F.xri k j + s * (a - b) * Real.sin F.attitude_angle,
      s * F.yri k j - s * (a - b) * Real.cos F.attitude_angle) ≤ s * ρ j + s * (a - b) := by
    unfold dist0
    refine Real.sqrt_le_iff.2 ⟨add_nonneg (mul_nonneg hs0 (hρ0 _)) hd0, ?_⟩
    have hsq : ρ j ^ 2 = F.xri k j ^ 2 + F.yri k j ^ 2 := Real.sq_sqrt (by positivity)
    have hcs : F.xri k j * Real.sin F.attitude_angle - F.yri k j * Real.cos F.attitude_angle ≤ ρ j := by
      refine Real.le_sqrt_of_sq_le ?_
      have := Real.sin_sq_add_cos_sq F.attitude_angle
      nlinarith [sq_nonneg (F.xri k j * Real.cos F.attitude_angle + F.yri k j * Real.sin F.attitude_angle)]
    have h2 := mul_le_mul_of_nonneg_left hcs (mul_nonneg hs0 hd0)
    have h3 := Real.sin_sq_add_cos_sq F.attitude_angle
    have h4 : (s * (a - b)) ^ 2 * (Real.sin F.attitude_angle ^ 2 + Real.cos F.attitude_angle ^ 2) = (s * (a - b)) ^ 2 := by
      rw [h3, mul_one]
    have h8 : s ^ 2 * ρ j ^ 2 = s ^ 2 * (F.xri k j ^ 2 + F.yri k j ^ 2) := by rw [hsq]
    simp only
    linear_combination 2 * h2 + h4 - h8
  refine htri.trans ?_
  rw [hab]
  have h5 := mul_le_mul_of_nonneg_left (hmax j j.2) hs0
  have h6 := hin j₂ hj₂
  have h7 : 0 ≤ (1 - s) ^ 2 * ρ j₂ := mul_nonneg (sq_nonneg _) (hρ0 _)
  change ρ j₂ ≤ R at h6
  nlinarith

/-- **C128** so it is in all cylindrical bearings in which the rotor has room. -/
theorem C128_cylindrical {G : FluidFlow} (hG : F.geometry_description = .ok G) (hs : F.shape_geometry = "cylindrical")
    (he : |F.eccentricity| < F.radius_rotor) (hroom : |F.eccentricity| ≤ F.radius_stator - F.radius_rotor) {z : ℤ}
    {k : ℕ} (hk : StandsFor G.nz z k) (ht : 0 < G.ntheta) {scale : ℝ} (h0 : 0 ≤ scale) (h1 : scale ≤ 1) :
    ∃ S, plot_eccentricity G z scale = .ok S ∧ (∀ p ∈ S.stator, dist0 p = F.radius_stator) ∧
      ∀ p ∈ S.rotor, dist0 p ≤ F.radius_stator := by
  have habs := abs_nonneg F.eccentricity
  have hst : ∀ j, dist0 (G.xre k j, G.yre k j) = F.radius_stator := by
    intro j
    unfold FluidFlow.geometry_description at hG
    split at hG
    · cases hG
    · cases hG
      have : (F.radius_stator * Real.cos (F.angle j)) ^ 2 + (F.radius_stator * Real.sin (F.angle j)) ^ 2 =
          F.radius_stator ^ 2 := by
        have := Real.sin_sq_add_cos_sq (F.angle j)
        nlinarith
      simp only [dist0, FluidFlow.externalVal, FluidFlow.external, external_radius_function, hs]
      simp only [String.reduceEq, if_false]
      rw [this, Real.sqrt_sq (by linarith)]
  have hro : ∀ j, dist0 (G.xri k j, G.yri k j) ≤ F.radius_stator := by
    intro j
    obtain ⟨-, -, hc⟩ := C74_grid hG he k j
    have hcs := FluidLemmas.centre_sq F.eccentricity F.attitude_angle
    unfold Spec.Fluid.OnCircle at hc
    set c := Spec.Fluid.centre F.eccentricity F.attitude_angle
    refine Real.sqrt_le_iff.2 ⟨by linarith, ?_⟩
    simp only at hc ⊢
    set u := G.xri k j - c.1
    set v := G.yri k j - c.2
    have hx : G.xri k j = u + c.1 := by simp [u]
    have hy : G.yri k j = v + c.2 := by simp [v]
    have hdot : u * c.1 + v * c.2 ≤ F.radius_rotor * |F.eccentricity| := by
      refine abs_le_of_sq_le_sq' ?_ (by nlinarith) |>.2
      rw [mul_pow, sq_abs, ← hc, ← hcs]
      nlinarith [sq_nonneg (u * c.2 - v * c.1)]
    rw [hx, hy]
    have hle : (F.radius_rotor + |F.eccentricity|) ^ 2 ≤ F.radius_stator ^ 2 :=
      pow_le_pow_left₀ (by linarith) (by linarith) 2
    have hsq := sq_abs F.eccentricity
    nlinarith
  obtain ⟨S, hS, hin⟩ := C128_inside hk ht h0 h1 (fun j _ => hst j) (fun j _ => hro j)
  obtain ⟨S', hS', e, -⟩ := C128_similar hk ht h0 h1
  cases Except.ok.inj (hS.symm.trans hS')
  refine ⟨S, hS, ?_, hin⟩
  intro p hp
  rw [e, List.mem_ofFn] at hp
  obtain ⟨j, rfl⟩ := hp
  exact hst j

/-- The film of the example after the pressure by the formulas has been calculated: the figures have the row asked for,
the one before the last, and the columns of the bars but the first are drawn too far. -/
example : ∃ G H : FluidFlow, FluidFlow.geometry_description { blank exFlowArgs with eccentricity := 0.0001 } = .ok G ∧
    G.calculate_pressure_matrix_analytical 0 (some "short") = .ok H ∧ H.gama = G.gama ∧ H.ntheta = G.ntheta ∧
    H.ntheta = 32 ∧ StandsFor H.nz (-2) 6 ∧ plot_pressure_theta H (-2) = .ok [roundAnalytical H 6] ∧
    plot_pressure_surface H = .ok none ∧
    (∃ bars bar, plot_pressure_theta_cylindrical H (-2) true = .ok bars ∧ bars[1 * 50 + 7]? = some bar ∧
      (H.gama 6 1 - H.gama 6 0) * (180 / Real.pi) < bar.theta) ∧
    ∃ S, plot_eccentricity G (-2) 0.5 = .ok S ∧ ∀ p ∈ S.rotor, dist0 p ≤ 0.2002 := by
  have hsh : ({ blank exFlowArgs with eccentricity := 0.0001 } : FluidFlow).shape_geometry = "cylindrical" := rfl
  have h2 : ∀ G : FluidFlow, G.shape_geometry = "cylindrical" → ∃ K, G.geometry_description = .ok K := by
    intro G hG
    unfold FluidFlow.geometry_description FluidFlow.external external_radius_function
    simp [hG]
  obtain ⟨G, hG⟩ := h2 _ hsh
  have hnz : G.nz = 8 ∧ G.ntheta = 32 ∧ G.numerical_pressure_matrix_available = false := by
    unfold FluidFlow.geometry_description at hG
    split at hG
    · cases hG
    · cases hG
      exact ⟨rfl, rfl, rfl⟩
  let H : FluidFlow := { G with p_mat_analytical := G.short_pressure_0, analytical_pressure_matrix_available := true }
  have hH : G.calculate_pressure_matrix_analytical 0 (some "short") = .ok H := by
    unfold FluidFlow.calculate_pressure_matrix_analytical
    rw [if_pos (Or.inr rfl), if_pos rfl]
  have hn : H.nz = 8 ∧ H.ntheta = 32 := ⟨hnz.1, hnz.2.1⟩
  have hk : StandsFor H.nz (-2) 6 := by
    rw [hn.1]
    exact ⟨by norm_num, Or.inr (by norm_num)⟩
  have ha : H.analytical_pressure_matrix_available = true := rfl
  have hN : H.numerical_pressure_matrix_available = false := hnz.2.2
  refine ⟨G, H, hG, hH, rfl, rfl, hn.2, hk, (C127_round_partial hk).2 hN ha, C127_surface_false hN ha, ?_, ?_⟩
  · obtain ⟨bars, P, m, hb, -, -, -, -, hall⟩ := C127_ring (F := H) hk (by rw [hn.2]; norm_num) true (Or.inr ha)
    obtain ⟨bar, hbar, -⟩ := hall 1 (by rw [hn.2]; norm_num) 7 (by norm_num)
    exact ⟨bars, bar, hb, hbar, (C127_ring_false (H := H) hG rfl rfl (by rw [hn.2]; norm_num) hb 6
      (by rw [hn.2]; norm_num) (by norm_num) hbar).1 (by norm_num)⟩
  · obtain ⟨S, hS, -, hr⟩ := C128_cylindrical hG hsh (z := -2) (k := 6) (scale := 0.5)
      (by norm_num [blank, exFlowArgs, abs_lt]) (by norm_num [blank, exFlowArgs, abs_le]) hk
      (by rw [hnz.2.1]; norm_num) (by norm_num) (by norm_num)
    exact ⟨S, hS, hr⟩

end Ross.Props
