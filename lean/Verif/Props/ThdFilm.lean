import Verif.Lemmas.Thd

/-!
# The film and the lubricants of thermohydrodynamic bearings (C90, C91)
-/

namespace Ross.Props

open Real Thd Thd.THD Spec.Thd

/-- A thermohydrodynamic bearing for examples, with two cells in each direction. -/
noncomputable def exThd (geometry : String) (n_pad : ℕ) : THD where
  axial_length := 1
  journal_radius := 1
  radial_clearance := 1
  elements_circumferential := 2
  elements_axial := 2
  n_pad := n_pad
  betha_s_dg := 90
  preload := 1 / 2
  geometry := geometry
  reference_temperature := 50
  load_x_direction := 3
  load_y_direction := -4
  fat_mixt := .list (List.replicate n_pad (1 / 2))
  sommerfeld_type := 2
  method := "perturbation"
  operating_type := "flooded"
  rho := 1
  Cp := 1
  k_t := 1
  a := 1
  b := 0
  speed := 1

/-- C90: in a circular bore the film is the gap between two circles, over the clearance. -/
theorem C90_circular {B : THD} (J : Journal) (n_p : ℕ) (t : ℝ) (h : B.geometry = "circular") :
    B.film J n_p t = gap 1 (0, 0) (J.X, J.Y) t := by
  unfold film gap
  rw [if_pos h]
  ring

/-- C90: the film of a lobe is the gap to a circle with the larger clearance `Cp`, where `preload = 1 - Cb / Cp`, which is
moved away from the pivot by `Cp - Cb`, so that at the pivot the clearance is `Cb`; over `Cb`. -/
theorem C90_lobe {B : THD} {Cb Cp : ℝ} (J : Journal) {n_p : ℕ} {pivot : ℝ} (t : ℝ) (h : B.geometry = "lobe")
    (hCb : 0 < Cb) (hCp : 0 < Cp) (hm : B.preload = 1 - Cb / Cp) (hp : [π / 2, 3 * π / 2][n_p]? = some pivot) :
    Cb * B.film J n_p t =
      gap Cp (-(Cp - Cb) * cos pivot, -(Cp - Cb) * sin pivot) (Cb * J.X, Cb * J.Y) t ∧
    gap Cp (-(Cp - Cb) * cos pivot, -(Cp - Cb) * sin pivot) (0, 0) pivot = Cb := by
  have hpv : theta_pivot.getD n_p 0 = pivot := by
    unfold theta_pivot
    match n_p, hp with
    | 0, hp => simp only [List.getElem?_cons_zero, Option.some.injEq] at hp; rw [← hp]; simp; ring
    | 1, hp => simp only [List.getElem?_cons_succ, List.getElem?_cons_zero, Option.some.injEq] at hp
               rw [← hp]; simp; ring
    | (k + 2), hp => simp at hp
  unfold film gap
  rw [if_neg (by rw [h]; decide), if_pos h, hpv, hm, cos_sub]
  have e : 1 - (1 - Cb / Cp) = Cb / Cp := by ring
  rw [e]
  refine ⟨?_, ?_⟩
  · field_simp
    ring
  · have := sin_sq_add_cos_sq pivot
    linear_combination (-Cp + Cb) * this

/-- C90: the film of an elliptical bore is the clearance of an ellipse, `Cp` and `Cb` along the axes, less the projection
of the position of the journal; over `Cb`. -/
theorem C90_elliptical {B : THD} {Cb Cp : ℝ} (J : Journal) (n_p : ℕ) (t : ℝ) (h : B.geometry = "elliptical")
    (hCb : 0 < Cb) (hCp : 0 < Cp) (hm : B.preload = 1 - Cb / Cp) :
    Cb * B.film J n_p t = ellipse Cp Cb t - Cb * (J.X * cos t + J.Y * sin t) := by
  unfold film ellipse
  rw [if_neg (by rw [h]; decide), if_neg (by rw [h]; decide), hm]
  have e : 1 - (1 - Cb / Cp) = Cb / Cp := by ring
  rw [e, sin_sq]
  field_simp
  ring

theorem projection_le {X Y e : ℝ} (he : 0 ≤ e) (h : X ^ 2 + Y ^ 2 ≤ e ^ 2) (t : ℝ) : X * cos t + Y * sin t ≤ e := by
  have h1 := sin_sq_add_cos_sq t
  have h2 : (X * cos t + Y * sin t) ^ 2 ≤ e ^ 2 := by
    nlinarith [sq_nonneg (X * sin t - Y * cos t)]
  exact abs_le_of_sq_le_sq' h2 he |>.2

/-- C90: in every geometry that is accepted, with a preload from 0 up to 1, the film of a journal at the relative
eccentricity `e` is nowhere thinner than `1 - e`; in a circular bore it is so thin on the line of the centres. -/
theorem C90_thickness {B : THD} {J : Journal} {e : ℝ} (n_p : ℕ)
    (hm0 : 0 ≤ B.preload) (hm1 : B.preload < 1) (he : 0 ≤ e) (hJ : J.X ^ 2 + J.Y ^ 2 ≤ e ^ 2) (t : ℝ) :
    1 - e ≤ B.film J n_p t := by
  have hp := projection_le he hJ t
  have h1 : (0 : ℝ) < 1 - B.preload := by linarith
  unfold film
  split_ifs with hc hl
  · linarith
  · have hcos := cos_le_one (t - theta_pivot.getD n_p 0)
    have h2 : B.preload / (1 - B.preload) * cos (t - theta_pivot.getD n_p 0) ≤ B.preload / (1 - B.preload) * 1 :=
      mul_le_mul_of_nonneg_left hcos (by positivity)
    have h3 : 1 / (1 - B.preload) - B.preload / (1 - B.preload) = 1 := by field_simp
    linarith
  · have : 0 ≤ B.preload / (1 - B.preload) * cos t ^ 2 := by positivity
    linarith

/-- C90: this bound is reached. -/
theorem C90_thinnest {B : THD} {J : Journal} {e t : ℝ} (n_p : ℕ) (h : B.geometry = "circular")
    (hX : J.X = e * cos t) (hY : J.Y = e * sin t) : B.film J n_p t = 1 - e := by
  unfold film
  rw [if_pos h, hX, hY]
  linear_combination -e * sin_sq_add_cos_sq t

example : (exThd "circular" 1).film_check 0 = .ok () ∧ (exThd "lobe" 2).film_check 1 = .ok () ∧
    (exThd "elliptical" 2).film_check 1 = .ok () := by
  refine ⟨rfl, ?_, ?_⟩
  · unfold film_check
    rw [if_neg (by show ¬("lobe" = "circular"); decide), if_pos (show (exThd "lobe" 2).geometry = "lobe" from rfl),
      if_neg (by show ¬((1 / 2 : ℝ) = 1); norm_num), if_neg (by simp [theta_pivot])]
  · unfold film_check
    rw [if_neg (by show ¬("elliptical" = "circular"); decide), if_neg (by show ¬("elliptical" = "lobe"); decide),
      if_pos (show (exThd "elliptical" 2).geometry = "elliptical" from rfl),
      if_neg (by show ¬((1 / 2 : ℝ) = 1); norm_num)]

/-- C90: other geometries are refused, and lobes with more than two pads. -/
theorem C90_refused (B : THD) (n_p : ℕ) :
    (B.geometry ∉ ["circular", "lobe", "elliptical"] → B.film_check n_p = .error .nameError) ∧
    (B.geometry = "lobe" → B.preload ≠ 1 → (B.film_check n_p = .ok () ↔ n_p < 2)) := by
  constructor
  · intro h
    simp only [List.mem_cons, List.not_mem_nil, or_false, not_or] at h
    unfold film_check
    rw [if_neg h.1, if_neg h.2.1, if_neg h.2.2]
  · intro h h1
    unfold film_check
    rw [if_neg (by rw [h]; decide), if_pos h, if_neg h1]
    have : theta_pivot.length = 2 := rfl
    rw [this]
    split_ifs with h2
    · exact ⟨fun h => (by cases h), fun h => (by omega)⟩
    · exact ⟨fun _ => by omega, fun _ => rfl⟩

/-- C91: the viscosity is that of the lubricant at both temperatures of the table, is positive at all temperatures above
0 °C and falls with the temperature. -/
theorem C91_viscosity {env : Env} (hfit : FitOk env.curve_fit) {name : String} {L : Lubricant}
    (hL : (name, L) ∈ lubricant_dict) :
    (interpol env L).1 * (L.temp1 - 273.15) ^ (interpol env L).2 = L.viscosity1 ∧
    (interpol env L).1 * (L.temp2 - 273.15) ^ (interpol env L).2 = L.viscosity2 ∧
    (∀ T : ℝ, 0 < T → 0 < (interpol env L).1 * T ^ (interpol env L).2) ∧
    (∀ T T' : ℝ, 0 < T → T < T' →
      (interpol env L).1 * T' ^ (interpol env L).2 < (interpol env L).1 * T ^ (interpol env L).2) := by
  have hv : L.temp1 - 273.15 = 40 ∧ L.temp2 - 273.15 = 100 ∧ 0 < L.viscosity2 ∧ L.viscosity2 < L.viscosity1 := by
    simp only [lubricant_dict, List.mem_cons, List.not_mem_nil, or_false, Prod.mk.injEq] at hL
    rcases hL with ⟨-, rfl⟩ | ⟨-, rfl⟩ | ⟨-, rfl⟩ | ⟨-, rfl⟩ <;> norm_num [reyn]
  obtain ⟨h1, h2, h3, h4⟩ := hv
  obtain ⟨f1, f2⟩ := hfit (L.temp1 - 273.15, L.temp2 - 273.15) (L.viscosity1, L.viscosity2) (by rw [h1]; norm_num)
    (by show 0 < L.temp2 - 273.15; rw [h2]; norm_num)
    (by show L.temp1 - 273.15 ≠ L.temp2 - 273.15; rw [h1, h2]; norm_num) (h3.trans h4) h3
  change (interpol env L).1 * (L.temp1 - 273.15) ^ (interpol env L).2 = L.viscosity1 at f1
  change (interpol env L).1 * (L.temp2 - 273.15) ^ (interpol env L).2 = L.viscosity2 at f2
  generalize (interpol env L).1 = a at *
  generalize (interpol env L).2 = b at *
  have ha : 0 < a := by
    have h5 : 0 < a * (L.temp1 - 273.15) ^ b := by rw [f1]; linarith
    exact pos_of_mul_pos_left h5 (rpow_nonneg (by rw [h1]; norm_num) _)
  have hb : b < 0 := by
    by_contra hb
    push Not at hb
    have h6 : (40 : ℝ) ^ b ≤ 100 ^ b := rpow_le_rpow (by norm_num) (by norm_num) hb
    rw [h1] at f1
    rw [h2] at f2
    nlinarith
  refine ⟨f1, f2, fun T hT => mul_pos ha (rpow_pos_of_pos hT b), fun T T' hT hTT => ?_⟩
  exact mul_lt_mul_of_pos_left (rpow_lt_rpow_of_neg hT hTT hb) ha

/-- There is such a fit. -/
example : ∃ fit, FitOk fit := by
  classical
  refine ⟨fun x y => (y.1 / x.1 ^ (log (y.1 / y.2) / log (x.1 / x.2)), log (y.1 / y.2) / log (x.1 / x.2)),
    fun x y h1 h2 h12 h3 h4 => ?_⟩
  have hlog : log (x.1 / x.2) ≠ 0 := by
    refine log_ne_zero_of_pos_of_ne_one (by positivity) ?_
    rw [ne_eq, div_eq_one_iff_eq h2.ne']
    exact h12
  constructor
  · show y.1 / x.1 ^ _ * x.1 ^ _ = y.1
    exact div_mul_cancel₀ _ (rpow_pos_of_pos h1 _).ne'
  · show y.1 / x.1 ^ _ * x.2 ^ _ = y.2
    have e : (x.1 / x.2) ^ (log (y.1 / y.2) / log (x.1 / x.2)) = y.1 / y.2 := by
      rw [rpow_def_of_pos (by positivity), mul_div_cancel₀ _ hlog, exp_log (by positivity)]
    rw [div_rpow h1.le h2.le] at e
    have p1 := (rpow_pos_of_pos h1 (log (y.1 / y.2) / log (x.1 / x.2)))
    have p2 := (rpow_pos_of_pos h2 (log (y.1 / y.2) / log (x.1 / x.2)))
    generalize x.1 ^ (log (y.1 / y.2) / log (x.1 / x.2)) = u at *
    generalize x.2 ^ (log (y.1 / y.2) / log (x.1 / x.2)) = v at *
    field_simp at e ⊢
    linarith

end Ross.Props
