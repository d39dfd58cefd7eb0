import Mathlib.Analysis.Calculus.MeanValue
import Mathlib.Analysis.SpecialFunctions.Trigonometric.Deriv
import Verif.Lemmas.FluidCoef
import Verif.Spec.FluidFilm

/-!
# Solutions of the equations of short and long bearings
-/

namespace Ross.FluidLemmas

open Real Fluid Spec.Fluid Fluid.FluidFlow

theorem film_deriv (c e t : ℝ) : HasDerivAt (film c e) (-(e * sin t)) t := by
  have := ((hasDerivAt_cos t).const_mul e).const_add c
  refine this.congr_deriv ?_
  ring

theorem film_pos {c e : ℝ} (h : |e| < c) (t : ℝ) : 0 < film c e t := by
  have h1 := abs_le.1 (abs_cos_le_one t)
  have h2 : |e * cos t| ≤ |e| := by
    rw [abs_mul]
    exact mul_le_of_le_one_right (abs_nonneg _) (abs_cos_le_one t)
  have h3 := neg_abs_le (e * cos t)
  unfold film
  linarith

theorem const_of_zero {f : ℝ → ℝ} (h : ∀ r, HasDerivAt f 0 r) (x y : ℝ) : f x = f y :=
  is_const_of_deriv_eq_zero (fun r => (h r).differentiableAt) (fun r => (h r).deriv) x y

/-- A function with constant second derivative that is 0 at the ends. -/
theorem parabola {f g : ℝ → ℝ} {k L : ℝ} (hL : L ≠ 0) (h1 : ∀ z, HasDerivAt f (g z) z)
    (h2 : ∀ z, HasDerivAt g k z) (h0 : f 0 = 0) (hf : f L = 0) (z : ℝ) : f z = k / 2 * (z ^ 2 - L * z) := by
  have hg : ∀ z, g z = g 0 + k * z := by
    intro z
    have := const_of_zero (f := fun z => g z - k * z) (fun r => by
      refine ((h2 r).sub ((hasDerivAt_id r).const_mul k)).congr_deriv ?_
      simp) z 0
    simp at this
    linarith
  have hf' : ∀ z, f z = g 0 * z + k / 2 * z ^ 2 := by
    intro z
    have := const_of_zero (f := fun z => f z - (g 0 * z + k / 2 * z ^ 2)) (fun r => by
      refine ((h1 r).sub (((hasDerivAt_id r).const_mul (g 0)).add
        (((hasDerivAt_id r).pow 2).const_mul (k / 2)))).congr_deriv ?_
      rw [hg r]
      simp
      ring) z 0
    simp [h0] at this
    linarith
  have e := hf' L
  rw [hf] at e
  have : g 0 = -(k / 2 * L) := by
    have : L * (g 0 + k / 2 * L) = 0 := by linarith
    linarith [(mul_eq_zero.1 this).resolve_left hL]
  rw [hf' z, this]
  ring

/-- The pressure of a short bearing. -/
theorem short_film {mu om L c e : ℝ} {p p1 p2 : ℝ → ℝ → ℝ} {h' : ℝ → ℝ} (hL : L ≠ 0) (hce : |e| < c)
    (h : ShortFilm mu om L (film c e) p p1 p2 h') (z t : ℝ) :
    p z t = -3 * mu * om * (e * sin t) / film c e t ^ 3 * (z ^ 2 - L * z) := by
  have hpos := film_pos hce t
  have hh : h' t = -(e * sin t) := (h.thickness t).unique (film_deriv c e t)
  have hk : ∀ z, p2 z t = -6 * mu * om * (e * sin t) / film c e t ^ 3 := by
    intro z
    rw [eq_div_iff (by positivity), mul_comm, h.equation z t, hh]
    ring
  rw [parabola hL (fun z => h.first z t) (fun z => hk z ▸ h.second z t) (h.start t) (h.finish t) z]
  ring

theorem short_film_exists {mu om L c e : ℝ} (hce : |e| < c) :
    ∃ p p1 p2 h', ShortFilm mu om L (film c e) p p1 p2 h' := by
  refine ⟨fun z t => -3 * mu * om * (e * sin t) / film c e t ^ 3 * (z ^ 2 - L * z),
    fun z t => -3 * mu * om * (e * sin t) / film c e t ^ 3 * (2 * z - L),
    fun z t => -3 * mu * om * (e * sin t) / film c e t ^ 3 * 2, fun t => -(e * sin t), fun z t => ?_, fun z t => ?_,
    film_deriv c e, fun z t => ?_, fun t => ?_, fun t => ?_⟩
  · refine ((((hasDerivAt_id z).pow 2).sub ((hasDerivAt_id z).const_mul L)).const_mul _).congr_deriv ?_
    simp
  · refine ((((hasDerivAt_id z).const_mul 2).sub_const L).const_mul _).congr_deriv ?_
    simp
  · have := (film_pos hce t).ne'
    field_simp
    ring
  · ring
  · ring

/-- The pressure of a long bearing. -/
noncomputable def longP (mu om R p_in c e t : ℝ) : ℝ :=
  6 * mu * om * R ^ 2 * e * sin t * (2 * c + e * cos t) / ((2 * c ^ 2 + e ^ 2) * film c e t ^ 2) + p_in

theorem longP_deriv {mu om R p_in c e : ℝ} (hce : |e| < c) (t : ℝ) :
    HasDerivAt (longP mu om R p_in c e)
      (6 * mu * om * R ^ 2 * (film c e t - 2 * c * (c ^ 2 - e ^ 2) / (2 * c ^ 2 + e ^ 2)) / film c e t ^ 3) t := by
  have hpos := film_pos hce t
  have hc : 0 < c := lt_of_le_of_lt (abs_nonneg e) hce
  have hq : 0 < 2 * c ^ 2 + e ^ 2 := by positivity
  have d1 := (hasDerivAt_sin t).const_mul (6 * mu * om * R ^ 2 * e)
  have d2 := ((hasDerivAt_cos t).const_mul e).const_add (2 * c)
  have d3 := ((film_deriv c e t).pow 2).const_mul (2 * c ^ 2 + e ^ 2)
  have d := ((d1.mul d2).div d3 (mul_ne_zero hq.ne' (pow_ne_zero 2 hpos.ne'))).add_const p_in
  refine d.congr_deriv ?_
  have hs : sin t ^ 2 = 1 - cos t ^ 2 := by linarith [sin_sq_add_cos_sq t]
  have hne : film c e t ≠ 0 := hpos.ne'
  simp only [Pi.mul_apply, Pi.pow_apply]
  have hcos : e * cos t = film c e t - c := by unfold film; ring
  field_simp
  unfold film at hne ⊢
  simp
  ring_nf
  rw [hs]
  ring

theorem long_film {mu om R p_in c e : ℝ} {p p1 h' : ℝ → ℝ} (hce : |e| < c)
    (h : LongFilm mu om R p_in (film c e) p p1 h') (t : ℝ) : p t = longP mu om R p_in c e t := by
  -- the difference of two solutions
  set B := 2 * c * (c ^ 2 - e ^ 2) / (2 * c ^ 2 + e ^ 2) with hB
  have hflux : ∀ t, film c e t ^ 3 * p1 t - 6 * mu * om * R ^ 2 * film c e t =
      film c e 0 ^ 3 * p1 0 - 6 * mu * om * R ^ 2 * film c e 0 := by
    intro t
    refine const_of_zero (f := fun t => film c e t ^ 3 * p1 t - 6 * mu * om * R ^ 2 * film c e t) (fun r => ?_) t 0
    refine ((h.equation r).sub ((film_deriv c e r).const_mul (6 * mu * om * R ^ 2))).congr_deriv ?_
    rw [(h.thickness r).unique (film_deriv c e r)]
    ring
  set C := film c e 0 ^ 3 * p1 0 - 6 * mu * om * R ^ 2 * film c e 0 + 6 * mu * om * R ^ 2 * B with hC
  have hd : ∀ t, HasDerivAt (fun t => p t - longP mu om R p_in c e t) (C / film c e t ^ 3) t := by
    intro t
    refine ((h.first t).sub (longP_deriv hce t)).congr_deriv ?_
    have := (film_pos hce t).ne'
    have e1 : film c e t ^ 3 * p1 t = 6 * mu * om * R ^ 2 * film c e t + (C - 6 * mu * om * R ^ 2 * B) := by
      rw [hC]; linarith [hflux t]
    have : p1 t = (6 * mu * om * R ^ 2 * film c e t + (C - 6 * mu * om * R ^ 2 * B)) / film c e t ^ 3 := by
      rw [eq_div_iff (by positivity), mul_comm, e1]
    rw [this, ← hB]
    ring
  have h0 : p 0 - longP mu om R p_in c e 0 = 0 := by rw [h.start]; simp [longP]
  have h2 : p (2 * π) - longP mu om R p_in c e (2 * π) = 0 := by rw [h.finish]; simp [longP]
  have hC0 : C = 0 := by
    by_contra hne
    obtain ⟨x, -, hx⟩ := exists_hasDerivAt_eq_slope (fun t => p t - longP mu om R p_in c e t)
      (fun t => C / film c e t ^ 3) (by positivity : (0 : ℝ) < 2 * π)
      (fun t _ => (hd t).continuousAt.continuousWithinAt) (fun t _ => hd t)
    rw [h0, h2] at hx
    have := (film_pos hce x).ne'
    simp at hx
    rcases hx with hx | hx
    · exact hne hx
    · exact this hx
  have := const_of_zero (f := fun t => p t - longP mu om R p_in c e t) (fun r => by
    refine (hd r).congr_deriv ?_
    rw [hC0, zero_div]) t 0
  rw [h0] at this
  linarith

theorem long_film_exists {mu om R p_in c e : ℝ} (hce : |e| < c) :
    ∃ p p1 h', LongFilm mu om R p_in (film c e) p p1 h' := by
  refine ⟨longP mu om R p_in c e, _, fun t => -(e * sin t), longP_deriv hce, film_deriv c e, fun t => ?_, ?_, ?_⟩
  · have hd := ((film_deriv c e t).sub_const (2 * c * (c ^ 2 - e ^ 2) / (2 * c ^ 2 + e ^ 2))).const_mul
      (6 * mu * om * R ^ 2)
    refine hd.congr_of_eventuallyEq (Filter.Eventually.of_forall fun r => ?_)
    have := (film_pos hce r).ne'
    dsimp only
    field_simp
  · simp [longP]
  · simp [longP]

end Ross.FluidLemmas
