import Mathlib.Analysis.SpecialFunctions.Trigonometric.ArctanDeriv
import Mathlib.MeasureTheory.Integral.IntervalIntegral.FundThmCalculus
import Verif.Lemmas.FluidFilm
import Verif.Spec.FilmForce

/-!
# Integrals of the pressure of short and long bearings
-/

namespace Ross.FluidLemmas

open Real Spec.Fluid intervalIntegral

theorem u_pos {e : ℝ} (he : |e| < 1) (t : ℝ) : 0 < 1 + e * cos t := film_pos he t

theorem s_pos {e : ℝ} (he : |e| < 1) : 0 < 1 - e ^ 2 := by
  have := (sq_lt_one_iff_abs_lt_one e).2 he
  linarith

theorem u_deriv (e t : ℝ) : HasDerivAt (fun t => 1 + e * cos t) (-(e * sin t)) t := film_deriv 1 e t

/-- An antiderivative of `1 / (1 + e cos t)`. -/
noncomputable def antiA (e t : ℝ) : ℝ :=
  (t - 2 * arctan (e / (1 + √(1 - e ^ 2)) * sin t / (1 + e / (1 + √(1 - e ^ 2)) * cos t))) / √(1 - e ^ 2)

theorem antiA_deriv {e : ℝ} (he : |e| < 1) (t : ℝ) : HasDerivAt (antiA e) (1 / (1 + e * cos t)) t := by
  have hs := s_pos he
  have hk := sqrt_pos.2 hs
  have hk2 := sq_sqrt hs.le
  unfold antiA
  set k := √(1 - e ^ 2)
  set b := e / (1 + k) with hb
  have hb1 : |b| < 1 := by
    rw [hb, abs_div, abs_of_pos (by linarith : 0 < 1 + k), div_lt_one (by linarith)]
    linarith
  have hw := u_pos hb1 t
  have d1 := ((hasDerivAt_sin t).const_mul b).div (u_deriv b t) hw.ne'
  have d2 := (((hasDerivAt_id t).sub (d1.arctan.const_mul 2))).div_const k
  refine d2.congr_deriv ?_
  have hu := u_pos he t
  have hbb : b * (1 + k) = e := by rw [hb]; field_simp
  have hb2 : b ^ 2 * (1 + k) = 1 - k := by
    have h1 : b ^ 2 * (1 + k) ^ 2 = (1 - k) * (1 + k) := by
      rw [← mul_pow, hbb]; nlinarith
    have : (1 + k) ≠ 0 := by linarith
    apply mul_right_cancel₀ this
    linarith
  have hcs := sin_sq_add_cos_sq t
  have hden : 0 < 1 + 2 * b * cos t + b ^ 2 := by nlinarith [sq_nonneg (b * sin t), sq_pos_of_pos hw]
  simp only [Pi.mul_apply, Pi.div_apply]
  have hD : 1 + (b * sin t / (1 + b * cos t)) ^ 2 = (1 + 2 * b * cos t + b ^ 2) / (1 + b * cos t) ^ 2 := by
    field_simp
    linear_combination b ^ 2 * hcs
  rw [hD]
  have hN : b * cos t * (1 + b * cos t) - b * sin t * -(b * sin t) = b * cos t + b ^ 2 := by
    linear_combination b ^ 2 * hcs
  rw [hN]
  have hE : (1 + e * cos t) = (1 + k) * (1 + 2 * b * cos t + b ^ 2) / 2 := by
    have : (1 + k) * (1 + 2 * b * cos t + b ^ 2) = (1 + k) + 2 * (b * (1 + k)) * cos t + b ^ 2 * (1 + k) := by ring
    rw [this, hbb, hb2]; ring
  rw [hE]
  have h1k : (1 + k) ≠ 0 := by linarith
  field_simp
  linear_combination (-1) * hb2

theorem antiA_zero (e : ℝ) : antiA e 0 = 0 := by simp [antiA]

theorem antiA_pi (e : ℝ) : antiA e π = π / √(1 - e ^ 2) := by simp [antiA]

/-- Antiderivatives of products of sine and cosine over powers of `1 + e cos t`. -/
theorem anti_sc3 {e : ℝ} (he : |e| < 1) (t : ℝ) :
    HasDerivAt (fun t => -(cos t ^ 2 / (2 * (1 + e * cos t) ^ 2))) (sin t * cos t / (1 + e * cos t) ^ 3) t := by
  have hu := u_pos he t
  have d := (((hasDerivAt_cos t).pow 2).div (((u_deriv e t).pow 2).const_mul 2) (mul_ne_zero two_ne_zero (pow_ne_zero 2 hu.ne'))).neg
  refine d.congr_deriv ?_
  simp only [Pi.pow_apply]
  field_simp
  simp
  ring

theorem anti_ss3 {e : ℝ} (he : |e| < 1) (t : ℝ) :
    HasDerivAt (fun t => antiA e t / (2 * (1 - e ^ 2)) - sin t * (e + cos t) / (2 * (1 - e ^ 2) * (1 + e * cos t) ^ 2))
      (sin t ^ 2 / (1 + e * cos t) ^ 3) t := by
  have hu := u_pos he t
  have hs := s_pos he
  have d1 := (antiA_deriv he t).div_const (2 * (1 - e ^ 2))
  have d2 := ((hasDerivAt_sin t).mul ((hasDerivAt_cos t).const_add e)).div
    (((u_deriv e t).pow 2).const_mul (2 * (1 - e ^ 2))) (mul_ne_zero (mul_ne_zero two_ne_zero hs.ne') (pow_ne_zero 2 hu.ne'))
  refine (d1.sub d2).congr_deriv ?_
  have hcs : sin t ^ 2 = 1 - cos t ^ 2 := by linarith [sin_sq_add_cos_sq t]
  simp only [Pi.pow_apply, Pi.mul_apply]
  field_simp
  simp
  ring_nf
  have h3 : sin t ^ 4 = (1 - cos t ^ 2) ^ 2 := by rw [← hcs]; ring
  simp only [hcs]
  ring

theorem anti_cc3 {e : ℝ} (he : |e| < 1) (t : ℝ) :
    HasDerivAt (fun t => (1 + 2 * e ^ 2) / (2 * (1 - e ^ 2) ^ 2) * antiA e t +
        sin t * ((1 - 4 * e ^ 2) * cos t - 3 * e) / (2 * (1 - e ^ 2) ^ 2 * (1 + e * cos t) ^ 2))
      (cos t ^ 2 / (1 + e * cos t) ^ 3) t := by
  have hu := u_pos he t
  have hs := s_pos he
  have d1 := (antiA_deriv he t).const_mul ((1 + 2 * e ^ 2) / (2 * (1 - e ^ 2) ^ 2))
  have d2 := ((hasDerivAt_sin t).mul (((hasDerivAt_cos t).const_mul (1 - 4 * e ^ 2)).sub_const (3 * e))).div
    (((u_deriv e t).pow 2).const_mul (2 * (1 - e ^ 2) ^ 2))
      (mul_ne_zero (mul_ne_zero two_ne_zero (pow_ne_zero 2 hs.ne')) (pow_ne_zero 2 hu.ne'))
  refine (d1.add d2).congr_deriv ?_
  have hcs : sin t ^ 2 = 1 - cos t ^ 2 := by linarith [sin_sq_add_cos_sq t]
  simp only [Pi.pow_apply, Pi.mul_apply]
  field_simp
  simp
  ring_nf
  simp only [hcs]
  ring

theorem anti_sc2 {e : ℝ} (he : |e| < 1) (t : ℝ) :
    HasDerivAt (fun t => -(cos t ^ 2 / (1 + e * cos t)))
      (sin t * cos t * (2 + e * cos t) / (1 + e * cos t) ^ 2) t := by
  have hu := u_pos he t
  have d := (((hasDerivAt_cos t).pow 2).div (u_deriv e t) hu.ne').neg
  refine d.congr_deriv ?_
  simp only [Pi.pow_apply]
  field_simp
  simp
  ring

theorem anti_ss2 {e : ℝ} (he : |e| < 1) (t : ℝ) :
    HasDerivAt (fun t => antiA e t - sin t * cos t / (1 + e * cos t))
      (sin t ^ 2 * (2 + e * cos t) / (1 + e * cos t) ^ 2) t := by
  have hu := u_pos he t
  have d1 := antiA_deriv he t
  have d2 := ((hasDerivAt_sin t).mul (hasDerivAt_cos t)).div (u_deriv e t) hu.ne'
  refine (d1.sub d2).congr_deriv ?_
  have hcs : sin t ^ 2 = 1 - cos t ^ 2 := by linarith [sin_sq_add_cos_sq t]
  simp only [Pi.mul_apply]
  field_simp
  simp
  ring_nf
  simp only [hcs]
  ring

theorem cont_div {e : ℝ} (he : |e| < 1) (n : ℕ) {f : ℝ → ℝ} (hf : Continuous f) :
    Continuous fun t => f t / (1 + e * cos t) ^ n :=
  hf.div (by fun_prop) fun t => pow_ne_zero _ (u_pos he t).ne'

theorem int_sc3 {e : ℝ} (he : |e| < 1) :
    ∫ t in (0)..π, sin t * cos t / (1 + e * cos t) ^ 3 = -(2 * e) / (1 - e ^ 2) ^ 2 := by
  rw [integral_eq_sub_of_hasDerivAt (fun t _ => anti_sc3 he t)
    ((cont_div he 3 (by fun_prop)).intervalIntegrable _ _)]
  have h1 := u_pos he 0
  have h2 := u_pos he π
  have hs := s_pos he
  simp at h1 h2 ⊢
  have e1 : 1 - e ^ 2 = (1 + e) * (1 - e) := by ring
  have h3 : 0 < 1 - e := by linarith
  rw [e1, ← sub_eq_add_neg]
  field_simp
  ring

theorem int_ss3 {e : ℝ} (he : |e| < 1) :
    ∫ t in (0)..π, sin t ^ 2 / (1 + e * cos t) ^ 3 = π / (2 * √(1 - e ^ 2) ^ 3) := by
  rw [integral_eq_sub_of_hasDerivAt (fun t _ => anti_ss3 he t)
    ((cont_div he 3 (by fun_prop)).intervalIntegrable _ _)]
  have hs := s_pos he
  have hk := sqrt_pos.2 hs
  have hk2 := sq_sqrt hs.le
  rw [antiA_zero, antiA_pi]
  simp
  rw [← hk2]
  simp
  field_simp

theorem int_cc3 {e : ℝ} (he : |e| < 1) :
    ∫ t in (0)..π, cos t ^ 2 / (1 + e * cos t) ^ 3 = π * (1 + 2 * e ^ 2) / (2 * √(1 - e ^ 2) ^ 5) := by
  rw [integral_eq_sub_of_hasDerivAt (fun t _ => anti_cc3 he t)
    ((cont_div he 3 (by fun_prop)).intervalIntegrable _ _)]
  have hs := s_pos he
  have hk := sqrt_pos.2 hs
  have hk2 := sq_sqrt hs.le
  rw [antiA_zero, antiA_pi]
  simp only [sin_pi, sin_zero, zero_mul, zero_div, mul_zero, add_zero, sub_zero]
  have h4 : (1 - e ^ 2) ^ 2 = √(1 - e ^ 2) ^ 4 := by rw [show √(1 - e ^ 2) ^ 4 = (√(1 - e ^ 2) ^ 2) ^ 2 by ring, hk2]
  rw [h4]
  field_simp

theorem int_sc2 {e : ℝ} (he : |e| < 1) :
    ∫ t in (0)..π, sin t * cos t * (2 + e * cos t) / (1 + e * cos t) ^ 2 = -(2 * e) / (1 - e ^ 2) := by
  rw [integral_eq_sub_of_hasDerivAt (fun t _ => anti_sc2 he t)
    ((cont_div he 2 (by fun_prop)).intervalIntegrable _ _)]
  have h1 := u_pos he 0
  have h2 := u_pos he π
  simp at h1 h2 ⊢
  have e1 : 1 - e ^ 2 = (1 + e) * (1 - e) := by ring
  have h3 : 0 < 1 - e := by linarith
  rw [e1, ← sub_eq_add_neg]
  field_simp
  ring

theorem int_ss2 {e : ℝ} (he : |e| < 1) :
    ∫ t in (0)..π, sin t ^ 2 * (2 + e * cos t) / (1 + e * cos t) ^ 2 = π / √(1 - e ^ 2) := by
  rw [integral_eq_sub_of_hasDerivAt (fun t _ => anti_ss2 he t)
    ((cont_div he 2 (by fun_prop)).intervalIntegrable _ _)]
  rw [antiA_zero, antiA_pi]
  simp

theorem int_parabola (L : ℝ) : ∫ z in (0)..L, (L * z - z ^ 2) = L ^ 3 / 6 := by
  have d : ∀ z, HasDerivAt (fun z : ℝ => L * (z ^ 2 / 2) - z ^ 3 / 3) (L * z - z ^ 2) z := by
    intro z
    refine (((((hasDerivAt_id z).pow 2).div_const 2).const_mul L).sub (((hasDerivAt_id z).pow 3).div_const 3)).congr_deriv
      ?_
    simp
  rw [integral_eq_sub_of_hasDerivAt (fun z _ => d z) (Continuous.intervalIntegrable (by fun_prop) _ _)]
  ring

theorem outward_eq (a t : ℝ) : outward a t =
    (-sin a * cos t + -cos a * sin t, cos a * cos t + -sin a * sin t) := by
  unfold outward
  rw [show t + π / 2 + a = (t + a) + π / 2 by ring, cos_add_pi_div_two, sin_add_pi_div_two, sin_add, cos_add]
  ext <;> simp <;> ring

/-- The integral against a combination of cosine and sine. -/
theorem int_comb {g : ℝ → ℝ} (hg : Continuous g) (T R x y : ℝ) :
    ∫ t in (0)..T, g t * R * (x * cos t + y * sin t) =
      R * (x * (∫ t in (0)..T, g t * cos t) + y * ∫ t in (0)..T, g t * sin t) := by
  have h1 : IntervalIntegrable (fun t => g t * cos t) MeasureTheory.volume 0 T :=
    Continuous.intervalIntegrable (by fun_prop) _ _
  have h2 : IntervalIntegrable (fun t => g t * sin t) MeasureTheory.volume 0 T :=
    Continuous.intervalIntegrable (by fun_prop) _ _
  rw [← integral_const_mul x, ← integral_const_mul y, ← integral_add (h1.const_mul x) (h2.const_mul y),
    ← integral_const_mul]
  congr 1
  ext t
  ring

/-- The force of a pressure that is a product. -/
theorem filmForce_sep {q g : ℝ → ℝ} (hg : Continuous g) (R L T a : ℝ) :
    filmForce R L T a (fun z t => q z * g t) =
      (-((∫ z in (0)..L, q z) * (R * (-sin a * (∫ t in (0)..T, g t * cos t) + -cos a * ∫ t in (0)..T, g t * sin t))),
       -((∫ z in (0)..L, q z) * (R * (cos a * (∫ t in (0)..T, g t * cos t) + -sin a * ∫ t in (0)..T, g t * sin t)))) := by
  have key : ∀ x y : ℝ, (∫ z in (0)..L, ∫ t in (0)..T, q z * g t * R * (x * cos t + y * sin t)) =
      (∫ z in (0)..L, q z) * (R * (x * (∫ t in (0)..T, g t * cos t) + y * ∫ t in (0)..T, g t * sin t)) := by
    intro x y
    rw [← int_comb hg, ← integral_mul_const]
    congr 1
    ext z
    rw [← integral_const_mul]
    congr 1
    ext t
    ring
  unfold filmForce
  simp only [outward_eq]
  rw [key, key]

/-- Where the pressure is negative nothing acts, so that only half of the film counts. -/
theorem half_film {g : ℝ → ℝ} (hg : Continuous g) {w : ℝ → ℝ} (hw : Continuous w) (h1 : ∀ t, 0 ≤ sin t → 0 ≤ g t)
    (h2 : ∀ t, sin t ≤ 0 → g t ≤ 0) :
    ∫ t in (0)..(2 * π), max (g t) 0 * w t = ∫ t in (0)..π, g t * w t := by
  have hi : ∀ x y, IntervalIntegrable (fun t => max (g t) 0 * w t) MeasureTheory.volume x y :=
    fun x y => Continuous.intervalIntegrable (by fun_prop) _ _
  have hp := pi_pos
  rw [← integral_add_adjacent_intervals (hi 0 π) (hi π (2 * π))]
  have e1 : (∫ t in (π)..(2 * π), max (g t) 0 * w t) = 0 := by
    rw [integral_congr (g := fun _ => (0 : ℝ)) ?_]
    · simp
    · intro t ht
      rw [Set.uIcc_of_le (by linarith)] at ht
      have hs : sin t ≤ 0 := by
        have := sin_nonneg_of_nonneg_of_le_pi (x := t - π) (by linarith [ht.1]) (by linarith [ht.2])
        rw [sin_sub_pi] at this
        linarith
      simp [max_eq_right (h2 t hs)]
  rw [e1, add_zero]
  apply integral_congr
  intro t ht
  rw [Set.uIcc_of_le hp.le] at ht
  simp [max_eq_left (h1 t (sin_nonneg_of_nonneg_of_le_pi ht.1 ht.2))]

/-- The force of the positive part of a pressure that is a product. -/
theorem filmForce_max {q g : ℝ → ℝ} (hg : Continuous g) (R a : ℝ) {L : ℝ} (hL : 0 ≤ L)
    (hq : ∀ z, 0 ≤ z → z ≤ L → 0 ≤ q z) (h1 : ∀ t, 0 ≤ sin t → 0 ≤ g t) (h2 : ∀ t, sin t ≤ 0 → g t ≤ 0) :
    filmForce R L (2 * π) a (fun z t => max (q z * g t) 0) = filmForce R L π a (fun z t => q z * g t) := by
  have key : ∀ w : ℝ → ℝ, Continuous w → (∫ z in (0)..L, ∫ t in (0)..(2 * π), max (q z * g t) 0 * R * w t) =
      ∫ z in (0)..L, ∫ t in (0)..π, q z * g t * R * w t := by
    intro w hw
    apply integral_congr
    intro z hz
    rw [Set.uIcc_of_le hL] at hz
    have e1 : ∀ t, max (q z * g t) 0 * R * w t = q z * (max (g t) 0 * (R * w t)) := by
      intro t
      have : max (q z * g t) 0 = q z * max (g t) 0 := by
        rw [mul_max_of_nonneg _ _ (hq z hz.1 hz.2), mul_zero]
      rw [this]
      ring
    have e2 : ∀ t, q z * g t * R * w t = q z * (g t * (R * w t)) := fun t => by ring
    simp only [e1, e2]
    rw [integral_const_mul, integral_const_mul, half_film hg (by fun_prop) h1 h2]
  unfold filmForce
  rw [key _ (by unfold outward; fun_prop), key _ (by unfold outward; fun_prop)]

/-- The force of half of a film whose pressure is a combination of sine and cosine over the cube of the thickness. -/
theorem force_cubic {e : ℝ} (he : |e| < 1) (R L a A B : ℝ) :
    filmForce R L π a (fun z t => (L * z - z ^ 2) * ((A * sin t + B * cos t) / (1 + e * cos t) ^ 3)) =
      (-(L ^ 3 / 6 * (R * (-sin a * (A * (-(2 * e) / (1 - e ^ 2) ^ 2) + B * (π * (1 + 2 * e ^ 2) / (2 * √(1 - e ^ 2) ^ 5))) +
          -cos a * (A * (π / (2 * √(1 - e ^ 2) ^ 3)) + B * (-(2 * e) / (1 - e ^ 2) ^ 2))))),
       -(L ^ 3 / 6 * (R * (cos a * (A * (-(2 * e) / (1 - e ^ 2) ^ 2) + B * (π * (1 + 2 * e ^ 2) / (2 * √(1 - e ^ 2) ^ 5))) +
          -sin a * (A * (π / (2 * √(1 - e ^ 2) ^ 3)) + B * (-(2 * e) / (1 - e ^ 2) ^ 2)))))) := by
  have hg : Continuous fun t => (A * sin t + B * cos t) / (1 + e * cos t) ^ 3 := cont_div he 3 (by fun_prop)
  have h1 : IntervalIntegrable (fun t => sin t * cos t / (1 + e * cos t) ^ 3) MeasureTheory.volume 0 π :=
    (cont_div he 3 (by fun_prop)).intervalIntegrable _ _
  have h2 : IntervalIntegrable (fun t => sin t ^ 2 / (1 + e * cos t) ^ 3) MeasureTheory.volume 0 π :=
    (cont_div he 3 (by fun_prop)).intervalIntegrable _ _
  have h3 : IntervalIntegrable (fun t => cos t ^ 2 / (1 + e * cos t) ^ 3) MeasureTheory.volume 0 π :=
    (cont_div he 3 (by fun_prop)).intervalIntegrable _ _
  have e1 : (∫ t in (0)..π, (A * sin t + B * cos t) / (1 + e * cos t) ^ 3 * cos t) =
      A * (-(2 * e) / (1 - e ^ 2) ^ 2) + B * (π * (1 + 2 * e ^ 2) / (2 * √(1 - e ^ 2) ^ 5)) := by
    rw [← int_sc3 he, ← int_cc3 he, ← integral_const_mul, ← integral_const_mul,
      ← integral_add (h1.const_mul A) (h3.const_mul B)]
    congr 1
    ext t
    ring
  have e2 : (∫ t in (0)..π, (A * sin t + B * cos t) / (1 + e * cos t) ^ 3 * sin t) =
      A * (π / (2 * √(1 - e ^ 2) ^ 3)) + B * (-(2 * e) / (1 - e ^ 2) ^ 2) := by
    rw [← int_sc3 he, ← int_ss3 he, ← integral_const_mul, ← integral_const_mul,
      ← integral_add (h2.const_mul A) (h1.const_mul B)]
    congr 1
    ext t
    ring
  rw [filmForce_sep hg, int_parabola, e1, e2]

/-- The force of half of the film of a long bearing. -/
theorem force_long {e : ℝ} (he : |e| < 1) (R L a A : ℝ) :
    filmForce R L π a (fun _ t => 1 * (A * sin t * (2 + e * cos t) / (1 + e * cos t) ^ 2)) =
      (-(L * (R * (-sin a * (A * (-(2 * e) / (1 - e ^ 2))) + -cos a * (A * (π / √(1 - e ^ 2)))))),
       -(L * (R * (cos a * (A * (-(2 * e) / (1 - e ^ 2))) + -sin a * (A * (π / √(1 - e ^ 2))))))) := by
  have hg : Continuous fun t => A * sin t * (2 + e * cos t) / (1 + e * cos t) ^ 2 := cont_div he 2 (by fun_prop)
  have e1 : (∫ t in (0)..π, A * sin t * (2 + e * cos t) / (1 + e * cos t) ^ 2 * cos t) =
      A * (-(2 * e) / (1 - e ^ 2)) := by
    rw [← int_sc2 he, ← integral_const_mul]
    congr 1
    ext t
    ring
  have e2 : (∫ t in (0)..π, A * sin t * (2 + e * cos t) / (1 + e * cos t) ^ 2 * sin t) = A * (π / √(1 - e ^ 2)) := by
    rw [← int_ss2 he, ← integral_const_mul]
    congr 1
    ext t
    ring
  rw [filmForce_sep hg (q := fun _ => 1), e1, e2]
  simp

/-- The pressure in a short bearing with a moving rotor. -/
theorem moving_film {mu om L c e a : ℝ} {v : ℝ × ℝ} {p p1 p2 : ℝ → ℝ → ℝ} {h' : ℝ → ℝ} (hL : L ≠ 0) (hc : 0 < c)
    (he : |e| < 1) (h : MovingFilm mu om L a v (film c (e * c)) p p1 p2 h') (z t : ℝ) :
    p z t = (L * z - z ^ 2) * ((3 * mu / c ^ 3 * (om * (e * c) + 2 * (-cos a * v.1 + -sin a * v.2)) * sin t +
      3 * mu / c ^ 3 * (2 * (-sin a * v.1 + cos a * v.2)) * cos t) / (1 + e * cos t) ^ 3) := by
  have hu := u_pos he t
  have hf : film c (e * c) t = c * (1 + e * cos t) := by unfold film; ring
  have hpos : 0 < film c (e * c) t := by rw [hf]; positivity
  have hh : h' t = -(e * c * sin t) := (h.thickness t).unique (film_deriv c (e * c) t)
  have hk : ∀ z, p2 z t = 6 * mu * (om * -(e * c * sin t) - 2 * (v.1 * (outward a t).1 + v.2 * (outward a t).2)) /
      film c (e * c) t ^ 3 := by
    intro z
    rw [eq_div_iff (by positivity), mul_comm, h.equation z t, hh]
  rw [parabola hL (fun z => h.first z t) (fun z => hk z ▸ h.second z t) (h.start t) (h.finish t) z, hf, outward_eq]
  field_simp
  ring

theorem moving_film_exists {mu om L c e a : ℝ} {v : ℝ × ℝ} (hc : 0 < c) (he : |e| < 1) :
    ∃ p p1 p2 h', MovingFilm mu om L a v (film c (e * c)) p p1 p2 h' := by
  let K : ℝ → ℝ := fun t => 3 * mu * (om * -(e * c * sin t) - 2 * (v.1 * (outward a t).1 + v.2 * (outward a t).2)) /
    film c (e * c) t ^ 3
  refine ⟨fun z t => K t * (z ^ 2 - L * z), fun z t => K t * (2 * z - L), fun z t => K t * 2,
    fun t => -(e * c * sin t), fun z t => ?_, fun z t => ?_, film_deriv c (e * c), fun z t => ?_, fun t => ?_, fun t => ?_⟩
  · refine ((((hasDerivAt_id z).pow 2).sub ((hasDerivAt_id z).const_mul L)).const_mul _).congr_deriv ?_
    simp
  · refine ((((hasDerivAt_id z).const_mul 2).sub_const L).const_mul _).congr_deriv ?_
    simp
  · have hf : film c (e * c) t = c * (1 + e * cos t) := by unfold film; ring
    have hu := u_pos he t
    have : film c (e * c) t ≠ 0 := by rw [hf]; positivity
    simp only [K]
    field_simp
    ring
  · simp
  · ring

end Ross.FluidLemmas
