import Verif.Model.FluidForces
import Verif.Spec.FluidGeometry

/-!
# Lemmas on the geometry of fluid-film bearings
-/

namespace Ross.FluidLemmas

open Real Fluid Spec.Fluid

theorem cos_three_half (x : ℝ) : cos (3 * π / 2 + x) = sin x := by
  rw [show 3 * π / 2 + x = (x + π / 2) + π by ring, cos_add_pi, cos_add_pi_div_two]; ring

theorem sin_three_half (x : ℝ) : sin (3 * π / 2 + x) = -cos x := by
  rw [show 3 * π / 2 + x = (x + π / 2) + π by ring, sin_add_pi, sin_add_pi_div_two]

theorem cos_internal_alpha (g a : ℝ) : cos (internal_alpha g a) = -sin (g - a) := by
  unfold internal_alpha
  split_ifs
  · rw [cos_abs, show 3 * π / 2 - g + a = 3 * π / 2 + -(g - a) by ring, cos_three_half, sin_neg]
  · rw [show g + π / 2 - a = (g - a) + π / 2 by ring, cos_add_pi_div_two]

theorem sin_sq_internal_alpha (g a : ℝ) : sin (internal_alpha g a) ^ 2 = cos (g - a) ^ 2 := by
  have h1 := sin_sq_add_cos_sq (internal_alpha g a)
  have h2 := sin_sq_add_cos_sq (g - a)
  rw [cos_internal_alpha] at h1
  nlinarith

/-- The distance along the direction `g` of the centre. -/
noncomputable def q (e a g : ℝ) : ℝ := (centre e a).1 * cos g + (centre e a).2 * sin g

theorem q_eq (e a g : ℝ) : q e a g = -e * sin (g - a) := by
  unfold q centre
  rw [sin_sub]
  ring

theorem internal_radius_eq (g a R e : ℝ) :
    (internal_radius_function g a R e).1 = √(R ^ 2 - e ^ 2 + q e a g ^ 2) + q e a g := by
  unfold internal_radius_function
  dsimp only
  rw [cos_internal_alpha, q_eq, mul_pow, sin_sq_internal_alpha]
  have : R ^ 2 - e ^ 2 * cos (g - a) ^ 2 = R ^ 2 - e ^ 2 + (-e * sin (g - a)) ^ 2 := by
    have := sin_sq_add_cos_sq (g - a)
    nlinarith [sin_sq_add_cos_sq (g - a)]
  rw [this]
  ring

theorem centre_sq (e a : ℝ) : (centre e a).1 ^ 2 + (centre e a).2 ^ 2 = e ^ 2 := by
  unfold centre
  have := sin_sq_add_cos_sq a
  dsimp only
  nlinarith

theorem under_root {R e : ℝ} (h : |e| ≤ R) (a g : ℝ) : 0 ≤ R ^ 2 - e ^ 2 + q e a g ^ 2 := by
  have := sq_le_sq' (by linarith [neg_abs_le e]) (le_trans (le_abs_self e) h)
  nlinarith [sq_nonneg (q e a g)]

theorem onCircle_polar (c : ℝ × ℝ) (R r g : ℝ) :
    OnCircle c R (r * cos g, r * sin g) ↔
      (r - (c.1 * cos g + c.2 * sin g)) ^ 2 = R ^ 2 - (c.1 ^ 2 + c.2 ^ 2) + (c.1 * cos g + c.2 * sin g) ^ 2 := by
  unfold OnCircle
  have := sin_sq_add_cos_sq g
  have h : (r * cos g - c.1) ^ 2 + (r * sin g - c.2) ^ 2 =
      r ^ 2 - 2 * r * (c.1 * cos g + c.2 * sin g) + (c.1 ^ 2 + c.2 ^ 2) := by
    have : (r * cos g) ^ 2 + (r * sin g) ^ 2 = r ^ 2 := by nlinarith
    nlinarith
  dsimp only
  rw [h]
  constructor <;> intro h' <;> nlinarith

theorem internal_onCircle {R e : ℝ} (h : |e| ≤ R) (g a : ℝ) :
    OnCircle (centre e a) R
      ((internal_radius_function g a R e).1 * cos g, (internal_radius_function g a R e).1 * sin g) := by
  rw [onCircle_polar, centre_sq, internal_radius_eq]
  change (√(R ^ 2 - e ^ 2 + q e a g ^ 2) + q e a g - q e a g) ^ 2 = R ^ 2 - e ^ 2 + q e a g ^ 2
  rw [add_sub_cancel_right, sq_sqrt (under_root h a g)]

theorem abs_q_le (e a g : ℝ) : |q e a g| ≤ |e| := by
  rw [q_eq, abs_mul, abs_neg]
  exact mul_le_of_le_one_right (abs_nonneg _) (abs_sin_le_one _)

theorem internal_pos {R e : ℝ} (h : |e| < R) (g a : ℝ) : 0 < (internal_radius_function g a R e).1 := by
  rw [internal_radius_eq]
  have hR : 0 ≤ R := le_trans (abs_nonneg e) h.le
  have h2 : e ^ 2 < R ^ 2 := by
    rw [← sq_abs e]; exact pow_lt_pow_left₀ h (abs_nonneg e) (by norm_num)
  have : |q e a g| < √(R ^ 2 - e ^ 2 + q e a g ^ 2) := by
    rw [← sqrt_sq_eq_abs]
    exact sqrt_lt_sqrt (sq_nonneg _) (by linarith)
  linarith [neg_abs_le (q e a g)]

/-- The point ahead on a circle around a point inside it is unique. -/
theorem ahead_unique {c : ℝ × ℝ} {R r s g : ℝ} (hc : c.1 ^ 2 + c.2 ^ 2 < R ^ 2) (hr : 0 ≤ r) (hs : 0 ≤ s)
    (h1 : OnCircle c R (r * cos g, r * sin g)) (h2 : OnCircle c R (s * cos g, s * sin g)) : r = s := by
  rw [onCircle_polar] at h1 h2
  set k := c.1 * cos g + c.2 * sin g
  have h3 : (r - s) * (r + s - 2 * k) = 0 := by nlinarith
  rcases mul_eq_zero.1 h3 with h | h
  · linarith
  · have : r * s < 0 := by
      have : r = 2 * k - s := by linarith
      subst this
      nlinarith
    nlinarith [mul_nonneg hr hs]

/-! ### Elliptical bearings -/

theorem cos_elliptical {g : ℝ} (h0 : 0 ≤ g) (h1 : g ≤ 2 * π) :
    cos (elliptical_alpha g) = -|sin g| := by
  have hp := pi_pos
  unfold elliptical_alpha
  split_ifs with a b c
  · rw [add_comm, cos_add_pi_div_two, abs_of_nonneg (sin_nonneg_of_nonneg_of_le_pi h0 (by linarith [a.2]))]
  · rw [sub_eq_add_neg, cos_three_half, sin_neg, abs_of_nonneg (sin_nonneg_of_nonneg_of_le_pi h0 b.2)]
  · have : sin g ≤ 0 := by
      have := sin_nonneg_of_nonneg_of_le_pi (x := g - π) (by linarith [c.1]) (by linarith)
      rw [sin_sub_pi] at this
      linarith
    rw [cos_sub_pi_div_two, abs_of_nonpos this, neg_neg]
  · have hg : π < g := by
      by_contra h
      push Not at h
      rcases le_or_gt g (π / 2) with h2 | h2
      · exact a ⟨h0, h2⟩
      · exact b ⟨h2, h⟩
    have : sin g ≤ 0 := by
      have := sin_nonneg_of_nonneg_of_le_pi (x := g - π) (by linarith) (by linarith)
      rw [sin_sub_pi] at this
      linarith
    rw [show 5 * π / 2 - g = (π / 2 - g) + 2 * π by ring, cos_add_two_pi, cos_pi_div_two_sub, abs_of_nonpos this,
      neg_neg]

theorem sin_sq_elliptical {g : ℝ} (h0 : 0 ≤ g) (h1 : g ≤ 2 * π) : sin (elliptical_alpha g) ^ 2 = cos g ^ 2 := by
  have h := sin_sq_add_cos_sq (elliptical_alpha g)
  rw [cos_elliptical h0 h1, neg_sq, sq_abs] at h
  have := sin_sq_add_cos_sq g
  linarith

theorem elliptical_eq {g : ℝ} (h0 : 0 ≤ g) (h1 : g ≤ 2 * π) (Rs Rr p : ℝ) :
    elliptical_radius g Rs Rr p =
      √(Rs ^ 2 - (p * (Rs - Rr)) ^ 2 + (p * (Rs - Rr) * |sin g|) ^ 2) - p * (Rs - Rr) * |sin g| := by
  unfold elliptical_radius
  dsimp only
  rw [cos_elliptical h0 h1, mul_pow (p * (Rs - Rr)) (sin _), sin_sq_elliptical h0 h1]
  have : Rs ^ 2 - (p * (Rs - Rr)) ^ 2 * cos g ^ 2 =
      Rs ^ 2 - (p * (Rs - Rr)) ^ 2 + (p * (Rs - Rr) * |sin g|) ^ 2 := by
    rw [mul_pow _ |sin g|, sq_abs]
    have := sin_sq_add_cos_sq g
    linear_combination -(p * (Rs - Rr)) ^ 2 * this
  rw [this]
  ring

/-! ### Wear -/

theorem cos_shift (g d : ℝ) : 1 - cos (g - (3 * π / 2 + d)) = 1 + cos (g - π / 2 - d) := by
  rw [show g - (3 * π / 2 + d) = (g - π / 2 - d) - π by ring, cos_sub_pi]; ring

/-- `cos x ≤ cos A` on `[A, 2π - A]`. -/
theorem cos_le_mid {A x : ℝ} (hA0 : 0 ≤ A) (h1 : A ≤ x) (h2 : x ≤ 2 * π - A) : cos x ≤ cos A := by
  rcases le_or_gt x π with h | h
  · exact cos_le_cos_of_nonneg_of_le_pi hA0 h h1
  · rw [← cos_two_pi_sub x]
    exact cos_le_cos_of_nonneg_of_le_pi hA0 (by linarith) (by linarith)

theorem cos_ge_out {A x : ℝ} (hA1 : A ≤ π) (h1 : -A ≤ x) (h2 : x ≤ A) : cos A ≤ cos x := by
  rw [← cos_abs x]
  exact cos_le_cos_of_nonneg_of_le_pi (abs_nonneg x) hA1 (abs_le.2 ⟨h1, h2⟩)

end Ross.FluidLemmas

namespace Ross.FluidLemmas

open Real Fluid Spec.Fluid

theorem wear_depth_eq {g Rs Rr d md : ℝ} (hcr : Rr < Rs) (h0 : 0 ≤ md) (h2 : md ≤ 2 * (Rs - Rr)) (hg0 : 0 ≤ g)
    (hg1 : g ≤ 2 * π) (hd1 : -(π / 2) ≤ d) (hd2 : d ≤ π / 2) :
    wear_depth g Rs Rr d md = wear md (Rs - Rr) d g := by
  have hp := pi_pos
  have hc : 0 < Rs - Rr := by linarith
  unfold wear_depth wear
  rw [cos_shift]
  by_cases hmd : md = 0
  · rw [if_pos hmd, hmd, max_eq_left]
    nlinarith [neg_one_le_cos (g - π / 2 - d)]
  rw [if_neg hmd]
  dsimp only
  set A := arccos (md / (Rs - Rr) - 1) with hA
  have hA0 : 0 ≤ A := arccos_nonneg _
  have hA1 : A ≤ π := arccos_le_pi _
  have hcosA : cos A = md / (Rs - Rr) - 1 := by
    rw [hA, cos_arccos]
    · have : 0 ≤ md / (Rs - Rr) := by positivity
      linarith
    · rw [sub_le_iff_le_add, div_le_iff₀ hc]; linarith
  have hmdc : md = (Rs - Rr) * (1 + cos A) := by
    rw [hcosA]; field_simp; ring
  have inside : ∀ x : ℝ, A ≤ x → x ≤ 2 * π - A → max 0 (md - (Rs - Rr) * (1 + cos x)) =
      md - (Rs - Rr) * (1 + cos x) := by
    intro x h1 h2
    apply max_eq_right
    have := cos_le_mid hA0 h1 h2
    nlinarith
  have outside : ∀ x : ℝ, -A ≤ x → x ≤ A → max 0 (md - (Rs - Rr) * (1 + cos x)) = 0 := by
    intro x h1 h2
    apply max_eq_left
    have := cos_ge_out hA1 h1 h2
    nlinarith
  split_ifs with c1 c2 c3 c4
  · rw [inside _ (by linarith [c2.1]) (by linarith [c2.2])]
  · rcases lt_or_ge g (π / 2 + A + d) with h | h
    · rw [outside _ (by linarith) (by linarith)]
    · have h3 : 2 * π + (π / 2 - A + d) < g := by
        by_contra h4
        push Not at h4
        exact c2 ⟨h, h4⟩
      have := outside (g - π / 2 - d - 2 * π) (by linarith) (by linarith)
      rw [cos_sub_two_pi] at this
      rw [this]
  · rw [inside _ (by linarith [c3.1]) (by linarith)]
  · have := inside (g + 2 * π - π / 2 - d) (by linarith [c4.2]) (by linarith [c4.2])
    rw [← this, show g + 2 * π - π / 2 - d = (g - π / 2 - d) + 2 * π by ring, cos_add_two_pi]
  · have h5 : g < π / 2 + A + d := by
      by_contra h4
      push Not at h4
      exact c3 ⟨h4, hg1⟩
    have h6 : π / 2 - A + d < g := by
      by_contra h4
      push Not at h4
      exact c4 ⟨hg0, h4⟩
    rw [outside _ (by linarith) (by linarith)]

/-! ### Moving the rotor -/

theorem moved_centre {x y : ℝ} (h : x ≠ 0 ∨ y ≠ 0) :
    centre √(x ^ 2 + y ^ 2) (arccos |y / √(x ^ 2 + y ^ 2)|) = (|x|, -|y|) := by
  have hpos : 0 < x ^ 2 + y ^ 2 := by
    rcases h with h | h
    · nlinarith [sq_nonneg y, sq_pos_of_ne_zero h]
    · nlinarith [sq_nonneg x, sq_pos_of_ne_zero h]
  have he : 0 < √(x ^ 2 + y ^ 2) := sqrt_pos.2 hpos
  have hsq := sq_sqrt hpos.le
  set e := √(x ^ 2 + y ^ 2)
  have hle : |y| ≤ e := abs_le_sqrt (by nlinarith [sq_nonneg x])
  unfold centre
  rw [sin_arccos, cos_arccos (by linarith [abs_nonneg (y / e)])
    (by rw [abs_div, abs_of_pos he, div_le_one he]; exact hle), Prod.mk.injEq]
  constructor
  · have : e = √(e ^ 2) := (sqrt_sq he.le).symm
    rw [sq_abs, this, ← sqrt_mul (sq_nonneg e), ← this, mul_sub, mul_one, div_pow, mul_div_cancel₀ _ (by positivity),
      hsq, add_sub_cancel_right, sqrt_sq_eq_abs]
  · rw [abs_div, abs_of_pos he]
    field_simp

end Ross.FluidLemmas
