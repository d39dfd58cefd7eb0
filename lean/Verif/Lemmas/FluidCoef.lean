import Mathlib.MeasureTheory.Integral.IntervalIntegral.FundThmCalculus
import Mathlib.Analysis.SpecialFunctions.Trigonometric.DerivHyp
import Mathlib.Analysis.SpecialFunctions.Log.Deriv
import Mathlib.Analysis.SpecialFunctions.Sqrt
import Verif.Lemmas.FluidInit
import Verif.Spec.FluidCoef

/-!
# Lemmas on the coefficients of the pressure equation
-/

namespace Ross.FluidLemmas

open Real Fluid Spec.Fluid Fluid.FluidFlow

theorem const_of_deriv_zero {f : ℝ → ℝ} {a b : ℝ} (h : ∀ r ∈ Set.Icc a b, HasDerivAt f 0 r) {x : ℝ}
    (hx : x ∈ Set.Icc a b) : f x = f a := by
  have := intervalIntegral.integral_eq_sub_of_hasDerivAt (a := a) (b := x) (f := f) (f' := fun _ => 0)
    (fun r hr => h r (by rw [Set.uIcc_of_le hx.1] at hr; exact ⟨hr.1, hr.2.trans hx.2⟩)) (by simp)
  simp at this
  linarith

/-! ### The coefficients in short -/

theorem coef_1_eq {mu re ri : ℝ} (hi : 0 < ri) (h : ri < re) :
    coef_1 mu re ri = (1 / (4 * mu)) *
      (2 * re ^ 2 * ri ^ 2 * (log re - log ri) ^ 2 / (re ^ 2 - ri ^ 2) - (re ^ 2 - ri ^ 2) / 2) := by
  have hd : 0 < re ^ 2 - ri ^ 2 := by nlinarith
  have hd' : ri ^ 2 - re ^ 2 ≠ 0 := by linarith
  unfold coef_1 coef_k
  rw [log_div (by linarith) hi.ne']
  congr 1
  rw [eq_sub_iff_add_eq, eq_div_iff hd.ne']
  have : (re ^ 2 * (log re - 1 / 2) - ri ^ 2 * (log ri - 1 / 2)) / (ri ^ 2 - re ^ 2) =
      -((re ^ 2 * (log re - 1 / 2) - ri ^ 2 * (log ri - 1 / 2)) / (re ^ 2 - ri ^ 2)) := by
    rw [← div_neg, neg_sub]
  rw [this]
  field_simp
  ring

theorem coef_2_eq {mu re ri : ℝ} (hi : 0 < ri) (h : ri < re) :
    coef_2 mu re ri = (1 / (4 * mu)) * (((re ^ 2 - ri ^ 2) ^ 2 / (log re - log ri) - (re ^ 4 - ri ^ 4)) / 4) := by
  have hl : 0 < log re - log ri := sub_pos.2 (log_lt_log hi h)
  unfold coef_2
  rw [log_div (by linarith) hi.ne']
  by_cases hm : mu = 0
  · simp [hm]
  field_simp
  ring

theorem coef_0w_eq {w re ri : ℝ} (hi : 0 < ri) (h : ri < re) :
    coef_0w w re ri = -(w * ri * (re ^ 2 * (log re - log ri) / (re ^ 2 - ri ^ 2) - 1 / 2)) := by
  have hd : re ^ 2 - ri ^ 2 ≠ 0 := by nlinarith
  unfold coef_0w
  rw [log_div (by linarith) hi.ne']
  field_simp
  ring

/-! ### Signs -/

theorem sinh_lt_mul_cosh {x : ℝ} (hx : 0 < x) : sinh x < x * cosh x := by
  have hmono : StrictMonoOn (fun x : ℝ => x * cosh x - sinh x) (Set.Ici 0) := by
    apply strictMonoOn_of_deriv_pos (convex_Ici 0)
    · fun_prop
    · intro y hy
      rw [interior_Ici] at hy
      have : HasDerivAt (fun x : ℝ => x * cosh x - sinh x) (1 * cosh y + y * sinh y - cosh y) y :=
        ((hasDerivAt_id y).mul (hasDerivAt_cosh y)).sub (hasDerivAt_sinh y)
      rw [this.deriv]
      have := mul_pos (Set.mem_Ioi.1 hy) (sinh_pos_iff.2 (Set.mem_Ioi.1 hy))
      linarith
  have := hmono (Set.mem_Ici.2 le_rfl) (Set.mem_Ici.2 hx.le) hx
  simp at this
  linarith

theorem coef_1_neg {mu re ri : ℝ} (hm : 0 < mu) (hi : 0 < ri) (h : ri < re) : coef_1 mu re ri < 0 := by
  have he : 0 < re := by linarith
  have hd : 0 < re ^ 2 - ri ^ 2 := by nlinarith
  have hl : 0 < log re - log ri := sub_pos.2 (log_lt_log hi h)
  rw [coef_1_eq hi h]
  apply mul_neg_of_pos_of_neg (by positivity)
  rw [sub_neg, div_lt_iff₀ hd]
  have h1 := self_lt_sinh_iff.2 (by rwa [← log_div he.ne' hi.ne'] at hl : 0 < log (re / ri))
  rw [sinh_log (by positivity), log_div he.ne' hi.ne'] at h1
  have h2 : 2 * re * ri * (log re - log ri) < re ^ 2 - ri ^ 2 := by
    have : (re / ri - (re / ri)⁻¹) / 2 = (re ^ 2 - ri ^ 2) / (2 * re * ri) := by field_simp
    rw [this, lt_div_iff₀ (by positivity)] at h1
    linarith
  have h3 : (2 * re * ri * (log re - log ri)) ^ 2 < (re ^ 2 - ri ^ 2) ^ 2 :=
    pow_lt_pow_left₀ h2 (by positivity) (by norm_num)
  nlinarith

theorem coef_2_neg {mu re ri : ℝ} (hm : 0 < mu) (hi : 0 < ri) (h : ri < re) : coef_2 mu re ri < 0 := by
  have he : 0 < re := by linarith
  have hd : 0 < re ^ 2 - ri ^ 2 := by nlinarith
  have hl : 0 < log re - log ri := sub_pos.2 (log_lt_log hi h)
  rw [coef_2_eq hi h]
  apply mul_neg_of_pos_of_neg (by positivity)
  apply div_neg_of_neg_of_pos _ (by norm_num)
  rw [sub_neg, div_lt_iff₀ hl]
  have h1 := sinh_lt_mul_cosh (by rwa [← log_div he.ne' hi.ne'] at hl : 0 < log (re / ri))
  rw [sinh_log (by positivity), cosh_log (by positivity), log_div he.ne' hi.ne'] at h1
  have h2 : re ^ 2 - ri ^ 2 < (log re - log ri) * (re ^ 2 + ri ^ 2) := by
    have e1 : (re / ri - (re / ri)⁻¹) / 2 = (re ^ 2 - ri ^ 2) / (2 * re * ri) := by field_simp
    have e2 : (re / ri + (re / ri)⁻¹) / 2 = (re ^ 2 + ri ^ 2) / (2 * re * ri) := by field_simp
    rw [e1, e2, ← mul_div_assoc, div_lt_div_iff_of_pos_right (by positivity)] at h1
    exact h1
  nlinarith

/-! ### The flow around the axis -/

theorem around_form {mu G ri re w : ℝ} {u u' : ℝ → ℝ} (hmu : mu ≠ 0) (hi : 0 < ri)
    (h : FlowAround mu G ri re w u u') :
    ∃ A B, ∀ r ∈ Set.Icc ri re, u r = G / (2 * mu) * (r * log r) + A * r + B / r := by
  have hpos : ∀ r ∈ Set.Icc ri re, 0 < r := fun r hr => lt_of_lt_of_le hi hr.1
  have h1 : ∀ r ∈ Set.Icc ri re, u' r + u r / r - G / mu * log r = u' ri + u ri / ri - G / mu * log ri := by
    intro r hr
    refine const_of_deriv_zero (f := fun r => u' r + u r / r - G / mu * log r) (a := ri) (b := re) ?_ hr
    intro s hs
    have hs0 := (hpos s hs).ne'
    have := (h.momentum s hs).sub ((hasDerivAt_log hs0).const_mul (G / mu))
    refine this.congr_deriv ?_
    field_simp
    ring
  set K := u' ri + u ri / ri - G / mu * log ri
  have h2 : ∀ r ∈ Set.Icc ri re, r * u r - (G / mu * (r ^ 2 / 2 * log r - r ^ 2 / 4) + K * r ^ 2 / 2) =
      ri * u ri - (G / mu * (ri ^ 2 / 2 * log ri - ri ^ 2 / 4) + K * ri ^ 2 / 2) := by
    intro r hr
    refine const_of_deriv_zero
      (f := fun r => r * u r - (G / mu * (r ^ 2 / 2 * log r - r ^ 2 / 4) + K * r ^ 2 / 2)) (a := ri) (b := re) ?_ hr
    intro s hs
    have hs0 := (hpos s hs).ne'
    have d1 := (hasDerivAt_id s).mul (h.deriv s hs)
    have d2 : HasDerivAt (fun r : ℝ => r ^ 2 / 2) s s := by
      have := ((hasDerivAt_id s).pow 2).div_const 2
      refine this.congr_deriv ?_
      simp
    have d3 : HasDerivAt (fun r : ℝ => r ^ 2 / 4) (s / 2) s := by
      have := ((hasDerivAt_id s).pow 2).div_const 4
      refine this.congr_deriv ?_
      simp
      ring
    have d4 : HasDerivAt (fun r : ℝ => K * r ^ 2 / 2) (K * s) s := by
      have := (d2.const_mul K)
      refine (this.congr_of_eventuallyEq (Filter.Eventually.of_forall fun r => ?_))
      ring
    have d5 := ((d2.mul (hasDerivAt_log hs0)).sub d3).const_mul (G / mu)
    have d6 := d1.sub (d5.add d4)
    refine d6.congr_deriv ?_
    have e := h1 s hs
    have e' : s * u' s + u s = s * (G / mu * log s + K) := by
      have : u' s + u s / s = G / mu * log s + K := by linarith
      rw [← this]
      field_simp
    simp only [id, one_mul]
    have : s ^ 2 / 2 * s⁻¹ = s / 2 := by field_simp
    rw [this]
    linear_combination e'
  set M := ri * u ri - (G / mu * (ri ^ 2 / 2 * log ri - ri ^ 2 / 4) + K * ri ^ 2 / 2)
  refine ⟨K / 2 - G / (4 * mu), M, fun r hr => ?_⟩
  have hr0 := (hpos r hr).ne'
  have e := h2 r hr
  have : r * u r = G / mu * (r ^ 2 / 2 * log r - r ^ 2 / 4) + K * r ^ 2 / 2 + M := by linarith
  have : u r = (G / mu * (r ^ 2 / 2 * log r - r ^ 2 / 4) + K * r ^ 2 / 2 + M) / r := by
    rw [← this]; field_simp
  rw [this]
  field_simp
  ring

theorem around_integral {a A B ri re : ℝ} (hi : 0 < ri) (h : ri ≤ re) :
    ∫ r in ri..re, (a * (r * log r) + A * r + B / r) =
      (a * (re ^ 2 / 2 * log re - re ^ 2 / 4) + A * re ^ 2 / 2 + B * log re) -
      (a * (ri ^ 2 / 2 * log ri - ri ^ 2 / 4) + A * ri ^ 2 / 2 + B * log ri) := by
  have hpos : ∀ r ∈ Set.uIcc ri re, r ≠ 0 := by
    intro r hr
    rw [Set.uIcc_of_le h] at hr
    exact (lt_of_lt_of_le hi hr.1).ne'
  apply intervalIntegral.integral_eq_sub_of_hasDerivAt
    (f := fun r => a * (r ^ 2 / 2 * log r - r ^ 2 / 4) + A * r ^ 2 / 2 + B * log r)
  · intro s hs
    have hs0 := hpos s hs
    have d2 : HasDerivAt (fun r : ℝ => r ^ 2 / 2) s s := by
      have := ((hasDerivAt_id s).pow 2).div_const 2
      refine this.congr_deriv ?_
      simp
    have d3 : HasDerivAt (fun r : ℝ => r ^ 2 / 4) (s / 2) s := by
      have := ((hasDerivAt_id s).pow 2).div_const 4
      refine this.congr_deriv ?_
      simp
      ring
    have d4 : HasDerivAt (fun r : ℝ => A * r ^ 2 / 2) (A * s) s := by
      have := (d2.const_mul A)
      refine (this.congr_of_eventuallyEq (Filter.Eventually.of_forall fun r => ?_))
      ring
    have d6 := ((((d2.mul (hasDerivAt_log hs0)).sub d3).const_mul a).add d4).add ((hasDerivAt_log hs0).const_mul B)
    refine d6.congr_deriv ?_
    field_simp
    ring
  · apply ContinuousOn.intervalIntegrable
    apply ContinuousOn.add
    · apply ContinuousOn.add
      · exact continuousOn_const.mul (continuousOn_id.mul (ContinuousOn.log continuousOn_id hpos))
      · exact continuousOn_const.mul continuousOn_id
    · exact continuousOn_const.div continuousOn_id hpos

/-- The flow around the axis is what the coefficients say. -/
theorem around_flow {mu G ri re w : ℝ} {u u' : ℝ → ℝ} (hmu : mu ≠ 0) (hi : 0 < ri) (hlt : ri < re)
    (h : FlowAround mu G ri re w u u') :
    ∫ r in ri..re, u r = coef_1 mu re ri * G - coef_0w w re ri := by
  obtain ⟨A, B, hu⟩ := around_form hmu hi h
  have he : 0 < re := by linarith
  have hd : re ^ 2 - ri ^ 2 ≠ 0 := by nlinarith
  have hint : ∫ r in ri..re, u r = ∫ r in ri..re, (G / (2 * mu) * (r * log r) + A * r + B / r) := by
    apply intervalIntegral.integral_congr
    intro r hr
    rw [Set.uIcc_of_le hlt.le] at hr
    exact hu r hr
  have e1 := hu ri ⟨le_rfl, hlt.le⟩
  have e2 := hu re ⟨hlt.le, le_rfl⟩
  rw [h.inner] at e1
  rw [h.outer] at e2
  -- the constants
  have hB : B = -(G / (2 * mu) * (re ^ 2 * log re) + A * re ^ 2) := by
    have : 0 = (G / (2 * mu) * (re * log re) + A * re) * re + B := by
      rw [← sub_eq_zero] at e2
      field_simp at e2 ⊢
      linarith
    linear_combination -this
  have hA : A * (re ^ 2 - ri ^ 2) = -(w * ri) - G / (2 * mu) * (re ^ 2 * log re - ri ^ 2 * log ri) := by
    have : w * ri = (G / (2 * mu) * (ri * log ri) + A * ri) * ri + B := by
      rw [e1]; field_simp
    rw [hB] at this
    linear_combination this
  have hA' : A = (-(w * ri) - G / (2 * mu) * (re ^ 2 * log re - ri ^ 2 * log ri)) / (re ^ 2 - ri ^ 2) := by
    rw [eq_div_iff hd, hA]
  rw [hint, around_integral hi hlt.le, coef_1_eq hi hlt, coef_0w_eq hi hlt, hB, hA']
  field_simp
  ring

/-- There is such a flow. -/
theorem around_exists {mu G ri re w : ℝ} (hmu : mu ≠ 0) (hi : 0 < ri) (hlt : ri < re) :
    ∃ u u', FlowAround mu G ri re w u u' := by
  have he : 0 < re := by linarith
  have hd : re ^ 2 - ri ^ 2 ≠ 0 := by nlinarith
  set A := (-(w * ri) - G / (2 * mu) * (re ^ 2 * log re - ri ^ 2 * log ri)) / (re ^ 2 - ri ^ 2) with hA
  set B := -(G / (2 * mu) * (re ^ 2 * log re) + A * re ^ 2) with hB
  have hpos : ∀ r ∈ Set.Icc ri re, 0 < r := fun r hr => lt_of_lt_of_le hi hr.1
  refine ⟨fun r => G / (2 * mu) * (r * log r) + A * r + B / r, fun r => G / (2 * mu) * (log r + 1) + A - B / r ^ 2,
    ?_, ?_, ?_, ?_⟩
  · intro s hs
    have hs0 := (hpos s hs).ne'
    have d := ((((hasDerivAt_id s).mul (hasDerivAt_log hs0)).const_mul (G / (2 * mu))).add
      ((hasDerivAt_id s).const_mul A)).add ((hasDerivAt_inv hs0).const_mul B)
    refine (d.congr_deriv ?_).congr_of_eventuallyEq (Filter.Eventually.of_forall fun r => ?_)
    · simp only [id]
      field_simp
      ring
    · simp [div_eq_mul_inv]
  · intro s hs
    have hs0 := (hpos s hs).ne'
    have d := ((hasDerivAt_log hs0).const_mul (G / mu)).add_const (G / (2 * mu) + 2 * A)
    refine (d.congr_deriv ?_).congr_of_eventuallyEq ?_
    · field_simp
    · have : ∀ᶠ r in nhds s, r ≠ 0 := isOpen_ne.mem_nhds hs0
      filter_upwards [this] with r hr
      field_simp
      ring
  · have : A * (re ^ 2 - ri ^ 2) = -(w * ri) - G / (2 * mu) * (re ^ 2 * log re - ri ^ 2 * log ri) := by
      rw [hA]; field_simp
    have : (G / (2 * mu) * (ri * log ri) + A * ri + B / ri) * ri = w * ri := by
      have e : (G / (2 * mu) * (ri * log ri) + A * ri + B / ri) * ri =
        G / (2 * mu) * (ri ^ 2 * log ri) + A * ri ^ 2 + B := by field_simp
      rw [e, hB]
      linear_combination -this
    exact mul_right_cancel₀ hi.ne' this
  · rw [hB]
    field_simp
    ring

/-! ### The flow along the axis -/

theorem along_form {mu G ri re : ℝ} {v v' : ℝ → ℝ} (hmu : mu ≠ 0) (hi : 0 < ri) (h : FlowAlong mu G ri re v v') :
    ∃ A B, ∀ r ∈ Set.Icc ri re, v r = G / (4 * mu) * r ^ 2 + A * log r + B := by
  have hpos : ∀ r ∈ Set.Icc ri re, 0 < r := fun r hr => lt_of_lt_of_le hi hr.1
  have d2 : ∀ s : ℝ, HasDerivAt (fun r : ℝ => r ^ 2) (2 * s) s := by
    intro s
    have := (hasDerivAt_id s).pow 2
    refine this.congr_deriv ?_
    simp
  have h1 : ∀ r ∈ Set.Icc ri re, r * v' r - G / (2 * mu) * r ^ 2 = ri * v' ri - G / (2 * mu) * ri ^ 2 := by
    intro r hr
    refine const_of_deriv_zero (f := fun r => r * v' r - G / (2 * mu) * r ^ 2) (a := ri) (b := re) ?_ hr
    intro s hs
    refine ((h.momentum s hs).sub ((d2 s).const_mul (G / (2 * mu)))).congr_deriv ?_
    field_simp
    ring
  set A := ri * v' ri - G / (2 * mu) * ri ^ 2
  have h2 : ∀ r ∈ Set.Icc ri re, v r - (G / (4 * mu) * r ^ 2 + A * log r) =
      v ri - (G / (4 * mu) * ri ^ 2 + A * log ri) := by
    intro r hr
    refine const_of_deriv_zero (f := fun r => v r - (G / (4 * mu) * r ^ 2 + A * log r)) (a := ri) (b := re) ?_ hr
    intro s hs
    have hs0 := (hpos s hs).ne'
    refine ((h.deriv s hs).sub (((d2 s).const_mul (G / (4 * mu))).add
      ((hasDerivAt_log hs0).const_mul A))).congr_deriv ?_
    have e := h1 s hs
    have : v' s = (G / (2 * mu) * s ^ 2 + A) / s := by
      rw [eq_div_iff hs0]; linarith
    rw [this]
    field_simp
    ring
  exact ⟨A, v ri - (G / (4 * mu) * ri ^ 2 + A * log ri), fun r hr => by linarith [h2 r hr]⟩

theorem along_integral {a A B ri re : ℝ} (hi : 0 < ri) (h : ri ≤ re) :
    ∫ r in ri..re, r * (a * r ^ 2 + A * log r + B) =
      (a * re ^ 4 / 4 + A * (re ^ 2 / 2 * log re - re ^ 2 / 4) + B * re ^ 2 / 2) -
      (a * ri ^ 4 / 4 + A * (ri ^ 2 / 2 * log ri - ri ^ 2 / 4) + B * ri ^ 2 / 2) := by
  have hpos : ∀ r ∈ Set.uIcc ri re, r ≠ 0 := by
    intro r hr
    rw [Set.uIcc_of_le h] at hr
    exact (lt_of_lt_of_le hi hr.1).ne'
  apply intervalIntegral.integral_eq_sub_of_hasDerivAt
    (f := fun r => a * r ^ 4 / 4 + A * (r ^ 2 / 2 * log r - r ^ 2 / 4) + B * r ^ 2 / 2)
  · intro s hs
    have hs0 := hpos s hs
    have d2 : HasDerivAt (fun r : ℝ => r ^ 2 / 2) s s := by
      have := ((hasDerivAt_id s).pow 2).div_const 2
      refine this.congr_deriv ?_
      simp
    have d3 : HasDerivAt (fun r : ℝ => r ^ 2 / 4) (s / 2) s := by
      have := ((hasDerivAt_id s).pow 2).div_const 4
      refine this.congr_deriv ?_
      simp
      ring
    have d4 : HasDerivAt (fun r : ℝ => B * r ^ 2 / 2) (B * s) s := by
      have := (d2.const_mul B)
      refine (this.congr_of_eventuallyEq (Filter.Eventually.of_forall fun r => ?_))
      ring
    have d1 : HasDerivAt (fun r : ℝ => a * r ^ 4 / 4) (a * s ^ 3) s := by
      have := (((hasDerivAt_id s).pow 4).const_mul a).div_const 4
      refine this.congr_deriv ?_
      simp
      ring
    have d6 := (d1.add (((d2.mul (hasDerivAt_log hs0)).sub d3).const_mul A)).add d4
    refine d6.congr_deriv ?_
    field_simp
    ring
  · apply ContinuousOn.intervalIntegrable
    apply continuousOn_id.mul
    apply ContinuousOn.add
    · apply ContinuousOn.add
      · exact continuousOn_const.mul (continuousOn_id.pow 2)
      · exact continuousOn_const.mul (ContinuousOn.log continuousOn_id hpos)
    · exact continuousOn_const

/-- The flow along the axis is what the coefficient says. -/
theorem along_flow {mu G ri re : ℝ} {v v' : ℝ → ℝ} (hmu : mu ≠ 0) (hi : 0 < ri) (hlt : ri < re)
    (h : FlowAlong mu G ri re v v') : ∫ r in ri..re, r * v r = coef_2 mu re ri * G := by
  obtain ⟨A, B, hv⟩ := along_form hmu hi h
  have he : 0 < re := by linarith
  have hl : log re - log ri ≠ 0 := (sub_pos.2 (log_lt_log hi hlt)).ne'
  have hint : ∫ r in ri..re, r * v r = ∫ r in ri..re, r * (G / (4 * mu) * r ^ 2 + A * log r + B) := by
    apply intervalIntegral.integral_congr
    intro r hr
    rw [Set.uIcc_of_le hlt.le] at hr
    dsimp only
    rw [hv r hr]
  have e1 := hv ri ⟨le_rfl, hlt.le⟩
  have e2 := hv re ⟨hlt.le, le_rfl⟩
  rw [h.inner] at e1
  rw [h.outer] at e2
  have hA : A = -(G / (4 * mu) * (re ^ 2 - ri ^ 2)) / (log re - log ri) := by
    rw [eq_div_iff hl]; linear_combination e1 - e2
  have hB : B = -(G / (4 * mu) * ri ^ 2 + A * log ri) := by linarith
  rw [hint, along_integral hi hlt.le, coef_2_eq hi hlt, hB, hA]
  field_simp
  ring

/-- There is such a flow. -/
theorem along_exists {mu G ri re : ℝ} (hmu : mu ≠ 0) (hi : 0 < ri) (hlt : ri < re) :
    ∃ v v', FlowAlong mu G ri re v v' := by
  have hl : log re - log ri ≠ 0 := (sub_pos.2 (log_lt_log hi hlt)).ne'
  set A := -(G / (4 * mu) * (re ^ 2 - ri ^ 2)) / (log re - log ri) with hA
  have hpos : ∀ r ∈ Set.Icc ri re, 0 < r := fun r hr => lt_of_lt_of_le hi hr.1
  have d2 : ∀ s : ℝ, HasDerivAt (fun r : ℝ => r ^ 2) (2 * s) s := by
    intro s
    have := (hasDerivAt_id s).pow 2
    refine this.congr_deriv ?_
    simp
  refine ⟨fun r => G / (4 * mu) * r ^ 2 + A * log r - (G / (4 * mu) * ri ^ 2 + A * log ri),
    fun r => G / (2 * mu) * r + A / r, ?_, ?_, ?_, ?_⟩
  · intro s hs
    have hs0 := (hpos s hs).ne'
    refine ((((d2 s).const_mul (G / (4 * mu))).add ((hasDerivAt_log hs0).const_mul A)).sub_const _).congr_deriv ?_
    field_simp
    ring
  · intro s hs
    have hs0 := (hpos s hs).ne'
    refine ((((d2 s).const_mul (G / (2 * mu))).add_const A).congr_deriv ?_).congr_of_eventuallyEq ?_
    · field_simp
    · have : ∀ᶠ r in nhds s, r ≠ 0 := isOpen_ne.mem_nhds hs0
      filter_upwards [this] with r hr
      field_simp
  · ring
  · have : A * (log re - log ri) = -(G / (4 * mu) * (re ^ 2 - ri ^ 2)) := by rw [hA]; field_simp
    linear_combination this

end Ross.FluidLemmas
