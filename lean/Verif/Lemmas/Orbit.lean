import Verif.Model.Orbit
import Verif.Spec.Orbit
import Verif.Spec.Dynamics
import Mathlib.LinearAlgebra.Matrix.Charpoly.Eigs
import Mathlib.Analysis.Complex.Polynomial.Basic
import Mathlib.Analysis.SpecialFunctions.Trigonometric.Deriv
import Mathlib.Analysis.SpecialFunctions.Pow.Complex

/-!
# Orbits: axes, sense of rotation
-/

namespace Ross.OrbitLemmas

open Spec Matrix Complex

/-! ### The motion -/

theorem coord_eq (a : ℂ) (τ : ℝ) : coord a τ = a.re * Real.cos τ - a.im * Real.sin τ := by
  unfold coord
  rw [mul_comm Complex.I, Complex.exp_mul_I, ← Complex.ofReal_cos, ← Complex.ofReal_sin, Complex.mul_re]
  simp only [Complex.add_re, Complex.add_im, Complex.mul_re, Complex.mul_im, Complex.I_re, Complex.I_im,
    Complex.ofReal_re, Complex.ofReal_im]
  ring

theorem hasDeriv_coord (a : ℂ) (τ : ℝ) :
    HasDerivAt (coord a) (-(a.re * Real.sin τ) - a.im * Real.cos τ) τ := by
  have e : coord a = fun τ => a.re * Real.cos τ - a.im * Real.sin τ := funext (coord_eq a)
  rw [e]
  have h1 := (Real.hasDerivAt_cos τ).const_mul a.re
  have h2 := (Real.hasDerivAt_sin τ).const_mul a.im
  have h := h1.sub h2
  rw [mul_neg] at h
  exact h

/-- The area rate does not depend on the phase. -/
theorem areaRate_eq (ru rv : ℂ) (τ : ℝ) : areaRate ru rv τ = ru.im * rv.re - ru.re * rv.im := by
  unfold areaRate
  rw [(hasDeriv_coord rv τ).deriv, (hasDeriv_coord ru τ).deriv, coord_eq, coord_eq]
  linear_combination (ru.im * rv.re - ru.re * rv.im) * Real.sin_sq_add_cos_sq τ

/-- Sum of the squared amplitudes. -/
noncomputable def power (ru rv : ℂ) : ℝ := ru.re ^ 2 + ru.im ^ 2 + (rv.re ^ 2 + rv.im ^ 2)

/-- The constant area rate. -/
noncomputable def turn (ru rv : ℂ) : ℝ := ru.im * rv.re - ru.re * rv.im

/-- The complex number whose modulus is the difference of the squared axes. -/
noncomputable def skew (ru rv : ℂ) : ℂ := ru ^ 2 + rv ^ 2

theorem skew_norm (ru rv : ℂ) : ‖skew ru rv‖ ^ 2 = power ru rv ^ 2 - 4 * turn ru rv ^ 2 := by
  rw [← Complex.normSq_eq_norm_sq, Complex.normSq_apply, skew, power, turn]
  simp only [pow_two, Complex.add_re, Complex.add_im, Complex.mul_re, Complex.mul_im]
  ring

theorem power_nonneg (ru rv : ℂ) : 0 ≤ power ru rv := by unfold power; positivity

theorem skew_le (ru rv : ℂ) : ‖skew ru rv‖ ≤ power ru rv := by
  have h := skew_norm ru rv
  have h1 := power_nonneg ru rv
  nlinarith [sq_nonneg (turn ru rv), norm_nonneg (skew ru rv)]

/-- The squared distance from the rest position. -/
theorem radius_sq (ru rv : ℂ) (τ : ℝ) :
    coord ru τ ^ 2 + coord rv τ ^ 2 =
      (power ru rv + ‖skew ru rv‖ * Real.cos (Complex.arg (skew ru rv) + 2 * τ)) / 2 := by
  have hc := Complex.norm_mul_cos_arg (skew ru rv)
  have hs := Complex.norm_mul_sin_arg (skew ru rv)
  rw [Real.cos_add, mul_sub, ← mul_assoc, hc, ← mul_assoc, hs, Real.cos_two_mul, Real.sin_two_mul,
    coord_eq, coord_eq, skew, power]
  simp only [pow_two, Complex.add_re, Complex.add_im, Complex.mul_re, Complex.mul_im]
  have := Real.sin_sq_add_cos_sq τ
  have e : Real.sin τ ^ 2 = 1 - Real.cos τ ^ 2 := by linarith
  linear_combination (ru.im ^ 2 + rv.im ^ 2) * e

/-- Larger squared axis. -/
noncomputable def big (ru rv : ℂ) : ℝ := (power ru rv + ‖skew ru rv‖) / 2

/-- Smaller squared axis. -/
noncomputable def small (ru rv : ℂ) : ℝ := (power ru rv - ‖skew ru rv‖) / 2

theorem small_nonneg (ru rv : ℂ) : 0 ≤ small ru rv := by
  have := skew_le ru rv
  unfold small
  linarith

theorem small_le_big (ru rv : ℂ) : small ru rv ≤ big ru rv := by
  have := norm_nonneg (skew ru rv)
  unfold small big
  linarith

theorem big_nonneg (ru rv : ℂ) : 0 ≤ big ru rv := (small_nonneg ru rv).trans (small_le_big ru rv)

theorem big_mul_small (ru rv : ℂ) : big ru rv * small ru rv = turn ru rv ^ 2 := by
  have := skew_norm ru rv
  unfold big small
  linarith

theorem big_add_small (ru rv : ℂ) : big ru rv + small ru rv = power ru rv := by
  unfold big small
  ring

theorem radius_sq_le (ru rv : ℂ) (τ : ℝ) : coord ru τ ^ 2 + coord rv τ ^ 2 ≤ big ru rv := by
  rw [radius_sq, big]
  have := mul_le_mul_of_nonneg_left (Real.cos_le_one (Complex.arg (skew ru rv) + 2 * τ))
    (norm_nonneg (skew ru rv))
  linarith

theorem le_radius_sq (ru rv : ℂ) (τ : ℝ) : small ru rv ≤ coord ru τ ^ 2 + coord rv τ ^ 2 := by
  rw [radius_sq, small]
  have := mul_le_mul_of_nonneg_left (Real.neg_one_le_cos (Complex.arg (skew ru rv) + 2 * τ))
    (norm_nonneg (skew ru rv))
  linarith

theorem greatest_radius (ru rv : ℂ) :
    IsGreatest (Set.range (radius ru rv)) (Real.sqrt (big ru rv)) := by
  refine ⟨⟨-Complex.arg (skew ru rv) / 2, ?_⟩, ?_⟩
  · unfold radius
    rw [radius_sq]
    congr 1
    have : Complex.arg (skew ru rv) + 2 * (-Complex.arg (skew ru rv) / 2) = 0 := by ring
    rw [this, Real.cos_zero, mul_one, big]
  · rintro _ ⟨τ, rfl⟩
    exact Real.sqrt_le_sqrt (radius_sq_le ru rv τ)

theorem least_radius (ru rv : ℂ) :
    IsLeast (Set.range (radius ru rv)) (Real.sqrt (small ru rv)) := by
  refine ⟨⟨(Real.pi - Complex.arg (skew ru rv)) / 2, ?_⟩, ?_⟩
  · unfold radius
    rw [radius_sq]
    congr 1
    have : Complex.arg (skew ru rv) + 2 * ((Real.pi - Complex.arg (skew ru rv)) / 2) = Real.pi := by ring
    rw [this, Real.cos_pi, small]
    ring
  · rintro _ ⟨τ, rfl⟩
    exact Real.sqrt_le_sqrt (le_radius_sq ru rv τ)

/-! ### The eigenvalues -/

theorem H_apply (ru rv : ℂ) :
    Orbit.H ru rv (.inl 0) (.inl 0) = ru.re ^ 2 + ru.im ^ 2 ∧
    Orbit.H ru rv (.inl 0) (.inr 0) = ru.re * rv.re + ru.im * rv.im ∧
    Orbit.H ru rv (.inr 0) (.inl 0) = ru.re * rv.re + ru.im * rv.im ∧
    Orbit.H ru rv (.inr 0) (.inr 0) = rv.re ^ 2 + rv.im ^ 2 := by
  have a1 := Complex.norm_mul_cos_arg ru
  have a2 := Complex.norm_mul_sin_arg ru
  have b1 := Complex.norm_mul_cos_arg rv
  have b2 := Complex.norm_mul_sin_arg rv
  unfold Orbit.H
  simp only [Matrix.mul_apply, Fintype.sum_sum_type, Finset.univ_unique, Fin.default_eq_zero,
    Finset.sum_singleton, Matrix.of_apply, Matrix.transpose_apply, neg_mul, a1, a2, b1, b2]
  refine ⟨by ring, by ring, by ring, by ring⟩

theorem lam_sum_prod {la : Lapack} (hla : LapackOk la) (ru rv : ℂ) :
    ∃ z w : ℂ, (la.eig (Orbit.H ru rv)).map Prod.fst = [z, w] ∧ z + w = power ru rv ∧
      z * w = ((turn ru rv ^ 2 : ℝ) : ℂ) := by
  obtain ⟨h1, h2, h3, h4⟩ := H_apply ru rv
  have hv := (hla.eig (Orbit.H ru rv)).values
  set l := (la.eig (Orbit.H ru rv)).map Prod.fst with hl
  have ht := Matrix.trace_eq_sum_roots_charpoly (cplx (Orbit.H ru rv))
  have hd := Matrix.det_eq_prod_roots_charpoly (cplx (Orbit.H ru rv))
  have hc : Multiset.card (cplx (Orbit.H ru rv)).charpoly.roots = 2 := by
    rw [IsAlgClosed.card_roots_eq_natDegree, Matrix.charpoly_natDegree_eq_dim]
    rfl
  rw [← hv] at ht hd hc
  rw [Multiset.sum_coe] at ht
  rw [Multiset.prod_coe] at hd
  rw [Multiset.coe_card] at hc
  obtain ⟨z, w, hzw⟩ := List.length_eq_two.1 hc
  refine ⟨z, w, hzw, ?_, ?_⟩
  · rw [hzw] at ht
    simp only [List.sum_cons, List.sum_nil, add_zero] at ht
    rw [← ht, Matrix.trace]
    simp only [Matrix.diag_apply, Fintype.sum_sum_type, Finset.univ_unique, Fin.default_eq_zero,
      Finset.sum_singleton, cplx, Matrix.map_apply, h1, h4, power]
    push_cast
    ring
  · rw [hzw] at hd
    simp only [List.prod_cons, List.prod_nil, mul_one] at hd
    rw [← hd, ← Matrix.det_reindex_self finSumFinEquiv, Matrix.det_fin_two]
    have e0 : finSumFinEquiv.symm (0 : Fin (1 + 1)) = .inl 0 := rfl
    have e1 : finSumFinEquiv.symm (1 : Fin (1 + 1)) = .inr 0 := rfl
    simp only [Matrix.reindex_apply, Matrix.submatrix_apply]
    erw [e0, e1]
    simp only [cplx, Matrix.map_apply, h1, h2, h3, h4, turn]
    push_cast
    ring

theorem lam_cases {la : Lapack} (hla : LapackOk la) (ru rv : ℂ) :
    (la.eig (Orbit.H ru rv)).map Prod.fst = [((big ru rv : ℝ) : ℂ), ((small ru rv : ℝ) : ℂ)] ∨
    (la.eig (Orbit.H ru rv)).map Prod.fst = [((small ru rv : ℝ) : ℂ), ((big ru rv : ℝ) : ℂ)] := by
  obtain ⟨z, w, h, hs, hp⟩ := lam_sum_prod hla ru rv
  rw [h]
  rw [← big_add_small] at hs
  rw [← big_mul_small] at hp
  push_cast at hs hp
  have hw : w = big ru rv + small ru rv - z := by linear_combination hs
  subst hw
  have : (z - big ru rv) * (z - small ru rv) = 0 := by linear_combination -hp
  rcases mul_eq_zero.1 this with h | h
  · left
    rw [sub_eq_zero.1 h]
    simp
  · right
    rw [sub_eq_zero.1 h]
    simp

theorem cmin_pair (a b : ℝ) (h : a ≤ b) : cmin [(a : ℂ), (b : ℂ)] = a ∧ cmin [(b : ℂ), (a : ℂ)] = a := by
  rcases h.lt_or_eq with h | rfl
  · have h' : ¬ (b : ℂ).re < (a : ℂ).re := by simpa using h.le
    have h'' : ¬ (b : ℂ).re = (a : ℂ).re := by simpa using h.ne'
    constructor
    · simp [cmin, cle, h]
    · simp [cmin, cle, h.not_gt, h.ne']
  · simp [cmin, cle]

theorem cmax_pair (a b : ℝ) (h : a ≤ b) : cmax [(a : ℂ), (b : ℂ)] = b ∧ cmax [(b : ℂ), (a : ℂ)] = b := by
  rcases h.lt_or_eq with h | rfl
  · constructor
    · simp [cmax, cle, h.not_gt, h.ne']
    · simp [cmax, cle, h]
  · simp [cmax, cle]

theorem csqrt (x : ℝ) (h : 0 ≤ x) : (x : ℂ) ^ (1 / 2 : ℂ) = ((Real.sqrt x : ℝ) : ℂ) := by
  rw [Real.sqrt_eq_rpow, Complex.ofReal_cpow h]
  norm_num

theorem minor_eq {la : Lapack} (hla : LapackOk la) (ru rv : ℂ) :
    cmin ((la.eig (Orbit.H ru rv)).map Prod.fst) ^ (1 / 2 : ℂ) = ((Real.sqrt (small ru rv) : ℝ) : ℂ) := by
  rw [← csqrt _ (small_nonneg ru rv)]
  congr 1
  rcases lam_cases hla ru rv with h | h <;> rw [h]
  · exact (cmin_pair _ _ (small_le_big ru rv)).2
  · exact (cmin_pair _ _ (small_le_big ru rv)).1

theorem major_eq {la : Lapack} (hla : LapackOk la) (ru rv : ℂ) :
    cmax ((la.eig (Orbit.H ru rv)).map Prod.fst) ^ (1 / 2 : ℂ) = ((Real.sqrt (big ru rv) : ℝ) : ℂ) := by
  rw [← csqrt _ (big_nonneg ru rv)]
  congr 1
  rcases lam_cases hla ru rv with h | h <;> rw [h]
  · exact (cmax_pair _ _ (small_le_big ru rv)).2
  · exact (cmax_pair _ _ (small_le_big ru rv)).1

theorem minor_axis_eq {la : Lapack} (hla : LapackOk la) (n : ℕ) (p : ℝ) (ru rv : ℂ) :
    (Orbit.init la n p ru rv).minor_axis = Real.sqrt (small ru rv) := by
  simp only [Orbit.init, minor_eq hla, Complex.ofReal_re]

theorem major_axis_eq {la : Lapack} (hla : LapackOk la) (n : ℕ) (p : ℝ) (ru rv : ℂ) :
    (Orbit.init la n p ru rv).major_axis = Real.sqrt (big ru rv) := by
  simp only [Orbit.init, major_eq hla, Complex.ofReal_re]

/-! ### The sense of rotation -/

theorem turn_polar (ru rv : ℂ) : turn ru rv =
    -(‖ru‖ * ‖rv‖ * Real.sin (Complex.arg rv - Complex.arg ru)) := by
  have a1 := Complex.norm_mul_cos_arg ru
  have a2 := Complex.norm_mul_sin_arg ru
  have b1 := Complex.norm_mul_cos_arg rv
  have b2 := Complex.norm_mul_sin_arg rv
  rw [Real.sin_sub, turn, ← a1, ← a2, ← b1, ← b2, a1, a2, b1, b2]
  linear_combination (-‖rv‖ * Real.cos rv.arg) * a2 + (‖rv‖ * Real.sin rv.arg) * a1 - ru.im * b1 + ru.re * b2

theorem phaseDiff_sin (nu nv : ℝ) : Real.sin (Orbit.phaseDiff nu nv) = Real.sin (nv - nu) := by
  simp only [Orbit.phaseDiff]
  split_ifs
  · exact Real.sin_add_two_pi _
  · exact Real.sin_sub_two_pi _
  · rfl

theorem phaseDiff_range (ru rv : ℂ) : -Real.pi ≤ Orbit.phaseDiff (Complex.arg ru) (Complex.arg rv) ∧
    Orbit.phaseDiff (Complex.arg ru) (Complex.arg rv) ≤ Real.pi := by
  have a := Complex.arg_mem_Ioc ru
  have b := Complex.arg_mem_Ioc rv
  have := Real.pi_pos
  simp only [Orbit.phaseDiff]
  split_ifs <;> constructor <;> linarith [a.1, a.2, b.1, b.2]

theorem turn_phaseDiff (ru rv : ℂ) : turn ru rv =
    -(‖ru‖ * ‖rv‖ * Real.sin (Orbit.phaseDiff (Complex.arg ru) (Complex.arg rv))) := by
  rw [phaseDiff_sin, turn_polar]

theorem major_mul_minor (ru rv : ℂ) :
    Real.sqrt (big ru rv) * Real.sqrt (small ru rv) = |turn ru rv| := by
  rw [← Real.sqrt_mul (big_nonneg ru rv), big_mul_small, Real.sqrt_sq_eq_abs]

/-- `kappa` in real arithmetic. -/
theorem kappa_cases {la : Lapack} (hla : LapackOk la) (n : ℕ) (p : ℝ) (ru rv : ℂ) :
    (Orbit.init la n p ru rv).kappa = 
      (let d := Orbit.phaseDiff (Complex.arg ru) (Complex.arg rv)
       let k := Real.sqrt (small ru rv) / Real.sqrt (big ru rv)
       if d = 0 ∨ d = Real.pi then 0 else if 0 < d ∧ d < Real.pi then -k else k) := by
  simp only [Orbit.init, minor_eq hla, major_eq hla]
  rw [← Complex.ofReal_div]
  split_ifs
  · simp
  · rw [mul_neg_one, Complex.neg_re, Complex.ofReal_re]
  · rw [Complex.ofReal_re]

theorem div_mul_sq (a b : ℝ) (h : b = 0 → a = 0) : a / b * b ^ 2 = b * a := by
  by_cases hb : b = 0
  · simp [hb]
  · field_simp

theorem kappa_mul {la : Lapack} (hla : LapackOk la) (n : ℕ) (p : ℝ) (ru rv : ℂ) :
    (Orbit.init la n p ru rv).kappa * big ru rv = turn ru rv := by
  have hb : big ru rv = Real.sqrt (big ru rv) ^ 2 := (Real.sq_sqrt (big_nonneg ru rv)).symm
  have hz : Real.sqrt (big ru rv) = 0 → Real.sqrt (small ru rv) = 0 := by
    intro h
    have := Real.sqrt_le_sqrt (small_le_big ru rv)
    rw [h] at this
    exact le_antisymm this (Real.sqrt_nonneg _)
  have hk := div_mul_sq _ _ hz
  rw [major_mul_minor, ← hb] at hk
  have ht := turn_phaseDiff ru rv
  have hr := phaseDiff_range ru rv
  rw [kappa_cases hla]
  generalize Orbit.phaseDiff (Complex.arg ru) (Complex.arg rv) = d at ht hr ⊢
  have hm : 0 ≤ ‖ru‖ * ‖rv‖ := by positivity
  simp only
  split_ifs with h1 h2
  · rcases h1 with rfl | rfl <;> simp [ht]
  · have : turn ru rv ≤ 0 := by
      rw [ht]
      have := mul_nonneg hm (Real.sin_nonneg_of_nonneg_of_le_pi h2.1.le h2.2.le)
      linarith
    rw [neg_mul, hk, abs_of_nonpos this, neg_neg]
  · have : 0 ≤ turn ru rv := by
      rw [ht]
      have hd : d ≤ 0 := by
        by_contra hd
        rw [not_le] at hd
        rcases hr.2.lt_or_eq with h | h
        · exact h2 ⟨hd, h⟩
        · exact h1 (Or.inr h)
      have := mul_nonpos_of_nonneg_of_nonpos hm (Real.sin_nonpos_of_nonpos_of_neg_pi_le hd hr.1)
      linarith
    rw [hk, abs_of_nonneg this]

theorem big_pos (ru rv : ℂ) (h : turn ru rv ≠ 0) : 0 < big ru rv := by
  refine (big_nonneg ru rv).lt_of_ne fun e => h ?_
  have := big_mul_small ru rv
  rw [← e, zero_mul] at this
  exact pow_eq_zero_iff (two_ne_zero) |>.1 this.symm

theorem kappa_sign {la : Lapack} (hla : LapackOk la) (n : ℕ) (p : ℝ) (ru rv : ℂ) :
    (0 < (Orbit.init la n p ru rv).kappa ↔ 0 < turn ru rv) ∧
    ((Orbit.init la n p ru rv).kappa < 0 ↔ turn ru rv < 0) := by
  have h := kappa_mul hla n p ru rv
  have hz : (Orbit.init la n p ru rv).kappa ≠ 0 → big ru rv ≠ 0 := by
    intro hk hb
    apply hk
    rw [kappa_cases hla, hb]
    simp
  have hb := big_nonneg ru rv
  constructor
  · constructor
    · intro hk
      rw [← h]
      exact mul_pos hk (hb.lt_of_ne (hz hk.ne').symm)
    · intro ht
      rw [← h] at ht
      exact pos_of_mul_pos_left ht hb
  · constructor
    · intro hk
      rw [← h]
      exact mul_neg_of_neg_of_pos hk (hb.lt_of_ne (hz hk.ne).symm)
    · intro ht
      rw [← h] at ht
      exact neg_of_mul_neg_left ht hb

theorem whirl_eq (la : Lapack) (n : ℕ) (p : ℝ) (ru rv : ℂ) :
    (Orbit.init la n p ru rv).whirl =
      if 0 < (Orbit.init la n p ru rv).kappa then .forward else .backward := rfl

theorem abs_kappa {la : Lapack} (hla : LapackOk la) (n : ℕ) (p : ℝ) (ru rv : ℂ) :
    |(Orbit.init la n p ru rv).kappa| * Real.sqrt (big ru rv) = Real.sqrt (small ru rv) := by
  have h := kappa_mul hla n p ru rv
  have hb := big_nonneg ru rv
  by_cases hz : Real.sqrt (big ru rv) = 0
  · rw [hz, mul_zero]
    have := Real.sqrt_le_sqrt (small_le_big ru rv)
    rw [hz] at this
    exact le_antisymm (Real.sqrt_nonneg _) this
  · have h2 := congrArg abs h
    rw [abs_mul, ← major_mul_minor, abs_of_nonneg hb] at h2
    have : big ru rv = Real.sqrt (big ru rv) * Real.sqrt (big ru rv) := (Real.mul_self_sqrt hb).symm
    rw [this] at h2
    apply mul_left_cancel₀ hz
    calc _ = |(Orbit.init la n p ru rv).kappa| * (Real.sqrt (big ru rv) * Real.sqrt (big ru rv)) := by ring
      _ = _ := by rw [h2]; rw [← this]

theorem kappa_eq {la : Lapack} (hla : LapackOk la) (node : ℕ) (pos : ℝ) (ru rv : ℂ) :
    (Orbit.init la node pos ru rv).kappa = turn ru rv / big ru rv := by
  have h := kappa_mul hla node pos ru rv
  by_cases hb : big ru rv = 0
  · rw [hb, div_zero, kappa_cases hla, hb]
    simp
  · rw [eq_div_iff hb, h]

/-! ### The sampled points -/

theorem argmax_succ (f : ℕ → ℝ) (n : ℕ) :
    argmax f (n + 1) = if f (argmax f n) < f n then n else argmax f n := by
  unfold argmax
  rw [List.range_succ, List.foldl_append]
  rfl

theorem argmax_spec (f : ℕ → ℝ) (n : ℕ) :
    argmax f (n + 1) < n + 1 ∧ (∀ i, i < n + 1 → f i ≤ f (argmax f (n + 1))) ∧
      ∀ i, i < argmax f (n + 1) → f i < f (argmax f (n + 1)) := by
  induction n with
  | zero =>
    have : argmax f 1 = 0 := by simp [argmax]
    rw [zero_add, this]
    refine ⟨Nat.one_pos, fun i hi => ?_, fun i hi => absurd hi (Nat.not_lt_zero i)⟩
    rw [Nat.lt_one_iff.1 hi]
  | succ n ih =>
    obtain ⟨h1, h2, h3⟩ := ih
    rw [argmax_succ f (n + 1)]
    split_ifs with h
    · refine ⟨Nat.lt_succ_self _, fun i hi => ?_, fun i hi => (h2 i hi).trans_lt h⟩
      rcases Nat.lt_succ_iff_lt_or_eq.1 hi with hi | rfl
      · exact (h2 i hi).trans h.le
      · exact le_rfl
    · rw [not_lt] at h
      refine ⟨h1.trans (Nat.lt_succ_self _), fun i hi => ?_, h3⟩
      rcases Nat.lt_succ_iff_lt_or_eq.1 hi with hi | rfl
      · exact h2 i hi
      · exact h

theorem argmax_of_pos (f : ℕ → ℝ) (n : ℕ) (hn : 0 < n) :
    argmax f n < n ∧ (∀ i, i < n → f i ≤ f (argmax f n)) ∧ ∀ i, i < argmax f n → f i < f (argmax f n) := by
  obtain ⟨m, rfl⟩ := Nat.exists_eq_succ_of_ne_zero hn.ne'
  exact argmax_spec f m

theorem argmin_of_pos (f : ℕ → ℝ) (n : ℕ) (hn : 0 < n) :
    argmin f n < n ∧ (∀ i, i < n → f (argmin f n) ≤ f i) ∧ ∀ i, i < argmin f n → f (argmin f n) < f i := by
  obtain ⟨h1, h2, h3⟩ := argmax_of_pos (fun i => -f i) n hn
  exact ⟨h1, fun i hi => neg_le_neg_iff.1 (h2 i hi), fun i hi => neg_lt_neg_iff.1 (h3 i hi)⟩

theorem x_circle_eq (la : Lapack) (n : ℕ) (p : ℝ) (ru rv : ℂ) (i : ℕ) :
    (Orbit.init la n p ru rv).x_circle i = coord ru (Orbit.c i) := rfl

theorem y_circle_eq (la : Lapack) (n : ℕ) (p : ℝ) (ru rv : ℂ) (i : ℕ) :
    (Orbit.init la n p ru rv).y_circle i = coord rv (Orbit.c i) := rfl

theorem major_index_spec (la : Lapack) (n : ℕ) (p : ℝ) (ru rv : ℂ) :
    (Orbit.init la n p ru rv).major_index < 180 ∧
    ∀ i, i < 180 → radius ru rv (Orbit.c i) ≤
      radius ru rv (Orbit.c (Orbit.init la n p ru rv).major_index) := by
  have e : (Orbit.init la n p ru rv).major_index = argmax (fun i => radius ru rv (Orbit.c i)) 180 := by
    simp only [Orbit.init]
    congr 1
  rw [e]
  obtain ⟨h1, h2, -⟩ := argmax_of_pos (fun i => radius ru rv (Orbit.c i)) 180 (by norm_num)
  exact ⟨h1, h2⟩

/-- One of the first half of the samples is within half a step of the farthest point. -/
theorem near_sample (φ : ℝ) : ∃ i, i < 180 ∧
    Real.cos (2 * Real.pi / 359) ≤ Real.cos (φ + 2 * Orbit.c i) := by
  have hp := Real.pi_pos
  -- the phase wanted, between zero and a full turn
  obtain ⟨x, hx0, hx1, k, hk⟩ : ∃ x, 0 ≤ x ∧ x < 2 * Real.pi ∧ ∃ k : ℤ, -φ = x + k * (2 * Real.pi) := by
    refine ⟨-φ - ⌊-φ / (2 * Real.pi)⌋ * (2 * Real.pi), ?_, ?_, ⌊-φ / (2 * Real.pi)⌋, by ring⟩
    · have := Int.floor_le (-φ / (2 * Real.pi))
      rw [le_div_iff₀ (by positivity)] at this
      linarith
    · have := Int.lt_floor_add_one (-φ / (2 * Real.pi))
      rw [div_lt_iff₀ (by positivity)] at this
      linarith
  set y := x * 359 / (4 * Real.pi) + 1 / 2 with hy
  have hy0 : 0 ≤ y := by positivity
  refine ⟨⌊y⌋₊, ?_, ?_⟩
  · rw [Nat.floor_lt hy0]
    have : x * 359 / (4 * Real.pi) < 359 / 2 := by
      rw [div_lt_iff₀ (by positivity)]
      linarith
    push_cast
    linarith
  · have f1 := Nat.floor_le hy0
    have f2 := Nat.lt_floor_add_one y
    set m : ℝ := (⌊y⌋₊ : ℝ) with hm
    have e : φ + 2 * Orbit.c ⌊y⌋₊ = (m * (4 * Real.pi / 359) - x) - k * (2 * Real.pi) := by
      unfold Orbit.c
      linear_combination -hk
    rw [e, Real.cos_sub_int_mul_two_pi]
    have hx : x = (y - 1 / 2) * (4 * Real.pi / 359) := by
      rw [hy]
      field_simp
      ring
    have hd : m * (4 * Real.pi / 359) - x = (m - (y - 1 / 2)) * (4 * Real.pi / 359) := by
      rw [hx]
      ring
    rw [hd, ← Real.cos_abs ((m - (y - 1 / 2)) * (4 * Real.pi / 359)), abs_mul,
      abs_of_pos (by positivity : 0 < 4 * Real.pi / 359)]
    have ha : |m - (y - 1 / 2)| ≤ 1 / 2 := by
      rw [abs_le]
      constructor <;> linarith
    apply Real.cos_le_cos_of_nonneg_of_le_pi (by positivity)
    · have : 2 * Real.pi / 359 * 359 ≤ Real.pi * 359 := by
        field_simp
        linarith
      nlinarith
    · calc |m - (y - 1 / 2)| * (4 * Real.pi / 359) ≤ 1 / 2 * (4 * Real.pi / 359) := by gcongr
        _ = _ := by ring

theorem sample_bound (ru rv : ℂ) : ∃ i, i < 180 ∧
    Real.sqrt (big ru rv) * Real.cos (Real.pi / 359) ≤ radius ru rv (Orbit.c i) := by
  obtain ⟨i, hi, h⟩ := near_sample (Complex.arg (skew ru rv))
  refine ⟨i, hi, ?_⟩
  unfold radius
  apply Real.le_sqrt_of_sq_le
  rw [mul_pow, Real.sq_sqrt (big_nonneg ru rv), radius_sq, Real.cos_sq,
    (by ring : 2 * (Real.pi / 359) = 2 * Real.pi / 359), big]
  have h1 := mul_le_mul_of_nonneg_left h (norm_nonneg (skew ru rv))
  have h2 := skew_le ru rv
  have h3 := Real.cos_le_one (2 * Real.pi / 359)
  nlinarith [mul_nonneg (sub_nonneg.2 h2) (sub_nonneg.2 h3)]

/-- Polar angle between zero and a full turn. -/
theorem polar_spec (x y : ℝ) :
    0 ≤ Orbit.polar x y ∧ Orbit.polar x y < 2 * Real.pi ∧
    x = Real.sqrt (x ^ 2 + y ^ 2) * Real.cos (Orbit.polar x y) ∧
    y = Real.sqrt (x ^ 2 + y ^ 2) * Real.sin (Orbit.polar x y) := by
  have a := Complex.arg_mem_Ioc ⟨x, y⟩
  have hp := Real.pi_pos
  have hn : ‖(⟨x, y⟩ : ℂ)‖ = Real.sqrt (x ^ 2 + y ^ 2) := by
    rw [Complex.norm_def, Complex.normSq_mk]
    ring_nf
  have hc := Complex.norm_mul_cos_arg ⟨x, y⟩
  have hs := Complex.norm_mul_sin_arg ⟨x, y⟩
  rw [hn] at hc hs
  simp only [Orbit.polar]
  split_ifs with h
  · rw [Real.cos_add_two_pi, Real.sin_add_two_pi]
    exact ⟨by linarith [a.1], by linarith, hc.symm, hs.symm⟩
  · rw [not_lt] at h
    exact ⟨h, by linarith [a.2], hc.symm, hs.symm⟩

end Ross.OrbitLemmas
