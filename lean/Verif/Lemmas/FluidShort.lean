import Mathlib.Analysis.Real.Pi.Bounds
import Mathlib.Algebra.Polynomial.Roots
import Mathlib.Topology.Order.IntermediateValue
import Mathlib.Topology.ContinuousMap.Polynomial
import Verif.Lemmas.FluidGeometry
import Verif.Spec.FluidShort

/-!
# Lemmas on short bearings
-/

namespace Ross.FluidLemmas

open Real Fluid Spec.Fluid

theorem pi_sq_lt : π ^ 2 < 16 := by nlinarith [pi_lt_four, pi_pos]

theorem ratio_polynomial_eq (s x : ℝ) :
    ratio_polynomial s x = (1 - x) ^ 4 - s ^ 2 * (x * ((16 - π ^ 2) * x + π ^ 2)) := by
  simp [ratio_polynomial, ratio_coefficients]
  ring

theorem ratio_polynomial_anti (s : ℝ) {x y : ℝ} (hx : 0 ≤ x) (hxy : x < y) (hy : y ≤ 1) :
    ratio_polynomial s y < ratio_polynomial s x := by
  rw [ratio_polynomial_eq, ratio_polynomial_eq]
  have h1 : (1 - y) ^ 4 < (1 - x) ^ 4 := pow_lt_pow_left₀ (by linarith) (by linarith) (by norm_num)
  have h2 : x * ((16 - π ^ 2) * x + π ^ 2) ≤ y * ((16 - π ^ 2) * y + π ^ 2) := by
    have hc := pi_sq_lt
    have hp := sq_nonneg π
    apply mul_le_mul hxy.le _ _ (by linarith)
    · nlinarith
    · have : 0 ≤ (16 - π ^ 2) * x := mul_nonneg (by linarith) hx
      linarith
  nlinarith [mul_le_mul_of_nonneg_left h2 (sq_nonneg s)]

theorem ratio_root_unique {s x y : ℝ} (hx : 0 ≤ x) (hx1 : x ≤ 1) (hy : 0 ≤ y) (hy1 : y ≤ 1)
    (h1 : ratio_polynomial s x = 0) (h2 : ratio_polynomial s y = 0) : x = y := by
  rcases lt_trichotomy x y with h | h | h
  · linarith [ratio_polynomial_anti s hx h hy1]
  · exact h
  · linarith [ratio_polynomial_anti s hy h hx1]

theorem ratio_root_exists {s : ℝ} : ∃ x, 0 ≤ x ∧ x ≤ 1 ∧ ratio_polynomial s x = 0 := by
  have hcont : ContinuousOn (ratio_polynomial s) (Set.Icc 0 1) := by
    have : ratio_polynomial s = fun x => (1 - x) ^ 4 - s ^ 2 * (x * ((16 - π ^ 2) * x + π ^ 2)) := by
      funext x; exact ratio_polynomial_eq s x
    rw [this]
    fun_prop
  have h := intermediate_value_Icc' (zero_le_one' ℝ) hcont
  have h0 : (0 : ℝ) ∈ Set.Icc (ratio_polynomial s 1) (ratio_polynomial s 0) := by
    rw [ratio_polynomial_eq, ratio_polynomial_eq]
    constructor <;> nlinarith [sq_nonneg s]
  obtain ⟨x, hx, hf⟩ := h h0
  exact ⟨x, hx.1, hx.2, hf⟩

theorem polyval_ratio (s : ℝ) (x : ℝ) :
    polyval (ratio_coefficients s) (x : ℂ) = ((ratio_polynomial s x : ℝ) : ℂ) := by
  rw [ratio_polynomial_eq]
  simp [polyval, ratio_coefficients]
  ring

theorem eccentricity_ratio_ok {lib : RootLib} (hl : RootsOk lib) (s : ℝ) :
    ∃ x, 0 ≤ x ∧ x ≤ 1 ∧ ratio_polynomial s x = 0 ∧ calculate_eccentricity_ratio lib s = .ok √x := by
  obtain ⟨x, hx0, hx1, hx⟩ := ratio_root_exists (s := s)
  have hmem : (x : ℂ) ∈ lib.roots (ratio_coefficients s) := by
    refine (hl.roots 1 _ _ one_ne_zero).2 ?_
    show polyval (ratio_coefficients s) (x : ℂ) = 0
    rw [polyval_ratio, hx, Complex.ofReal_zero]
  have hreal : x ∈ real_roots lib (ratio_coefficients s) := by
    unfold real_roots
    rw [List.mem_mergeSort, List.mem_map]
    refine ⟨(x : ℂ), List.mem_filter.2 ⟨hmem, ?_⟩, Complex.ofReal_re x⟩
    simp only [close_to_zero, Complex.ofReal_im, decide_eq_true_eq]
    norm_num [abs_of_pos]
  have hfind : ∃ i, (real_roots lib (ratio_coefficients s)).find? (fun i => decide (0 ≤ i ∧ i ≤ 1)) = some i := by
    rw [← Option.isSome_iff_exists, List.find?_isSome]
    exact ⟨x, hreal, by simp [hx0, hx1]⟩
  obtain ⟨i, hi⟩ := hfind
  have hi2 := List.find?_some hi
  rw [decide_eq_true_eq] at hi2
  obtain ⟨h1, h2, h3⟩ := hl.root (ratio_polynomial s) i hi2.1 hi2.2 ⟨x, hx0, hx1, hx⟩
  refine ⟨_, h1, h2, h3, ?_⟩
  unfold calculate_eccentricity_ratio
  rw [hi]

theorem sqrt_load_arg {e : ℝ} (he0 : 0 < e) : 0 < (16 / π ^ 2 - 1) * e ^ 2 + 1 := by
  have : 0 < 16 / π ^ 2 - 1 := by
    rw [sub_pos, lt_div_iff₀ (by positivity)]; linarith [pi_sq_lt]
  positivity

/-- A ratio solves the equation of the modified Sommerfeld number iff it carries the load. -/
theorem ratio_root_iff {s e : ℝ} (hs : 0 < s) (he0 : 0 < e) (he1 : e < 1) :
    ratio_polynomial s (e ^ 2) = 0 ↔ s * (π * e * √((16 / π ^ 2 - 1) * e ^ 2 + 1)) = (1 - e ^ 2) ^ 2 := by
  have hp := pi_pos
  have ha := sqrt_load_arg he0
  have h1 : 0 ≤ s * (π * e * √((16 / π ^ 2 - 1) * e ^ 2 + 1)) := by positivity
  have h2 : 0 ≤ (1 - e ^ 2) ^ 2 := sq_nonneg _
  rw [← sq_eq_sq₀ h1 h2, ratio_polynomial_eq, sub_eq_zero]
  have h3 : (s * (π * e * √((16 / π ^ 2 - 1) * e ^ 2 + 1))) ^ 2 = s ^ 2 * (e ^ 2 * ((16 - π ^ 2) * e ^ 2 + π ^ 2)) := by
    rw [mul_pow, mul_pow, sq_sqrt ha.le]
    field_simp
  rw [h3]
  constructor <;> intro h
  · rw [← h]; ring
  · rw [h]; ring

theorem modified_load {Rs om mu L W c : ℝ} (hW : W ≠ 0) (hc : c ≠ 0) {e : ℝ} (he0 : 0 < e) (he1 : e < 1) :
    calculate_rotor_load Rs om mu L c e = W ↔
      modified_sommerfeld_number Rs om mu L W c * (π * e * √((16 / π ^ 2 - 1) * e ^ 2 + 1)) = (1 - e ^ 2) ^ 2 := by
  have h1 : (1 - e ^ 2) ≠ 0 := by nlinarith
  unfold calculate_rotor_load modified_sommerfeld_number
  set A := √((16 / π ^ 2 - 1) * e ^ 2 + 1)
  rw [div_mul_eq_mul_div, div_mul_eq_mul_div, div_eq_iff (by positivity), div_eq_iff (by positivity)]
  constructor <;> intro h
  · linear_combination h
  · linear_combination h

theorem modified_pos {Rs om mu L W c : ℝ} (h1 : 0 < Rs) (h2 : 0 < om) (h3 : 0 < mu) (h4 : 0 < L) (h5 : 0 < W)
    (h6 : c ≠ 0) : 0 < modified_sommerfeld_number Rs om mu L W c := by
  unfold modified_sommerfeld_number
  have := sq_pos_of_ne_zero h6
  positivity

theorem load_pos {Rs om mu L c e : ℝ} (h1 : 0 < Rs) (h2 : 0 < om) (h3 : 0 < mu) (h4 : 0 < L) (h6 : c ≠ 0)
    (he0 : 0 < e) (he1 : e < 1) : 0 < calculate_rotor_load Rs om mu L c e := by
  unfold calculate_rotor_load
  have := sq_pos_of_ne_zero h6
  have h7 : 0 < 1 - e ^ 2 := by nlinarith
  have := sqrt_pos.2 (sqrt_load_arg he0)
  have := pi_pos
  positivity

/-- For a positive number the ratio is between 0 and 1. -/
theorem eccentricity_ratio_pos {lib : RootLib} (hl : RootsOk lib) {s : ℝ} (hs : 0 < s) :
    ∃ e, 0 < e ∧ e < 1 ∧ ratio_polynomial s (e ^ 2) = 0 ∧ calculate_eccentricity_ratio lib s = .ok e := by
  obtain ⟨x, h0, h1, h2, h3⟩ := eccentricity_ratio_ok hl s
  have hx0 : x ≠ 0 := by
    rintro rfl
    rw [ratio_polynomial_eq] at h2
    norm_num at h2
  have hx1 : x ≠ 1 := by
    rintro rfl
    rw [ratio_polynomial_eq] at h2
    have : s ^ 2 * 16 = 0 := by linear_combination -h2
    nlinarith
  refine ⟨√x, sqrt_pos.2 (lt_of_le_of_ne h0 (Ne.symm hx0)), ?_, by rwa [sq_sqrt h0], h3⟩
  rw [sqrt_lt' one_pos, one_pow]
  exact lt_of_le_of_ne h1 hx1

theorem eccentricity_ratio_eq {lib : RootLib} (hl : RootsOk lib) {s e : ℝ} (he0 : 0 ≤ e) (he1 : e ≤ 1)
    (h : ratio_polynomial s (e ^ 2) = 0) : calculate_eccentricity_ratio lib s = .ok e := by
  obtain ⟨x, h0, h1, h2, h3⟩ := eccentricity_ratio_ok hl s
  have : x = e ^ 2 := ratio_root_unique h0 h1 (sq_nonneg e) (by nlinarith) h2 h
  rw [h3, this, sqrt_sq he0]

/-! ### The attitude angle of a short bearing -/

theorem rpow_three_half {x : ℝ} (hx : 0 ≤ x) : x ^ (3 / 2 : ℝ) = √x ^ 3 := by
  rw [sqrt_eq_rpow, ← rpow_natCast, ← rpow_mul hx]
  norm_num

theorem rpow_half (x : ℝ) : x ^ (1 / 2 : ℝ) = √x := (sqrt_eq_rpow x).symm

/-- `H² = π² (1 - e²) + 16 e²`. -/
noncomputable def H (e : ℝ) : ℝ := √(π ^ 2 * (1 - e ^ 2) + 16 * e ^ 2)

theorem H_arg_pos {e : ℝ} (he0 : 0 < e) (he1 : e < 1) : 0 < π ^ 2 * (1 - e ^ 2) + 16 * e ^ 2 := by
  have h7 : 0 < 1 - e ^ 2 := by nlinarith
  have := pi_pos
  positivity

theorem H_pos {e : ℝ} (he0 : 0 < e) (he1 : e < 1) : 0 < H e := sqrt_pos.2 (H_arg_pos he0 he1)

theorem H_sq {e : ℝ} (he0 : 0 < e) (he1 : e < 1) : H e ^ 2 = π ^ 2 * (1 - e ^ 2) + 16 * e ^ 2 :=
  sq_sqrt (H_arg_pos he0 he1).le

theorem attitude_sqrt {e : ℝ} (he0 : 0 < e) (he1 : e < 1) :
    √(1 + (π * √(1 - e ^ 2) / (4 * e)) ^ 2) = H e / (4 * e) := by
  have h7 : 0 < 1 - e ^ 2 := by nlinarith
  have hH := H_pos he0 he1
  rw [sqrt_eq_iff_eq_sq (by positivity) (by positivity), div_pow, div_pow, mul_pow π, sq_sqrt h7.le, H_sq he0 he1]
  field_simp
  ring

theorem sin_attitude {e : ℝ} (he0 : 0 < e) (he1 : e < 1) :
    sin (calculate_attitude_angle e) = π * √(1 - e ^ 2) / H e := by
  have hH := H_pos he0 he1
  unfold calculate_attitude_angle
  rw [sin_arctan, attitude_sqrt he0 he1]
  field_simp

theorem cos_attitude {e : ℝ} (he0 : 0 < e) (he1 : e < 1) : cos (calculate_attitude_angle e) = 4 * e / H e := by
  have hH := H_pos he0 he1
  unfold calculate_attitude_angle
  rw [cos_arctan, attitude_sqrt he0 he1]
  field_simp

theorem load_H {e : ℝ} (he0 : 0 < e) (he1 : e < 1) : √((16 / π ^ 2 - 1) * e ^ 2 + 1) = H e / π := by
  have hp := pi_pos
  have hH := H_pos he0 he1
  rw [sqrt_eq_iff_eq_sq (sqrt_load_arg he0).le (by positivity), div_pow, H_sq he0 he1]
  field_simp
  ring

theorem rotor_load_eq {Rs om mu L c e : ℝ} (he0 : 0 < e) (he1 : e < 1) :
    calculate_rotor_load Rs om mu L c e = mu * om * Rs * L ^ 3 * e * H e / (4 * c ^ 2 * (1 - e ^ 2) ^ 2) := by
  have hp := pi_pos
  unfold calculate_rotor_load
  rw [load_H he0 he1]
  field_simp
  ring

/-! ### A pair of root finders that meets the assumptions -/

/-- The polynomial with coefficients `c`, highest power first. -/
noncomputable def toPoly (c : List ℝ) : Polynomial ℂ :=
  c.foldl (fun acc (a : ℝ) => acc * Polynomial.X + Polynomial.C (a : ℂ)) 0

theorem eval_foldl (c : List ℝ) (z : ℂ) (p : Polynomial ℂ) :
    (c.foldl (fun acc (a : ℝ) => acc * Polynomial.X + Polynomial.C (a : ℂ)) p).eval z =
      c.foldl (fun acc (a : ℝ) => acc * z + (a : ℂ)) (p.eval z) := by
  induction c generalizing p with
  | nil => rfl
  | cons a c ih => simp [ih]

theorem foldl_ne_zero (c : List ℝ) (p : Polynomial ℂ) (hp : p ≠ 0) :
    c.foldl (fun acc (a : ℝ) => acc * Polynomial.X + Polynomial.C (a : ℂ)) p ≠ 0 := by
  induction c generalizing p with
  | nil => exact hp
  | cons a c ih =>
    apply ih
    intro h
    apply hp
    ext n
    have := congrArg (fun p => Polynomial.coeff p (n + 1)) h
    simpa [Polynomial.coeff_C] using this

theorem exists_root_lib : ∃ lib, RootsOk lib := by
  classical
  refine ⟨⟨fun c => (toPoly c).roots.toList,
    fun f i => if h : ∃ x, 0 ≤ x ∧ x ≤ 1 ∧ f x = 0 then h.choose else i⟩, ?_, ?_⟩
  · intro a c z ha
    have h0 : toPoly (a :: c) ≠ 0 := by
      refine foldl_ne_zero c (0 * Polynomial.X + Polynomial.C (a : ℂ)) ?_
      simpa using ha
    dsimp only
    rw [Multiset.mem_toList, Polynomial.mem_roots h0, Polynomial.IsRoot.def]
    unfold toPoly polyval
    rw [eval_foldl, Polynomial.eval_zero]
  · intro f i _ _ h
    dsimp only
    rw [dif_pos h]
    exact h.choose_spec

end Ross.FluidLemmas
