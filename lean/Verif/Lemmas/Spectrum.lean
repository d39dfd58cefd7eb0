import Mathlib.Algebra.Field.GeomSum
import Mathlib.Analysis.SpecialFunctions.Complex.Log
import Verif.Model.Spectrum

/-! # Lemmas on the discrete Fourier transform -/

namespace Ross.SpectrumLemmas

open Spectrum Complex

/-- `exp(2 π i m / N)`. -/
noncomputable def w (N : ℕ) (m : ℤ) : ℂ := exp (2 * Real.pi * I * m / N)

theorem w_add (N : ℕ) (m n : ℤ) : w N (m + n) = w N m * w N n := by
  unfold w
  rw [← Complex.exp_add]
  congr 1
  push_cast
  ring

theorem w_pow (N : ℕ) (m : ℤ) (j : ℕ) : w N (m * j) = w N m ^ j := by
  unfold w
  rw [← Complex.exp_nat_mul]
  congr 1
  push_cast
  ring

theorem w_eq_one {N : ℕ} (hN : N ≠ 0) (m : ℤ) : w N m = 1 ↔ (N : ℤ) ∣ m := by
  have hN' : (N : ℂ) ≠ 0 := by exact_mod_cast hN
  unfold w
  rw [Complex.exp_eq_one_iff]
  constructor
  · rintro ⟨n, hn⟩
    refine ⟨n, ?_⟩
    rw [div_eq_iff hN'] at hn
    have h2 : (2 * Real.pi * I : ℂ) * m = (2 * Real.pi * I) * (N * n) := by
      rw [hn]; ring
    have := mul_left_cancel₀ Complex.two_pi_I_ne_zero h2
    exact_mod_cast this
  · rintro ⟨n, rfl⟩
    refine ⟨n, ?_⟩
    rw [div_eq_iff hN']
    push_cast
    ring

theorem w_N {N : ℕ} (hN : N ≠ 0) (m : ℤ) : w N m ^ N = 1 := by
  rw [← w_pow, w_eq_one hN]
  exact dvd_mul_left _ _

/-- Orthogonality. -/
theorem sum_w {N : ℕ} (hN : N ≠ 0) (m : ℤ) :
    ∑ j : Fin N, w N (m * (j : ℕ)) = if (N : ℤ) ∣ m then (N : ℂ) else 0 := by
  rw [Fin.sum_univ_eq_sum_range (fun j => w N (m * (j : ℕ))) N]
  simp only [w_pow]
  split_ifs with h
  · rw [(w_eq_one hN m).2 h]
    simp
  · have h1 : w N m ≠ 1 := fun e => h ((w_eq_one hN m).1 e)
    rw [geom_sum_eq h1, w_N hN, sub_self, zero_div]

theorem w_conj (N : ℕ) (m : ℤ) : (starRingEnd ℂ) (w N m) = w N (-m) := by
  unfold w
  rw [← Complex.exp_conj]
  congr 1
  simp [Complex.conj_ofReal, map_ofNat]

theorem w_neg_mul (N : ℕ) (m : ℤ) : w N m * w N (-m) = 1 := by
  rw [← w_add]
  simp [w]

theorem fft_eq (x : List ℝ) (k : ℕ) :
    fft x k = ∑ j : Fin x.length, (x[j] : ℂ) * w x.length (-(k : ℤ) * (j : ℕ)) := by
  unfold fft w
  refine Finset.sum_congr rfl fun j _ => ?_
  congr 2
  push_cast
  ring

theorem fft_ofFn {N : ℕ} (f : Fin N → ℝ) (k : ℕ) :
    fft (List.ofFn f) k = ∑ j : Fin N, (f j : ℂ) * w N (-(k : ℤ) * (j : ℕ)) := by
  rw [fft_eq]
  have hl : (List.ofFn f).length = N := List.length_ofFn
  refine Fintype.sum_equiv (finCongr hl) _ _ fun j => ?_
  simp
  left
  rfl

theorem cos_eq (N : ℕ) (m : ℤ) (φ : ℝ) :
    ((Real.cos (2 * Real.pi * m / N + φ) : ℝ) : ℂ) = (exp (φ * I) * w N m + exp (-φ * I) * w N (-m)) / 2 := by
  rw [Complex.ofReal_cos, Complex.cos]
  unfold w
  rw [← Complex.exp_add, ← Complex.exp_add]
  congr 3
  · push_cast; ring
  · push_cast; ring

/-- One tone. -/
theorem tone {N : ℕ} (hN : N ≠ 0) (φ : ℝ) {k l : ℕ} (hk : 2 * k < N) (hl : 2 * l < N) (h0 : 0 < l) :
    ∑ j : Fin N, ((Real.cos (2 * Real.pi * (l * (j : ℕ) : ℤ) / N + φ) : ℝ) : ℂ) *
      w N (-(k : ℤ) * (j : ℕ)) = if k = l then N * exp (φ * I) / 2 else 0 := by
  have : ∀ j : Fin N, ((Real.cos (2 * Real.pi * (l * (j : ℕ) : ℤ) / N + φ) : ℝ) : ℂ) *
      w N (-(k : ℤ) * (j : ℕ)) =
      exp (φ * I) / 2 * w N (((l : ℤ) - k) * (j : ℕ)) +
        exp (-φ * I) / 2 * w N ((-(l : ℤ) - k) * (j : ℕ)) := by
    intro j
    rw [cos_eq, show ((l : ℤ) - k) * (j : ℕ) = l * (j : ℕ) + -(k : ℤ) * (j : ℕ) by ring, w_add,
      show (-(l : ℤ) - k) * (j : ℕ) = -(l * (j : ℕ)) + -(k : ℤ) * (j : ℕ) by ring, w_add]
    ring
  rw [Finset.sum_congr rfl fun j _ => this j, Finset.sum_add_distrib, ← Finset.mul_sum,
    ← Finset.mul_sum, sum_w hN, sum_w hN]
  have h2 : ¬ ((N : ℤ) ∣ -(l : ℤ) - k) := by
    rintro ⟨c, hc⟩
    have h3 : (N : ℤ) * -c = l + k := by rw [mul_neg, ← hc]; ring
    have h4 : 0 < -c := by
      by_contra h
      have : (N : ℤ) * -c ≤ 0 := mul_nonpos_of_nonneg_of_nonpos (by positivity) (not_lt.1 h)
      omega
    have : (N : ℤ) * 1 ≤ N * -c := by
      apply mul_le_mul_of_nonneg_left _ (by positivity)
      omega
    omega
  have h3 : (N : ℤ) ∣ (l : ℤ) - k ↔ k = l := by
    constructor
    · intro h
      have := Int.eq_zero_of_abs_lt_dvd h (by rw [abs_lt]; omega)
      omega
    · rintro rfl
      simp
  rw [if_neg h2, mul_zero, add_zero]
  by_cases h : k = l
  · rw [if_pos (h3.2 h), if_pos h]
    ring
  · rw [if_neg fun e => h (h3.1 e), if_neg h, mul_zero]

/-- Parseval's identity. -/
theorem parseval {N : ℕ} (hN : N ≠ 0) (f : Fin N → ℝ) :
    ∑ k ∈ Finset.range N, ‖fft (List.ofFn f) k‖ ^ 2 = N * ∑ j, f j ^ 2 := by
  have key : ∑ k ∈ Finset.range N, ((‖fft (List.ofFn f) k‖ ^ 2 : ℝ) : ℂ) =
      ((N * ∑ j, f j ^ 2 : ℝ) : ℂ) := by
    have h1 : ∀ k, ((‖fft (List.ofFn f) k‖ ^ 2 : ℝ) : ℂ) =
        ∑ i : Fin N, ∑ j : Fin N, (f i : ℂ) * f j * w N ((((j : ℕ) : ℤ) - (i : ℕ)) * (k : ℕ)) := by
      intro k
      rw [Complex.ofReal_pow, ← Complex.mul_conj', fft_ofFn, map_sum, Finset.sum_mul_sum]
      refine Finset.sum_congr rfl fun i _ => Finset.sum_congr rfl fun j _ => ?_
      rw [map_mul, Complex.conj_ofReal, w_conj,
        show (((j : ℕ) : ℤ) - (i : ℕ)) * (k : ℕ) = -(k : ℤ) * (i : ℕ) + -(-(k : ℤ) * (j : ℕ)) by ring,
        w_add]
      ring
    rw [Finset.sum_congr rfl fun k _ => h1 k, Finset.sum_comm]
    push_cast
    rw [Finset.mul_sum]
    refine Finset.sum_congr rfl fun i _ => ?_
    rw [Finset.sum_comm]
    have h2 : ∀ j : Fin N, ∑ k ∈ Finset.range N, (f i : ℂ) * f j *
        w N ((((j : ℕ) : ℤ) - (i : ℕ)) * (k : ℕ)) = if j = i then (N : ℂ) * (f i : ℂ) ^ 2 else 0 := by
      intro j
      rw [← Finset.mul_sum, ← Fin.sum_univ_eq_sum_range
        (fun k => w N ((((j : ℕ) : ℤ) - (i : ℕ)) * (k : ℕ))) N, sum_w hN]
      have h3 : (N : ℤ) ∣ ((j : ℕ) : ℤ) - (i : ℕ) ↔ j = i := by
        constructor
        · intro h
          have := Int.eq_zero_of_abs_lt_dvd h (by rw [abs_lt]; have := i.2; have := j.2; omega)
          apply Fin.ext
          omega
        · rintro rfl
          simp
      by_cases h : j = i
      · rw [if_pos (h3.2 h), if_pos h, h]
        ring
      · rw [if_neg fun e => h (h3.1 e), if_neg h, mul_zero]
    rw [Finset.sum_congr rfl fun j _ => h2 j]
    simp
  exact_mod_cast key

/-- The transform of a real signal is symmetric. -/
theorem mirror {N : ℕ} (hN : N ≠ 0) (f : Fin N → ℝ) {k : ℕ} (hk : k ≤ N) :
    ‖fft (List.ofFn f) (N - k)‖ = ‖fft (List.ofFn f) k‖ := by
  have : fft (List.ofFn f) (N - k) = (starRingEnd ℂ) (fft (List.ofFn f) k) := by
    rw [fft_ofFn, fft_ofFn, map_sum]
    refine Finset.sum_congr rfl fun j _ => ?_
    rw [map_mul, Complex.conj_ofReal, w_conj]
    congr 1
    have h1 : -(((N - k : ℕ) : ℤ)) * (j : ℕ) = -(-(k : ℤ) * (j : ℕ)) + -((j : ℕ) : ℤ) * (N : ℕ) := by
      push_cast [hk]
      ring
    rw [h1, w_add, w_pow, w_N hN, mul_one]
  rw [this, Complex.norm_conj]

theorem arange0_eq {df : ℝ} (hd : df ≠ 0) (b : ℕ) :
    arange0 (df * b) df = (List.range b).map fun i : ℕ => (i : ℝ) * df := by
  unfold arange0
  rw [mul_div_cancel_left₀ _ hd]
  simp

theorem dfft_eq {x : List ℝ} {dt : ℝ} (hx : x ≠ []) (ht : dt ≠ 0) :
    dfft x dt = .ok ((List.range (x.length / 2)).map fun k => ‖fft x k‖ * 2 / x.length,
      (List.range (x.length / 2)).map fun k : ℕ => (k : ℝ) / (x.length * dt)) := by
  have hl : (x.length : ℝ) ≠ 0 := by
    rw [Nat.cast_ne_zero]
    exact fun h => hx (List.eq_nil_of_length_eq_zero h)
  unfold dfft
  simp only
  rw [if_neg (mul_ne_zero hl ht), arange0_eq (one_div_ne_zero (mul_ne_zero hl ht)),
    List.take_of_length_le (by simp)]
  congr 2
  · refine List.map_congr_left fun k _ => ?_
    rw [norm_div, norm_mul]
    simp
  · refine List.map_congr_left fun k _ => ?_
    ring

end Ross.SpectrumLemmas
