import Mathlib.LinearAlgebra.Matrix.NonsingularInverse
import Mathlib.LinearAlgebra.FiniteDimensional.Basic
import Mathlib.LinearAlgebra.Matrix.ToLin
import Mathlib.Tactic.LinearCombination
import Mathlib.Tactic.FieldSimp
import Mathlib.Tactic.Linarith
import Verif.Lemmas.FluidLoops
import Verif.Spec.FluidPressure

/-!
# Lemmas on the finite differences
-/

namespace Ross.FluidLemmas

open Fluid Fluid.FluidFlow Function Spec.Fluid

theorem sum_update {N k : ℕ} (hk : k < N) (g : ℕ → ℝ) (v : ℝ) (P : ℕ → ℝ) :
    ∑ c ∈ Finset.range N, update g k v c * P c = ∑ c ∈ Finset.range N, g c * P c + (v - g k) * P k := by
  have hmem := Finset.mem_range.2 hk
  rw [← Finset.add_sum_erase _ _ hmem, ← Finset.add_sum_erase _ (fun c => g c * P c) hmem, update_self]
  have : ∑ c ∈ (Finset.range N).erase k, update g k v c * P c = ∑ c ∈ (Finset.range N).erase k, g c * P c := by
    apply Finset.sum_congr rfl
    intro c hc
    rw [update_of_ne (Finset.ne_of_mem_erase hc)]
  rw [this]
  ring

theorem sum_one {N k : ℕ} (hk : k < N) (v : ℝ) (P : ℕ → ℝ) :
    ∑ c ∈ Finset.range N, update (fun _ => (0 : ℝ)) k v c * P c = v * P k := by
  rw [sum_update hk]
  simp

theorem sum_five {N ka kb kc kd ke : ℕ} (ha : ka < N) (hb : kb < N) (hc : kc < N) (hd : kd < N) (he : ke < N)
    (hab : ka ≠ kb) (hac : ka ≠ kc) (had : ka ≠ kd) (hae : ka ≠ ke) (hbc : kb ≠ kc) (hbd : kb ≠ kd) (hbe : kb ≠ ke)
    (hcd : kc ≠ kd) (hce : kc ≠ ke) (hde : kd ≠ ke) (a b c d e : ℝ) (P : ℕ → ℝ) :
    ∑ k ∈ Finset.range N, five ka kb kc kd ke a b c d e (fun _ => 0) k * P k =
      a * P ka + b * P kb + c * P kc + d * P kd + e * P ke := by
  unfold five
  rw [sum_update he, sum_update hd, sum_update hc, sum_update hb, sum_update ha]
  simp [update_of_ne, hab.symm, hac.symm, had.symm, hae.symm, hbc.symm, hbd.symm, hbe.symm, hcd.symm, hce.symm, hde.symm]

/-- The equations of the grid, as the code has them. -/
structure Grid (F : FluidFlow) (c1 c2 c0 P : ℕ → ℕ → ℝ) : Prop where
  inlet : ∀ j < F.ntheta, P 0 j = F.p_in
  outlet : ∀ j < F.ntheta, P (F.nz - 1) j = F.p_out
  period : ∀ i, 0 < i → i < F.nz - 1 → P i (F.ntheta - 1) = P i 0
  seam : ∀ i, 0 < i → i < F.nz - 1 →
    (1 / F.dtheta ^ 2) * (c1 i 0 * (P i 1 - P i 0) + c1 i (F.ntheta - 1) * (P i (F.ntheta - 2) - P i 0)) +
      (1 / F.dz ^ 2) * (c2 i 0 * (P (i + 1) 0 - P i 0) + c2 (i - 1) 0 * (P (i - 1) 0 - P i 0)) =
      (c0 i 0 - c0 i (F.ntheta - 1)) / F.dtheta
  inner : ∀ i, 0 < i → i < F.nz - 1 → ∀ j, 0 < j → j < F.ntheta - 1 →
    (1 / F.dtheta ^ 2) * (c1 i j * (P i (j + 1) - P i j) + c1 i (j - 1) * (P i (j - 1) - P i j)) +
      (1 / F.dz ^ 2) * (c2 i j * (P (i + 1) j - P i j) + c2 (i - 1) j * (P (i - 1) j - P i j)) =
      (c0 i j - c0 i (j - 1)) / F.dtheta

theorem idx_lt {n m i j : ℕ} (hi : i < n) (hj : j < m) : j * n + i < n * m := by
  have : (j + 1) * n ≤ m * n := Nat.mul_le_mul_right _ hj
  have : (j + 1) * n = j * n + n := by ring
  have : m * n = n * m := by ring
  omega

/-- The linear system is the system of these equations. -/
theorem solves_iff {F : FluidFlow} {c1 c2 c0 : ℕ → ℕ → ℝ} (hn : 2 ≤ F.nz) (hm : 4 ≤ F.ntheta) (x : ℕ → ℝ) :
    Solves F.ntotal (F.mounting_matrix c1 c2 c0).1 (F.mounting_matrix c1 c2 c0).2 x ↔
      Grid F c1 c2 c0 (fun i j => x (j * F.nz + i)) := by
  obtain ⟨m1, m2, m3, m4⟩ := mounted F c1 c2 c0 hn (by omega)
  have htot : F.ntotal = F.nz * F.ntheta := rfl
  have hend : ∀ j, j * F.nz + F.nz - 1 = j * F.nz + (F.nz - 1) := fun j => by omega
  have r1 : ∀ j < F.ntheta, ∑ c ∈ Finset.range F.ntotal, (F.mounting_matrix c1 c2 c0).1 (j * F.nz) c * x c =
      x (j * F.nz) := by
    intro j hj
    rw [(m1 j hj).1, sum_one (by rw [htot]; exact idx_lt (i := 0) (by omega) hj), one_mul]
  have r2 : ∀ j < F.ntheta, ∑ c ∈ Finset.range F.ntotal,
      (F.mounting_matrix c1 c2 c0).1 (j * F.nz + (F.nz - 1)) c * x c = x (j * F.nz + (F.nz - 1)) := by
    intro j hj
    rw [← hend, (m1 j hj).2.2.1, sum_one (by rw [htot, hend]; exact idx_lt (by omega) hj), one_mul]
  have r3 : ∀ i, 0 < i → i < F.nz - 1 → ∑ c ∈ Finset.range F.ntotal,
      (F.mounting_matrix c1 c2 c0).1 ((F.ntheta - 1) * F.nz + i) c * x c =
        x i - x ((F.ntheta - 1) * F.nz + i) := by
    intro i h0 hi
    have : 1 * F.nz ≤ (F.ntheta - 1) * F.nz := Nat.mul_le_mul_right _ (by omega)
    rw [(m2 i h0 hi).1, sum_update (by rw [htot]; exact idx_lt (by omega) (by omega)),
      sum_one (by rw [htot]; have := idx_lt (n := F.nz) (m := F.ntheta) (i := i) (j := 0) (by omega) (by omega); omega),
      update_of_ne (by omega)]
    ring
  have r4 : ∀ i, 0 < i → i < F.nz - 1 → ∑ c ∈ Finset.range F.ntotal, (F.mounting_matrix c1 c2 c0).1 i c * x c =
      (1 / F.dtheta ^ 2) * (c1 i 0 * (x (1 * F.nz + i) - x (0 * F.nz + i)) +
        c1 i (F.ntheta - 1) * (x ((F.ntheta - 2) * F.nz + i) - x (0 * F.nz + i))) +
      (1 / F.dz ^ 2) * (c2 i 0 * (x (0 * F.nz + (i + 1)) - x (0 * F.nz + i)) +
        c2 (i - 1) 0 * (x (0 * F.nz + (i - 1)) - x (0 * F.nz + i))) := by
    intro i h0 hi
    have e1 : F.ntotal - 2 * F.nz + i = (F.ntheta - 2) * F.nz + i := by
      rw [Nat.sub_mul, htot, mul_comm]
    have e2 : 2 * F.nz ≤ (F.ntheta - 2) * F.nz := Nat.mul_le_mul_right _ (by omega)
    have b1 := idx_lt (n := F.nz) (m := F.ntheta) (i := i) (j := F.ntheta - 2) (by omega) (by omega)
    have b2 := idx_lt (n := F.nz) (m := F.ntheta) (i := i) (j := 1) (by omega) (by omega)
    rw [(m3 i h0 hi).1, e1, sum_five (by omega) (by omega) (by omega) (by omega) (by omega) (by omega) (by omega)
      (by omega) (by omega) (by omega) (by omega) (by omega) (by omega) (by omega) (by omega)]
    rw [show 1 * F.nz + i = i + F.nz by ring]
    simp only [zero_mul, zero_add]
    ring
  have r5 : ∀ i, 0 < i → i < F.nz - 1 → ∀ j, 0 < j → j < F.ntheta - 1 →
      ∑ c ∈ Finset.range F.ntotal, (F.mounting_matrix c1 c2 c0).1 (j * F.nz + i) c * x c =
      (1 / F.dtheta ^ 2) * (c1 i j * (x ((j + 1) * F.nz + i) - x (j * F.nz + i)) +
        c1 i (j - 1) * (x ((j - 1) * F.nz + i) - x (j * F.nz + i))) +
      (1 / F.dz ^ 2) * (c2 i j * (x (j * F.nz + (i + 1)) - x (j * F.nz + i)) +
        c2 (i - 1) j * (x (j * F.nz + (i - 1)) - x (j * F.nz + i))) := by
    intro i h0 hi j h0j hj
    have b1 := idx_lt (n := F.nz) (m := F.ntheta) (i := i) (j := j + 1) (by omega) (by omega)
    have e1 : (j + 1) * F.nz = j * F.nz + F.nz := by ring
    have e2 : 1 * F.nz ≤ j * F.nz := Nat.mul_le_mul_right _ (by omega)
    have e3 : (j - 1) * F.nz = j * F.nz - F.nz := by rw [Nat.sub_mul, one_mul]
    rw [(m4 i h0 hi j h0j hj).1, sum_five (by omega) (by omega) (by omega) (by omega) (by omega) (by omega) (by omega)
      (by omega) (by omega) (by omega) (by omega) (by omega) (by omega) (by omega) (by omega)]
    rw [show j * F.nz + i + F.nz = (j + 1) * F.nz + i by omega,
      show j * F.nz + i - F.nz = (j - 1) * F.nz + i by omega, show j * F.nz + i - 1 = j * F.nz + (i - 1) by omega,
      show j * F.nz + i + 1 = j * F.nz + (i + 1) by omega]
    ring
  constructor
  · intro h
    refine ⟨fun j hj => ?_, fun j hj => ?_, fun i h0 hi => ?_, fun i h0 hi => ?_, fun i h0 hi j h0j hj => ?_⟩
    · have := h (j * F.nz) (by rw [htot]; exact idx_lt (i := 0) (by omega) hj)
      rw [r1 j hj, (m1 j hj).2.1] at this
      exact this
    · have := h (j * F.nz + (F.nz - 1)) (by rw [htot]; exact idx_lt (by omega) hj)
      rw [r2 j hj, ← hend, (m1 j hj).2.2.2] at this
      rw [hend] at this
      exact this
    · have := h ((F.ntheta - 1) * F.nz + i) (by rw [htot]; exact idx_lt (by omega) (by omega))
      rw [r3 i h0 hi, (m2 i h0 hi).2] at this
      simp only [zero_mul, zero_add]
      linarith
    · have := h i (by
        rw [htot]; have := idx_lt (n := F.nz) (m := F.ntheta) (i := i) (j := 0) (by omega) (by omega); omega)
      rw [r4 i h0 hi, (m3 i h0 hi).2] at this
      exact this
    · have := h (j * F.nz + i) (by rw [htot]; exact idx_lt (by omega) (by omega))
      rw [r5 i h0 hi j h0j hj, (m4 i h0 hi j h0j hj).2] at this
      exact this
  · intro h k hk
    have hn0 : 0 < F.nz := by omega
    have hkeq : k = (k / F.nz) * F.nz + k % F.nz := by rw [mul_comm]; exact (Nat.div_add_mod k F.nz).symm
    have hi : k % F.nz < F.nz := Nat.mod_lt _ hn0
    have hj : k / F.nz < F.ntheta := by
      rw [Nat.div_lt_iff_lt_mul hn0, mul_comm]
      exact hk
    generalize k / F.nz = j at hkeq hj
    generalize k % F.nz = i at hkeq hi
    subst hkeq
    by_cases hi0 : i = 0
    · subst hi0
      rw [Nat.add_zero, r1 j hj, (m1 j hj).2.1]
      exact h.inlet j hj
    by_cases hil : i = F.nz - 1
    · subst hil
      rw [r2 j hj, ← hend, (m1 j hj).2.2.2, hend]
      exact h.outlet j hj
    by_cases hj0 : j = 0
    · subst hj0
      rw [zero_mul, zero_add, r4 i (by omega) (by omega), (m3 i (by omega) (by omega)).2]
      exact h.seam i (by omega) (by omega)
    by_cases hjl : j = F.ntheta - 1
    · subst hjl
      rw [r3 i (by omega) (by omega), (m2 i (by omega) (by omega)).2]
      have := h.period i (by omega) (by omega)
      simp only [zero_mul, zero_add] at this
      linarith
    · rw [r5 i (by omega) (by omega) j (by omega) (by omega), (m4 i (by omega) (by omega) j (by omega) (by omega)).2]
      exact h.inner i (by omega) (by omega) j (by omega) (by omega)

/-! ### The maximum principle -/

/-- Coefficients with the signs of C80. -/
structure Signs (F : FluidFlow) (c1 c2 : ℕ → ℕ → ℝ) : Prop where
  c1 : ∀ i < F.nz, ∀ j < F.ntheta, c1 i j < 0
  c2 : ∀ i < F.nz, ∀ j < F.ntheta, c2 i j < 0

/-- With homogeneous data, no pressure is positive. -/
theorem grid_le {F : FluidFlow} {c1 c2 P : ℕ → ℕ → ℝ} (hn : 2 ≤ F.nz) (hm : 4 ≤ F.ntheta) (hz : F.dz ≠ 0)
    (ht : F.dtheta ≠ 0) (hs : Signs F c1 c2)
    (inlet : ∀ j < F.ntheta, P 0 j = 0) (outlet : ∀ j < F.ntheta, P (F.nz - 1) j = 0)
    (period : ∀ i, 0 < i → i < F.nz - 1 → P i (F.ntheta - 1) = P i 0)
    (seam : ∀ i, 0 < i → i < F.nz - 1 →
      (1 / F.dtheta ^ 2) * (c1 i 0 * (P i 1 - P i 0) + c1 i (F.ntheta - 1) * (P i (F.ntheta - 2) - P i 0)) +
      (1 / F.dz ^ 2) * (c2 i 0 * (P (i + 1) 0 - P i 0) + c2 (i - 1) 0 * (P (i - 1) 0 - P i 0)) = 0)
    (inner : ∀ i, 0 < i → i < F.nz - 1 → ∀ j, 0 < j → j < F.ntheta - 1 →
      (1 / F.dtheta ^ 2) * (c1 i j * (P i (j + 1) - P i j) + c1 i (j - 1) * (P i (j - 1) - P i j)) +
      (1 / F.dz ^ 2) * (c2 i j * (P (i + 1) j - P i j) + c2 (i - 1) j * (P (i - 1) j - P i j)) = 0) :
    ∀ i < F.nz, ∀ j < F.ntheta, P i j ≤ 0 := by
  obtain ⟨⟨i0, j0⟩, hmem, hmax⟩ := Finset.exists_max_image (Finset.range F.nz ×ˢ Finset.range F.ntheta)
    (fun p : ℕ × ℕ => P p.1 p.2) ⟨(0, 0), by simp; omega⟩
  simp only [Finset.mem_product, Finset.mem_range] at hmem hmax
  have hmax' : ∀ i < F.nz, ∀ j < F.ntheta, P i j ≤ P i0 j0 := fun i hi j hj => hmax (i, j) ⟨hi, hj⟩
  have key : ∀ i < F.nz, ∀ j < F.ntheta, P i j = P i0 j0 → P i0 j0 = 0 := by
    intro i
    induction i with
    | zero => exact fun _ j hj h => by rw [← h, inlet j hj]
    | succ i ih =>
      intro hi j hj h
      by_cases hl : i + 1 = F.nz - 1
      · rw [← h, hl, outlet j hj]
      -- a column that is not the last one
      obtain ⟨j, hj, h⟩ : ∃ j < F.ntheta - 1, P (i + 1) j = P i0 j0 := by
        by_cases hjl : j = F.ntheta - 1
        · exact ⟨0, by omega, by rw [← period (i + 1) (by omega) (by omega), ← hjl, h]⟩
        · exact ⟨j, by omega, h⟩
      refine ih (by omega) j (by omega) ?_
      have hup : 0 < 1 / F.dz ^ 2 := by positivity
      have htp : 0 < 1 / F.dtheta ^ 2 := by positivity
      have s1 := hs.c2 i (by omega) j (by omega)
      have s2 := hs.c2 (i + 1) (by omega) j (by omega)
      have s3 := hs.c1 (i + 1) (by omega) j (by omega)
      have d1 := hmax' i (by omega) j (by omega)
      have d2 := hmax' (i + 1 + 1) (by omega) j (by omega)
      have d3 := hmax' (i + 1) (by omega) (j + 1) (by omega)
      have g2 : 0 ≤ c2 (i + 1) j * (P (i + 1 + 1) j - P (i + 1) j) :=
        mul_nonneg_of_nonpos_of_nonpos s2.le (by linarith)
      have g3 : 0 ≤ c1 (i + 1) j * (P (i + 1) (j + 1) - P (i + 1) j) :=
        mul_nonneg_of_nonpos_of_nonpos s3.le (by linarith)
      have g1 : 0 ≤ c2 i j * (P i j - P (i + 1) j) := mul_nonneg_of_nonpos_of_nonpos s1.le (by linarith)
      have hzero : c2 i j * (P i j - P (i + 1) j) ≤ 0 := by
        by_cases hj0 : j = 0
        · subst hj0
          have e := seam (i + 1) (by omega) (by omega)
          rw [Nat.add_sub_cancel] at e
          have s4 := hs.c1 (i + 1) (by omega) (F.ntheta - 1) (by omega)
          have d4 := hmax' (i + 1) (by omega) (F.ntheta - 2) (by omega)
          have g4 : 0 ≤ c1 (i + 1) (F.ntheta - 1) * (P (i + 1) (F.ntheta - 2) - P (i + 1) 0) :=
            mul_nonneg_of_nonpos_of_nonpos s4.le (by linarith)
          by_contra hc
          push Not at hc
          have := mul_pos hup (add_pos_of_nonneg_of_pos g2 hc)
          have := mul_nonneg htp.le (add_nonneg g3 g4)
          rw [zero_add] at *
          linarith
        · have e := inner (i + 1) (by omega) (by omega) j (by omega) hj
          rw [Nat.add_sub_cancel] at e
          have s4 := hs.c1 (i + 1) (by omega) (j - 1) (by omega)
          have d4 := hmax' (i + 1) (by omega) (j - 1) (by omega)
          have g4 : 0 ≤ c1 (i + 1) (j - 1) * (P (i + 1) (j - 1) - P (i + 1) j) :=
            mul_nonneg_of_nonpos_of_nonpos s4.le (by linarith)
          by_contra hc
          push Not at hc
          have := mul_pos hup (add_pos_of_nonneg_of_pos g2 hc)
          have := mul_nonneg htp.le (add_nonneg g3 g4)
          linarith
      have : c2 i j * (P i j - P (i + 1) j) = 0 := le_antisymm hzero g1
      rcases mul_eq_zero.1 this with h' | h'
      · linarith
      · linarith
  intro i hi j hj
  have := hmax' i hi j hj
  rw [key i0 hmem.1 j0 hmem.2 rfl] at this
  exact this

/-- Two solutions of the equations agree on the grid. -/
theorem grid_unique {F : FluidFlow} {c1 c2 c0 P Q : ℕ → ℕ → ℝ} (hn : 2 ≤ F.nz) (hm : 4 ≤ F.ntheta) (hz : F.dz ≠ 0)
    (ht : F.dtheta ≠ 0) (hs : Signs F c1 c2) (hP : Grid F c1 c2 c0 P) (hQ : Grid F c1 c2 c0 Q) :
    ∀ i < F.nz, ∀ j < F.ntheta, P i j = Q i j := by
  have half : ∀ {P Q : ℕ → ℕ → ℝ}, Grid F c1 c2 c0 P → Grid F c1 c2 c0 Q →
      ∀ i < F.nz, ∀ j < F.ntheta, P i j - Q i j ≤ 0 := by
    intro P Q hP hQ
    refine grid_le (P := fun i j => P i j - Q i j) hn hm hz ht hs (fun j hj => ?_) (fun j hj => ?_)
      (fun i h0 hi => ?_) (fun i h0 hi => ?_) (fun i h0 hi j h0j hj => ?_)
    · rw [hP.inlet j hj, hQ.inlet j hj, sub_self]
    · rw [hP.outlet j hj, hQ.outlet j hj, sub_self]
    · rw [hP.period i h0 hi, hQ.period i h0 hi]
    · linear_combination hP.seam i h0 hi - hQ.seam i h0 hi
    · linear_combination hP.inner i h0 hi j h0j hj - hQ.inner i h0 hi j h0j hj
  intro i hi j hj
  have := half hP hQ i hi j hj
  have := half hQ hP i hi j hj
  linarith

/-- A system whose homogeneous system has only the trivial solution has a solution. -/
theorem exists_solution {N : ℕ} {M : ℕ → ℕ → ℝ} (h : ∀ x, Solves N M (fun _ => 0) x → ∀ k < N, x k = 0) (f : ℕ → ℝ) :
    ∃ x, Solves N M f x := by
  let A : Matrix (Fin N) (Fin N) ℝ := fun i j => M i j
  have sum_fin : ∀ (k : ℕ) (x : ℕ → ℝ), ∑ c ∈ Finset.range N, M k c * x c = ∑ c : Fin N, M k c * x c :=
    fun k x => Finset.sum_range (fun c => M k c * x c)
  let ext (v : Fin N → ℝ) : ℕ → ℝ := fun k => if hk : k < N then v ⟨k, hk⟩ else 0
  have hext : ∀ (v : Fin N → ℝ) (c : Fin N), ext v c = v c := by
    intro v c
    simp [ext]
  have hker : ∀ v, A.mulVecLin v = 0 → v = 0 := by
    intro v hv
    have hsol : Solves N M (fun _ => 0) (ext v) := by
      intro k hk
      rw [sum_fin]
      have := congrFun hv ⟨k, hk⟩
      simp only [Matrix.mulVecLin_apply, Matrix.mulVec, dotProduct, Pi.zero_apply] at this
      rw [← this]
      apply Finset.sum_congr rfl
      intro c _
      rw [hext]
    funext c
    have := h _ hsol c c.2
    rwa [hext] at this
  have hinj : Injective A.mulVecLin := (injective_iff_map_eq_zero _).2 hker
  obtain ⟨v, hv⟩ := (LinearMap.injective_iff_surjective.1 hinj) (fun c : Fin N => f c)
  refine ⟨ext v, fun k hk => ?_⟩
  rw [sum_fin]
  have := congrFun hv ⟨k, hk⟩
  simp only [Matrix.mulVecLin_apply, Matrix.mulVec, dotProduct] at this
  rw [← this]
  apply Finset.sum_congr rfl
  intro c _
  rw [hext]

/-- The system of the code has a solution. -/
theorem mounted_solution {F : FluidFlow} {c1 c2 : ℕ → ℕ → ℝ} (c0 : ℕ → ℕ → ℝ) (hn : 2 ≤ F.nz) (hm : 4 ≤ F.ntheta)
    (hz : F.dz ≠ 0) (ht : F.dtheta ≠ 0) (hs : Signs F c1 c2) :
    ∃ x, Solves F.ntotal (F.mounting_matrix c1 c2 c0).1 (F.mounting_matrix c1 c2 c0).2 x ∧
      ∀ y, Solves F.ntotal (F.mounting_matrix c1 c2 c0).1 (F.mounting_matrix c1 c2 c0).2 y →
        ∀ k < F.ntotal, y k = x k := by
  have huniq : ∀ x y, Solves F.ntotal (F.mounting_matrix c1 c2 c0).1 (F.mounting_matrix c1 c2 c0).2 x →
      Solves F.ntotal (F.mounting_matrix c1 c2 c0).1 (F.mounting_matrix c1 c2 c0).2 y →
      ∀ k < F.ntotal, x k = y k := by
    intro x y hx hy k hk
    rw [solves_iff hn hm] at hx hy
    have hn0 : 0 < F.nz := by omega
    have := grid_unique hn hm hz ht hs hx hy (k % F.nz) (Nat.mod_lt _ hn0) (k / F.nz) (by
      rw [Nat.div_lt_iff_lt_mul hn0, mul_comm]; exact hk)
    rwa [mul_comm (k / F.nz), Nat.div_add_mod] at this
  -- the homogeneous system
  have hhom : ∀ x, Solves F.ntotal (F.mounting_matrix c1 c2 c0).1 (fun _ => 0) x → ∀ k < F.ntotal, x k = 0 := by
    intro x hx
    let F' : FluidFlow := { F with p_in := 0, p_out := 0 }
    have hrow : ∀ k < F.ntotal, (F'.mounting_matrix c1 c2 fun _ _ => 0).1 k = (F.mounting_matrix c1 c2 c0).1 k ∧
        (F'.mounting_matrix c1 c2 fun _ _ => 0).2 k = 0 := by
      intro k hk
      obtain ⟨m1, m2, m3, m4⟩ := mounted F c1 c2 c0 hn (by omega)
      obtain ⟨n1, n2, n3, n4⟩ := mounted F' c1 c2 (fun _ _ => 0) hn (by show 2 ≤ F.ntheta; omega)
      have hn0 : 0 < F.nz := by omega
      have hkeq : k = (k / F.nz) * F.nz + k % F.nz := by rw [mul_comm]; exact (Nat.div_add_mod k F.nz).symm
      have hi : k % F.nz < F.nz := Nat.mod_lt _ hn0
      have hj : k / F.nz < F.ntheta := by
        rw [Nat.div_lt_iff_lt_mul hn0, mul_comm]
        exact hk
      generalize k / F.nz = j at hkeq hj
      generalize k % F.nz = i at hkeq hi
      subst hkeq
      have hend : ∀ j, j * F.nz + F.nz - 1 = j * F.nz + (F.nz - 1) := fun j => by omega
      by_cases hi0 : i = 0
      · subst hi0
        rw [Nat.add_zero]
        exact ⟨(n1 j hj).1.trans (m1 j hj).1.symm, (n1 j hj).2.1⟩
      by_cases hil : i = F.nz - 1
      · subst hil
        rw [← hend]
        exact ⟨(n1 j hj).2.2.1.trans (m1 j hj).2.2.1.symm, (n1 j hj).2.2.2⟩
      by_cases hj0 : j = 0
      · subst hj0
        rw [zero_mul, zero_add]
        refine ⟨(n3 i (by omega) (by show i < F.nz - 1; omega)).1.trans (m3 i (by omega) (by omega)).1.symm, ?_⟩
        rw [(n3 i (by omega) (by show i < F.nz - 1; omega)).2]
        simp
      by_cases hjl : j = F.ntheta - 1
      · subst hjl
        exact ⟨(n2 i (by omega) (by show i < F.nz - 1; omega)).1.trans (m2 i (by omega) (by omega)).1.symm,
          (n2 i (by omega) (by show i < F.nz - 1; omega)).2⟩
      · refine ⟨(n4 i (by omega) (by show i < F.nz - 1; omega) j (by omega)
          (by show j < F.ntheta - 1; omega)).1.trans (m4 i (by omega) (by omega) j (by omega) (by omega)).1.symm, ?_⟩
        have := (n4 i (by omega) (by show i < F.nz - 1; omega) j (by omega) (by show j < F.ntheta - 1; omega)).2
        refine this.trans ?_
        simp
    have hs' : Signs F' c1 c2 := ⟨hs.c1, hs.c2⟩
    have hx' : Solves F'.ntotal (F'.mounting_matrix c1 c2 fun _ _ => 0).1 (F'.mounting_matrix c1 c2 fun _ _ => 0).2 x := by
      intro k hk
      rw [(hrow k hk).1, (hrow k hk).2]
      exact hx k hk
    have h0 : Solves F'.ntotal (F'.mounting_matrix c1 c2 fun _ _ => 0).1 (F'.mounting_matrix c1 c2 fun _ _ => 0).2
        (fun _ => 0) := by
      intro k hk
      rw [(hrow k hk).2]
      simp
    intro k hk
    rw [solves_iff (F := F') hn hm] at hx' h0
    have hn0 : 0 < F.nz := by omega
    have := grid_unique (F := F') hn hm hz ht hs' hx' h0 (k % F.nz) (Nat.mod_lt _ hn0) (k / F.nz) (by
      show k / F.nz < F.ntheta
      rw [Nat.div_lt_iff_lt_mul hn0, mul_comm]; exact hk)
    have hidx : k / F.nz * F'.nz + k % F.nz = k := by rw [mul_comm]; exact Nat.div_add_mod k F.nz
    rwa [hidx] at this
  obtain ⟨x, hx⟩ := exists_solution hhom (F.mounting_matrix c1 c2 c0).2
  exact ⟨x, hx, fun y hy k hk => huniq y x hy hx k hk⟩

end Ross.FluidLemmas
