import Mathlib.Data.Matrix.Mul
import Mathlib.LinearAlgebra.Matrix.NonsingularInverse
import Mathlib.Tactic.Linarith
import Mathlib.Tactic.Ring
import Mathlib.Tactic.SplitIfs
import Verif.Spec.FluidPressure

/-! # Systems of equations with five entries in a row, from cells in rows and columns -/

namespace Ross.Stencil

open Spec.Fluid

/-- The sum of what goes through the faces of cell `i`, `j`, where `kE`, `kN`, `kS` belong to the edges of the grid. -/
noncomputable def op (na nc : ℕ) (w e n s : ℕ → ℕ → ℝ) (kE kN kS : ℝ) (t : ℕ → ℕ → ℝ) (i j : ℕ) : ℝ :=
  w i j * (if j = 0 then 2 * t i j else t i j - t i (j - 1)) +
    e i j * (if j = nc - 1 then kE * t i j else t i j - t i (j + 1)) +
    n i j * (if i = na - 1 then kN * t i j else t i j - t (i + 1) j) +
    s i j * (if i = 0 then kS * t i j else t i j - t (i - 1) j)

variable {na nc : ℕ} {w e n s : ℕ → ℕ → ℝ} {kE kN kS : ℝ}

/-- Where as much goes in as out or less, nothing is negative. -/
theorem op_nonneg (hw : ∀ i < na, ∀ j < nc, 0 < w i j) (he : ∀ i < na, ∀ j < nc, 0 ≤ e i j)
    (hn : ∀ i < na, ∀ j < nc, 0 ≤ n i j) (hs : ∀ i < na, ∀ j < nc, 0 ≤ s i j) (kE0 : 0 ≤ kE) (kN0 : 0 ≤ kN)
    (kS0 : 0 ≤ kS) {t : ℕ → ℕ → ℝ} (h : ∀ i < na, ∀ j < nc, 0 ≤ op na nc w e n s kE kN kS t i j) :
    ∀ i < na, ∀ j < nc, 0 ≤ t i j := by
  by_contra hc
  push Not at hc
  obtain ⟨i0, hi0, j0, hj0, hneg⟩ := hc
  have hne : (Finset.range na ×ˢ Finset.range nc).Nonempty := ⟨(i0, j0), by simp [hi0, hj0]⟩
  obtain ⟨m, hm, hmin⟩ := Finset.exists_min_image _ (fun p : ℕ × ℕ => t p.1 p.2) hne
  have hmin' : ∀ i < na, ∀ j < nc, t m.1 m.2 ≤ t i j := fun i hi j hj => hmin (i, j) (by simp [hi, hj])
  have hneg' : t m.1 m.2 < 0 := lt_of_le_of_lt (hmin' i0 hi0 j0 hj0) hneg
  -- the first of the columns with the least value
  let S := (Finset.range na ×ˢ Finset.range nc).filter (fun p : ℕ × ℕ => t p.1 p.2 = t m.1 m.2)
  have hS : S.Nonempty := ⟨m, by simp [S] at hm ⊢; exact hm⟩
  obtain ⟨p, hp, hpmin⟩ := Finset.exists_min_image S (fun p : ℕ × ℕ => p.2) hS
  obtain ⟨i, j⟩ := p
  simp only [S, Finset.mem_filter, Finset.mem_product, Finset.mem_range] at hp
  obtain ⟨⟨hi, hj⟩, heq⟩ := hp
  have hlow : ∀ i' < na, ∀ j' < nc, t i j ≤ t i' j' := fun i' hi' j' hj' => heq ▸ hmin' i' hi' j' hj'
  have hneg2 : t i j < 0 := heq ▸ hneg'
  have hop := h i hi j hj
  unfold op at hop
  have h1 : w i j * (if j = 0 then 2 * t i j else t i j - t i (j - 1)) < 0 := by
    refine mul_neg_of_pos_of_neg (hw i hi j hj) ?_
    split_ifs with h0
    · linarith
    · have hle := hlow i hi (j - 1) (by omega)
      rcases lt_or_eq_of_le hle with hlt | he
      · linarith
      · exfalso
        have : (i, j - 1) ∈ S := by
          simp only [S, Finset.mem_filter, Finset.mem_product, Finset.mem_range]
          exact ⟨⟨hi, by omega⟩, he ▸ heq⟩
        have := hpmin _ this
        simp only at this
        omega
  have h2 : e i j * (if j = nc - 1 then kE * t i j else t i j - t i (j + 1)) ≤ 0 := by
    refine mul_nonpos_of_nonneg_of_nonpos (he i hi j hj) ?_
    split_ifs with h0
    · exact mul_nonpos_of_nonneg_of_nonpos kE0 hneg2.le
    · linarith [hlow i hi (j + 1) (by omega)]
  have h3 : n i j * (if i = na - 1 then kN * t i j else t i j - t (i + 1) j) ≤ 0 := by
    refine mul_nonpos_of_nonneg_of_nonpos (hn i hi j hj) ?_
    split_ifs with h0
    · exact mul_nonpos_of_nonneg_of_nonpos kN0 hneg2.le
    · linarith [hlow (i + 1) (by omega) j hj]
  have h4 : s i j * (if i = 0 then kS * t i j else t i j - t (i - 1) j) ≤ 0 := by
    refine mul_nonpos_of_nonneg_of_nonpos (hs i hi j hj) ?_
    split_ifs with h0
    · exact mul_nonpos_of_nonneg_of_nonpos kS0 hneg2.le
    · linarith [hlow (i - 1) (by omega) j hj]
  linarith

theorem op_sub (t u : ℕ → ℕ → ℝ) (i j : ℕ) :
    op na nc w e n s kE kN kS (fun i j => t i j - u i j) i j =
      op na nc w e n s kE kN kS t i j - op na nc w e n s kE kN kS u i j := by
  unfold op
  split_ifs <;> ring

theorem op_zero (i j : ℕ) : op na nc w e n s kE kN kS (fun _ _ => 0) i j = 0 := by
  unfold op
  simp

/-- Values with larger sums are larger. -/
theorem op_mono (hw : ∀ i < na, ∀ j < nc, 0 < w i j) (he : ∀ i < na, ∀ j < nc, 0 ≤ e i j)
    (hn : ∀ i < na, ∀ j < nc, 0 ≤ n i j) (hs : ∀ i < na, ∀ j < nc, 0 ≤ s i j) (kE0 : 0 ≤ kE) (kN0 : 0 ≤ kN)
    (kS0 : 0 ≤ kS) {t u : ℕ → ℕ → ℝ}
    (h : ∀ i < na, ∀ j < nc, op na nc w e n s kE kN kS t i j ≤ op na nc w e n s kE kN kS u i j) :
    ∀ i < na, ∀ j < nc, t i j ≤ u i j := by
  intro i hi j hj
  have := op_nonneg hw he hn hs kE0 kN0 kS0 (t := fun i j => u i j - t i j)
    (fun i hi j hj => by rw [op_sub]; linarith [h i hi j hj]) i hi j hj
  linarith

/-- Values are determined by their sums. -/
theorem op_inj (hw : ∀ i < na, ∀ j < nc, 0 < w i j) (he : ∀ i < na, ∀ j < nc, 0 ≤ e i j)
    (hn : ∀ i < na, ∀ j < nc, 0 ≤ n i j) (hs : ∀ i < na, ∀ j < nc, 0 ≤ s i j) (kE0 : 0 ≤ kE) (kN0 : 0 ≤ kN)
    (kS0 : 0 ≤ kS) {t u : ℕ → ℕ → ℝ}
    (h : ∀ i < na, ∀ j < nc, op na nc w e n s kE kN kS t i j = op na nc w e n s kE kN kS u i j) :
    ∀ i < na, ∀ j < nc, t i j = u i j := fun i hi j hj =>
  le_antisymm (op_mono hw he hn hs kE0 kN0 kS0 (fun i hi j hj => (h i hi j hj).le) i hi j hj)
    (op_mono hw he hn hs kE0 kN0 kS0 (fun i hi j hj => (h i hi j hj).ge) i hi j hj)

theorem op_congr {t u : ℕ → ℕ → ℝ} (h : ∀ i < na, ∀ j < nc, t i j = u i j) {i j : ℕ} (hi : i < na) (hj : j < nc) :
    op na nc w e n s kE kN kS t i j = op na nc w e n s kE kN kS u i j := by
  unfold op
  rw [h i hi j hj]
  congr 1
  · congr 1
    · congr 1
      · split_ifs with h0
        · rfl
        · rw [h i hi (j - 1) (by omega)]
      · split_ifs with h0
        · rfl
        · rw [h i hi (j + 1) (by omega)]
    · split_ifs with h0
      · rfl
      · rw [h (i + 1) (by omega) j hj]
  · split_ifs with h0
    · rfl
    · rw [h (i - 1) (by omega) j hj]

/-- The sum over a row with entries at five places. -/
theorem row_sum {N r nc : ℕ} {D E W U S : ℝ} {row : ℕ → ℝ} (x : ℕ → ℝ)
    (hrow : ∀ c, row c = (if c = r then D else 0) + (if c = r + 1 then E else 0) + (if c + 1 = r then W else 0) +
      (if c = r + nc then U else 0) + (if c + nc = r then S else 0))
    (hr : r < N) (hE : E ≠ 0 → r + 1 < N) (hW : W ≠ 0 → 0 < r) (hU : U ≠ 0 → r + nc < N) (hS : S ≠ 0 → nc ≤ r) :
    ∑ c ∈ Finset.range N, row c * x c = D * x r + E * x (r + 1) + W * x (r - 1) + U * x (r + nc) + S * x (r - nc) := by
  have hite : ∀ (a : ℕ) (A : ℝ), (A ≠ 0 → a < N) →
      ∑ c ∈ Finset.range N, (if c = a then A else 0) * x c = A * x a := by
    intro a A hA
    simp only [ite_mul, zero_mul, Finset.sum_ite_eq', Finset.mem_range]
    split_ifs with h
    · rfl
    · by_cases h0 : A = 0
      · simp [h0]
      · exact absurd (hA h0) h
  have hsub : ∀ (d : ℕ) (A : ℝ), (A ≠ 0 → d ≤ r) →
      ∑ c ∈ Finset.range N, (if c + d = r then A else 0) * x c = A * x (r - d) := by
    intro d A hA
    by_cases h0 : A = 0
    · simp [h0]
    · have hd := hA h0
      rw [← hite (r - d) A (fun _ => by omega)]
      refine Finset.sum_congr rfl fun c _ => ?_
      congr 1
      simp only [show (c + d = r) ↔ (c = r - d) by omega]
  calc ∑ c ∈ Finset.range N, row c * x c
      = ∑ c ∈ Finset.range N, ((if c = r then D else 0) * x c + (if c = r + 1 then E else 0) * x c +
          (if c + 1 = r then W else 0) * x c + (if c = r + nc then U else 0) * x c +
          (if c + nc = r then S else 0) * x c) := by
        refine Finset.sum_congr rfl fun c _ => ?_
        rw [hrow]; ring
    _ = _ := by
        rw [Finset.sum_add_distrib, Finset.sum_add_distrib, Finset.sum_add_distrib, Finset.sum_add_distrib,
          hite r D (fun _ => hr), hite _ E hE, hsub 1 W (fun h => hW h), hite _ U hU, hsub nc S hS]

/-- A square system with at most one solution for one right-hand side has a solution for every other one. -/
theorem solves_exists {N : ℕ} {M : ℕ → ℕ → ℝ} (h : ∀ x, Solves N M (fun _ => 0) x → ∀ k < N, x k = 0) (f : ℕ → ℝ) :
    ∃ x, Solves N M f x ∧ ∀ y, Solves N M f y → ∀ k < N, y k = x k := by
  classical
  let A : Matrix (Fin N) (Fin N) ℝ := fun r c => M r c
  have hA : ∀ v : Fin N → ℝ, A.mulVec v = 0 → v = 0 := by
    intro v hv
    let x : ℕ → ℝ := fun k => if hk : k < N then v ⟨k, hk⟩ else 0
    have hx : Solves N M (fun _ => 0) x := by
      intro k hk
      have := congrFun hv ⟨k, hk⟩
      simp only [Matrix.mulVec, dotProduct, Pi.zero_apply] at this
      rw [Finset.sum_range]
      rw [← this]
      refine Finset.sum_congr rfl fun c _ => ?_
      simp [x, A]
    funext k
    have := h x hx k k.2
    simpa [x] using this
  have hinj : Function.Injective A.mulVec := by
    intro u v huv
    have : A.mulVec (u - v) = 0 := by rw [Matrix.mulVec_sub]; simp [huv]
    exact sub_eq_zero.1 (hA _ this)
  have hsurj : Function.Surjective A.mulVec := by
    have := (LinearMap.injective_iff_surjective (f := A.mulVecLin)).1 hinj
    exact this
  obtain ⟨v, hv⟩ := hsurj (fun k => f k)
  let x : ℕ → ℝ := fun k => if hk : k < N then v ⟨k, hk⟩ else 0
  have hx : Solves N M f x := by
    intro k hk
    have := congrFun hv ⟨k, hk⟩
    simp only [Matrix.mulVec, dotProduct] at this
    rw [Finset.sum_range, ← this]
    refine Finset.sum_congr rfl fun c _ => ?_
    simp [x, A]
  refine ⟨x, hx, fun y hy k hk => ?_⟩
  have := h (fun k => y k - x k) (fun k hk => by
    have h1 := hy k hk
    have h2 := hx k hk
    simp only [mul_sub, Finset.sum_sub_distrib]
    rw [h1, h2, sub_self]) k hk
  linarith

end Ross.Stencil
