import Mathlib.Analysis.Complex.Basic
import Mathlib.Analysis.SpecificLimits.Basic
import Mathlib.Tactic.Linarith
import Mathlib.Tactic.Ring
import Mathlib.Tactic.FieldSimp

/-! # The method of Gauss and Seidel for systems of equations, where only some of the entries are changed -/

namespace Ross.GaussSeidel

open Classical

/-- Entry `k` from the others. -/
noncomputable def entry (N : ℕ) (A : ℕ → ℕ → ℝ) (b : ℕ → ℂ) (x : ℕ → ℂ) (k : ℕ) : ℂ :=
  (b k - ∑ c ∈ (Finset.range N).erase k, (A k c : ℂ) * x c) / (A k k : ℂ)

noncomputable def cell (N : ℕ) (A : ℕ → ℕ → ℝ) (b : ℕ → ℂ) (S : ℕ → Prop) (x : ℕ → ℂ) (k : ℕ) : ℕ → ℂ :=
  if S k then Function.update x k (entry N A b x k) else x

noncomputable def part (N : ℕ) (A : ℕ → ℕ → ℝ) (b : ℕ → ℂ) (S : ℕ → Prop) (x : ℕ → ℂ) (m : ℕ) : ℕ → ℂ :=
  (List.range m).foldl (cell N A b S) x

noncomputable def sweep (N : ℕ) (A : ℕ → ℕ → ℝ) (b : ℕ → ℂ) (S : ℕ → Prop) (x : ℕ → ℂ) : ℕ → ℂ := part N A b S x N

variable {N : ℕ} {A : ℕ → ℕ → ℝ} {b : ℕ → ℂ} {S : ℕ → Prop}

theorem part_succ (x : ℕ → ℂ) (m : ℕ) : part N A b S x (m + 1) = cell N A b S (part N A b S x m) m := by
  unfold part
  rw [List.range_succ, List.foldl_append]
  rfl

theorem cell_other {x : ℕ → ℂ} {k c : ℕ} (h : c ≠ k) : cell N A b S x k c = x c := by
  unfold cell
  split_ifs
  · exact Function.update_of_ne h _ _
  · rfl

theorem part_late (x : ℕ → ℂ) {m c : ℕ} (h : m ≤ c) : part N A b S x m c = x c := by
  induction m with
  | zero => rfl
  | succ m ih =>
    rw [part_succ, cell_other (by omega)]
    exact ih (by omega)

theorem part_early (x : ℕ → ℂ) {m c : ℕ} (h : c < m) : part N A b S x m c = part N A b S x (c + 1) c := by
  induction m with
  | zero => omega
  | succ m ih =>
    by_cases hc : c = m
    · rw [hc]
    · rw [part_succ, cell_other hc]
      exact ih (by omega)

/-- What stands in the array when cell `k` is reached. -/
theorem part_at (x : ℕ → ℂ) {k c : ℕ} (hk : k < N) :
    part N A b S x k c = if c < k then sweep N A b S x c else x c := by
  split_ifs with h
  · unfold sweep
    rw [part_early x h, part_early x (show c < N by omega)]
  · exact part_late x (by omega)

theorem sweep_inactive (x : ℕ → ℂ) {k : ℕ} (h : ¬S k) : sweep N A b S x k = x k := by
  by_cases hk : k < N
  · unfold sweep
    rw [part_early x hk, part_succ]
    unfold cell
    rw [if_neg h]
    exact part_late x le_rfl
  · exact part_late x (by omega)

theorem sweep_active (x : ℕ → ℂ) {k : ℕ} (hk : k < N) (h : S k) :
    sweep N A b S x k = entry N A b (fun c => if c < k then sweep N A b S x c else x c) k := by
  have e : part N A b S x k = fun c => if c < k then sweep N A b S x c else x c := funext fun c => part_at x hk
  rw [← e]
  unfold sweep
  rw [part_early x hk, part_succ]
  unfold cell
  rw [if_pos h, Function.update_self]

theorem sweep_beyond (x : ℕ → ℂ) {k : ℕ} (hk : N ≤ k) : sweep N A b S x k = x k := part_late x hk

/-- What is left of equation `k` after a sweep. -/
theorem residual_eq (x : ℕ → ℂ) {k : ℕ} (hk : k < N) (h : S k) (hA : A k k ≠ 0) :
    ∑ c ∈ Finset.range N, (A k c : ℂ) * sweep N A b S x c - b k =
      ∑ c ∈ (Finset.range N).filter (k < ·), (A k c : ℂ) * (sweep N A b S x c - x c) := by
  have e := sweep_active (A := A) (b := b) x hk h
  unfold entry at e
  rw [eq_div_iff (by exact_mod_cast hA)] at e
  rw [← Finset.add_sum_erase _ _ (Finset.mem_range.2 hk), mul_comm (A k k : ℂ), e]
  have : ∑ c ∈ (Finset.range N).filter (k < ·), (A k c : ℂ) * (sweep N A b S x c - x c) =
      ∑ c ∈ (Finset.range N).erase k, ((A k c : ℂ) * sweep N A b S x c -
        (A k c : ℂ) * (if c < k then sweep N A b S x c else x c)) := by
    rw [Finset.sum_filter, ← Finset.add_sum_erase _ _ (Finset.mem_range.2 hk), if_neg (lt_irrefl k), zero_add]
    refine Finset.sum_congr rfl fun c hc => ?_
    have hne := Finset.ne_of_mem_erase hc
    by_cases h1 : c < k
    · rw [if_pos h1, if_neg (by omega), sub_self]
    · rw [if_neg h1, if_pos (by omega), mul_sub]
  rw [this, Finset.sum_sub_distrib]
  ring

theorem residual_le (x : ℕ → ℂ) {k : ℕ} (hk : k < N) (h : S k) (hA : A k k ≠ 0) {d : ℝ}
    (hd : ∀ c < N, ‖sweep N A b S x c - x c‖ ≤ d) :
    ‖∑ c ∈ Finset.range N, (A k c : ℂ) * sweep N A b S x c - b k‖ ≤
      (∑ c ∈ (Finset.range N).filter (k < ·), |A k c|) * d := by
  rw [residual_eq x hk h hA, Finset.sum_mul]
  refine (norm_sum_le _ _).trans (Finset.sum_le_sum fun c hc => ?_)
  rw [Finset.mem_filter, Finset.mem_range] at hc
  rw [norm_mul, Complex.norm_real, Real.norm_eq_abs]
  exact mul_le_mul_of_nonneg_left (hd c hc.1) (abs_nonneg _)

/-- The diagonal outweighs the rest, with the weights `v`. -/
structure Dominant (N : ℕ) (A : ℕ → ℕ → ℝ) (v : ℕ → ℝ) (θ : ℝ) : Prop where
  pos : ∀ k < N, 0 < v k
  nonneg : 0 ≤ θ
  lt_one : θ < 1
  diag : ∀ k < N, A k k ≠ 0
  rest : ∀ k < N, ∑ c ∈ (Finset.range N).erase k, |A k c| * v c ≤ θ * (|A k k| * v k)

variable {v : ℕ → ℝ} {θ : ℝ}

/-- A sweep brings two arrays nearer to each other. -/
theorem contraction (hD : Dominant N A v θ) {x y : ℕ → ℂ} {M : ℝ} (hM : 0 ≤ M)
    (h : ∀ c < N, ‖x c - y c‖ ≤ M * v c) (hS : ∀ c < N, ¬S c → x c = y c) :
    ∀ k < N, ‖sweep N A b S x k - sweep N A b S y k‖ ≤ θ * M * v k := by
  intro k
  induction k using Nat.strong_induction_on with
  | _ k ih =>
    intro hk
    by_cases hs : S k
    · rw [sweep_active x hk hs, sweep_active y hk hs]
      unfold entry
      have hA : (A k k : ℂ) ≠ 0 := by exact_mod_cast hD.diag k hk
      rw [← sub_div, norm_div, Complex.norm_real, Real.norm_eq_abs, div_le_iff₀ (abs_pos.2 (hD.diag k hk))]
      have e : b k - ∑ c ∈ (Finset.range N).erase k, (A k c : ℂ) * (if c < k then sweep N A b S x c else x c) -
          (b k - ∑ c ∈ (Finset.range N).erase k, (A k c : ℂ) * (if c < k then sweep N A b S y c else y c)) =
          ∑ c ∈ (Finset.range N).erase k, (A k c : ℂ) * ((if c < k then sweep N A b S y c else y c) -
            (if c < k then sweep N A b S x c else x c)) := by
        rw [sub_sub_sub_cancel_left, ← Finset.sum_sub_distrib]
        exact Finset.sum_congr rfl fun c _ => by ring
      rw [e]
      calc _ ≤ ∑ c ∈ (Finset.range N).erase k, |A k c| * (M * v c) := by
            refine (norm_sum_le _ _).trans (Finset.sum_le_sum fun c hc => ?_)
            have hcN : c < N := Finset.mem_range.1 (Finset.mem_of_mem_erase hc)
            rw [norm_mul, Complex.norm_real, Real.norm_eq_abs]
            refine mul_le_mul_of_nonneg_left ?_ (abs_nonneg _)
            rw [norm_sub_rev]
            split_ifs with h1
            · refine (ih c h1 hcN).trans ?_
              have := mul_nonneg hM (hD.pos c hcN).le
              rw [mul_assoc]
              exact mul_le_of_le_one_left this hD.lt_one.le
            · exact h c hcN
        _ = M * ∑ c ∈ (Finset.range N).erase k, |A k c| * v c := by
            rw [Finset.mul_sum]
            exact Finset.sum_congr rfl fun c _ => by ring
        _ ≤ M * (θ * (|A k k| * v k)) := mul_le_mul_of_nonneg_left (hD.rest k hk) hM
        _ = _ := by ring
    · rw [sweep_inactive x hs, sweep_inactive y hs, hS k hk hs, sub_self, norm_zero]
      exact mul_nonneg (mul_nonneg hD.nonneg hM) (hD.pos k hk).le

theorem exists_bound (hv : ∀ k < N, 0 < v k) (d : ℕ → ℂ) : ∃ M, 0 ≤ M ∧ ∀ c < N, ‖d c‖ ≤ M * v c := by
  refine ⟨∑ c ∈ Finset.range N, ‖d c‖ / v c, Finset.sum_nonneg fun c hc => ?_, fun c hc => ?_⟩
  · exact div_nonneg (norm_nonneg _) (hv c (Finset.mem_range.1 hc)).le
  · rw [← div_le_iff₀ (hv c hc)]
    exact Finset.single_le_sum (f := fun c => ‖d c‖ / v c)
      (fun c hc => div_nonneg (norm_nonneg _) (hv c (Finset.mem_range.1 hc)).le) (Finset.mem_range.2 hc)

/-- The sweeps from `x`. -/
noncomputable def iter (N : ℕ) (A : ℕ → ℕ → ℝ) (b : ℕ → ℂ) (S : ℕ → Prop) (x : ℕ → ℂ) : ℕ → ℕ → ℂ
  | 0 => x
  | n + 1 => sweep N A b S (iter N A b S x n)

theorem iter_inactive (x : ℕ → ℂ) (n : ℕ) {k : ℕ} (h : ¬S k) : iter N A b S x n k = x k := by
  induction n with
  | zero => rfl
  | succ n ih => rw [iter, sweep_inactive _ h, ih]

theorem iter_step (hD : Dominant N A v θ) (x : ℕ → ℂ) :
    ∃ M, 0 ≤ M ∧ ∀ n, ∀ c < N, ‖iter N A b S x (n + 1) c - iter N A b S x n c‖ ≤ θ ^ n * M * v c := by
  obtain ⟨M, hM, h⟩ := exists_bound hD.pos (fun c => iter N A b S x 1 c - iter N A b S x 0 c)
  refine ⟨M, hM, fun n => ?_⟩
  induction n with
  | zero => simpa using h
  | succ n ih =>
    intro c hc
    have := contraction (b := b) (S := S) hD (mul_nonneg (pow_nonneg hD.nonneg n) hM) ih
      (fun c _ hs => by rw [iter_inactive _ _ hs, iter_inactive _ _ hs]) c hc
    calc _ ≤ θ * (θ ^ n * M) * v c := this
      _ = _ := by ring

/-- The sweeps come to rest. -/
theorem iter_ends (hD : Dominant N A v θ) (x : ℕ → ℂ) {ε : ℝ} (hε : 0 < ε) :
    ∃ n0, ∀ n ≥ n0, ∀ c < N, ‖iter N A b S x (n + 1) c - iter N A b S x n c‖ ≤ ε := by
  obtain ⟨M, hM, h⟩ := iter_step (b := b) (S := S) hD x
  let V := ∑ c ∈ Finset.range N, v c
  have hV : ∀ c < N, v c ≤ V := fun c hc =>
    Finset.single_le_sum (f := v) (fun c hc => (hD.pos c (Finset.mem_range.1 hc)).le) (Finset.mem_range.2 hc)
  have hV0 : 0 ≤ V := Finset.sum_nonneg fun c hc => (hD.pos c (Finset.mem_range.1 hc)).le
  have ht : Filter.Tendsto (fun n => θ ^ n * (M * V)) Filter.atTop (nhds (0 * (M * V))) :=
    (tendsto_pow_atTop_nhds_zero_of_lt_one hD.nonneg hD.lt_one).mul_const _
  rw [zero_mul] at ht
  obtain ⟨n0, hn⟩ := Filter.eventually_atTop.1 (ht.eventually_le_const hε)
  refine ⟨n0, fun n hn0 c hc => (h n c hc).trans (le_trans ?_ (hn n hn0))⟩
  rw [mul_assoc]
  exact mul_le_mul_of_nonneg_left (mul_le_mul_of_nonneg_left (hV c hc) hM) (pow_nonneg hD.nonneg n)

/-- An array that solves the equations is not changed by a sweep. -/
theorem sweep_solution {y : ℕ → ℂ} (hdiag : ∀ k < N, A k k ≠ 0)
    (hy : ∀ k < N, S k → ∑ c ∈ Finset.range N, (A k c : ℂ) * y c = b k) : sweep N A b S y = y := by
  funext k
  induction k using Nat.strong_induction_on with
  | _ k ih =>
    by_cases hk : k < N
    · by_cases hs : S k
      · rw [sweep_active y hk hs]
        have : (fun c => if c < k then sweep N A b S y c else y c) = y := by
          funext c
          split_ifs with h
          · exact ih c h
          · rfl
        rw [this]
        unfold entry
        rw [← hy k hk hs, ← Finset.add_sum_erase _ _ (Finset.mem_range.2 hk), add_sub_cancel_right,
          mul_div_cancel_left₀ _ (by exact_mod_cast hdiag k hk)]
      · exact sweep_inactive y hs
    · exact sweep_beyond y (by omega)

/-- How far the solution is, from the last change. -/
theorem distance (hD : Dominant N A v θ) {x y : ℕ → ℂ}
    (hy : ∀ k < N, S k → ∑ c ∈ Finset.range N, (A k c : ℂ) * y c = b k) (hS : ∀ c < N, ¬S c → x c = y c) {d : ℝ}
    (hd : ∀ c < N, ‖sweep N A b S x c - x c‖ ≤ d * v c) :
    ∀ c < N, ‖sweep N A b S x c - y c‖ ≤ θ / (1 - θ) * d * v c := by
  rcases Nat.eq_zero_or_pos N with h0 | h0
  · intro c hc; omega
  obtain ⟨k, hk, hmax⟩ := Finset.exists_max_image (Finset.range N) (fun c => ‖x c - y c‖ / v c)
    ⟨0, Finset.mem_range.2 h0⟩
  rw [Finset.mem_range] at hk
  set E := ‖x k - y k‖ / v k with hE
  have hE0 : 0 ≤ E := div_nonneg (norm_nonneg _) (hD.pos k hk).le
  have hb : ∀ c < N, ‖x c - y c‖ ≤ E * v c := fun c hc => by
    rw [← div_le_iff₀ (hD.pos c hc)]
    exact hmax c (Finset.mem_range.2 hc)
  have hc := contraction (b := b) (S := S) hD hE0 hb hS
  rw [sweep_solution hD.diag hy] at hc
  have h1 : 0 < 1 - θ := by linarith [hD.lt_one]
  have hEd : E ≤ d / (1 - θ) := by
    rw [le_div_iff₀ h1]
    have h2 : E * v k = ‖x k - y k‖ := by rw [hE]; exact div_mul_cancel₀ _ (hD.pos k hk).ne'
    have h3 : ‖x k - y k‖ ≤ ‖sweep N A b S x k - x k‖ + ‖sweep N A b S x k - y k‖ := by
      have := norm_sub_le (sweep N A b S x k - y k) (sweep N A b S x k - x k)
      rw [sub_sub_sub_cancel_left] at this
      linarith
    have h4 : E * v k ≤ (d + θ * E) * v k := by
      rw [h2]
      calc _ ≤ _ := h3
        _ ≤ d * v k + θ * E * v k := add_le_add (hd k hk) (hc k hk)
        _ = _ := by ring
    have := le_of_mul_le_mul_right h4 (hD.pos k hk)
    linarith
  intro c hcN
  refine (hc c hcN).trans (mul_le_mul_of_nonneg_right ?_ (hD.pos c hcN).le)
  calc θ * E ≤ θ * (d / (1 - θ)) := mul_le_mul_of_nonneg_left hEd hD.nonneg
    _ = _ := by ring

end Ross.GaussSeidel
