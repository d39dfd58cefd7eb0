import Mathlib.Tactic.Module
import Mathlib.Tactic.NormNum
import Mathlib.Tactic.Linarith
import Mathlib.Tactic.FinCases
import Mathlib.Data.Matrix.Reflection
import Mathlib.Data.Fin.VecNotation
import Mathlib.LinearAlgebra.Matrix.Notation
import Mathlib.Algebra.Order.Floor.Ring
import Verif.Model.Integrator
import Verif.Lemmas.RungeKutta
import Verif.Spec.RungeKutta

/-! # C40: the Runge-Kutta integrators -/

namespace Ross.Props

open Ross Ross.Spec Ross.Integrator Matrix

/-- A right-hand side without side effects. -/
def pureFunc (f : ℝ → Vec → ℕ → Vec) : Func Unit := fun t y i => pure (f t y i)

/-- What a computation without side effects returns. -/
def value {α : Type} (m : StateM Unit α) : α := (m ()).1

noncomputable def A4 : Matrix (Fin 4) (Fin 4) ℝ := !![0, 0, 0, 0; 1 / 2, 0, 0, 0; 0, 1 / 2, 0, 0; 0, 0, 1, 0]
noncomputable def b4 : Fin 4 → ℝ := ![1 / 6, 1 / 3, 1 / 3, 1 / 6]
noncomputable def c4 : Fin 4 → ℝ := ![0, 1 / 2, 1 / 2, 1]

noncomputable def A6 : Matrix (Fin 6) (Fin 6) ℝ :=
  !![0, 0, 0, 0, 0, 0;
     1 / 5, 0, 0, 0, 0, 0;
     3 / 40, 9 / 40, 0, 0, 0, 0;
     3 / 10, -9 / 10, 6 / 5, 0, 0, 0;
     -11 / 54, 5 / 2, -70 / 27, 35 / 27, 0, 0;
     1631 / 55296, 175 / 512, 575 / 13824, 44275 / 110592, 253 / 4096, 0]
noncomputable def b6 : Fin 6 → ℝ := ![37 / 378, 0, 250 / 621, 125 / 594, 0, 512 / 1771]
noncomputable def c6 : Fin 6 → ℝ := ![0, 1 / 5, 3 / 10, 3 / 5, 1, 7 / 8]

theorem order4 : OrderFour A4 b4 c4 := by
  have hAc : A4 *ᵥ c4 = ![0, 0, 1 / 4, 1 / 2] := by
    ext i; fin_cases i <;> norm_num [A4, c4, Matrix.mulVec, dotProduct, Fin.sum_univ_succ]
  have hAAc : A4 *ᵥ (A4 *ᵥ c4) = ![0, 0, 0, 1 / 4] := by
    rw [hAc]
    ext i; fin_cases i <;> norm_num [A4, Matrix.mulVec, dotProduct, Fin.sum_univ_succ]
  have hAcc : A4 *ᵥ (c4 * c4) = ![0, 0, 1 / 8, 1 / 4] := by
    ext i; fin_cases i <;> norm_num [A4, c4, Matrix.mulVec, dotProduct, Fin.sum_univ_succ]
  constructor
  · intro i; fin_cases i <;> norm_num [A4, c4, Fin.sum_univ_succ]
  all_goals first | rw [hAAc] | rw [hAcc] | rw [hAc] | skip
  all_goals norm_num [b4, c4, dotProduct, Fin.sum_univ_succ]

theorem order6 : OrderFive A6 b6 c6 := by
  have hAc : A6 *ᵥ c6 =
      ![0, 0, 9 / 200, 9 / 50, 1 / 2, 49 / 128] := by
    ext i; fin_cases i <;> norm_num [A6, c6, Matrix.mulVec, dotProduct, Fin.sum_univ_succ]
  have hAAc : A6 *ᵥ (A6 *ᵥ c6) =
      ![0, 0, 0, 27 / 500, 7 / 60, 161 / 1536] := by
    rw [hAc]
    ext i; fin_cases i <;> norm_num [A6, c6, Matrix.mulVec, dotProduct, Fin.sum_univ_succ]
  have hAcc : A6 *ᵥ (c6 * c6) =
      ![0, 0, 9 / 1000, 9 / 125, 1 / 3, 343 / 1536] := by
    ext i; fin_cases i <;> norm_num [A6, c6, Matrix.mulVec, dotProduct, Fin.sum_univ_succ]
  have hAccc : A6 *ᵥ (c6 * c6 * c6) =
      ![0, 0, 9 / 5000, 63 / 2500, 23 / 100, 623 / 4096] := by
    ext i; fin_cases i <;> norm_num [A6, c6, Matrix.mulVec, dotProduct, Fin.sum_univ_succ]
  have hAcAc : A6 *ᵥ (c6 * (A6 *ᵥ c6)) =
      ![0, 0, 0, 81 / 5000, 21 / 200, 3059 / 40960] := by
    rw [hAc]
    ext i; fin_cases i <;> norm_num [A6, c6, Matrix.mulVec, dotProduct, Fin.sum_univ_succ]
  have hAAcc : A6 *ᵥ (A6 *ᵥ (c6 * c6)) =
      ![0, 0, 0, 27 / 2500, 7 / 100, 3059 / 61440] := by
    rw [hAcc]
    ext i; fin_cases i <;> norm_num [A6, c6, Matrix.mulVec, dotProduct, Fin.sum_univ_succ]
  have hAAAc : A6 *ᵥ (A6 *ᵥ (A6 *ᵥ c6)) =
      ![0, 0, 0, 0, 7 / 100, 1771 / 61440] := by
    rw [hAAc]
    ext i; fin_cases i <;> norm_num [A6, c6, Matrix.mulVec, dotProduct, Fin.sum_univ_succ]
  refine ⟨⟨?_, ?_, ?_, ?_, ?_, ?_, ?_, ?_, ?_⟩, ?_, ?_, ?_, ?_, ?_, ?_, ?_, ?_, ?_⟩
  · intro i; fin_cases i <;> norm_num [A6, c6, Fin.sum_univ_succ]
  all_goals first | rw [hAAAc] | rw [hAAcc] | rw [hAcAc] | rw [hAccc] | rw [hAAc] | rw [hAcc] | rw [hAc] | skip
  all_goals norm_num [b6, c6, dotProduct, Fin.sum_univ_succ]

/-- **C40** one step of `rk4` is a step of a Runge-Kutta method that satisfies the conditions for order
four. -/
theorem C40_rk4_order : ∃ (A : Matrix (Fin 4) (Fin 4) ℝ) (b c : Fin 4 → ℝ), OrderFour A b c ∧
    ∀ (f : ℝ → Vec → ℕ → Vec) (h t : ℝ) (y : Vec) (i : ℕ),
      RKStep A b c (fun t y => f t y i) h t y (value (rk4Step h (pureFunc f) t y i)) := by
  refine ⟨A4, b4, c4, order4, fun f h t y i => ?_⟩
  let k1 := f t y i
  let k2 := f (t + 0.5 * h) (y + (0.5 : ℝ) • (h • k1)) i
  let k3 := f (t + 0.5 * h) (y + (0.5 : ℝ) • (h • k2)) i
  let k4 := f (t + h) (y + h • k3) i
  refine ⟨![k1, k2, k3, k4], ?_, ?_⟩
  · intro j
    fin_cases j
    · simp [A4, c4, Fin.sum_univ_four, k1]
    · refine congrArg₂ (fun a b => f a b i) ?_ ?_
      · norm_num [c4]
        try ring
      · simp [A4, Fin.sum_univ_four]; module
    · refine congrArg₂ (fun a b => f a b i) ?_ ?_
      · norm_num [c4]
        try ring
      · simp [A4, Fin.sum_univ_four]; module
    · refine congrArg₂ (fun a b => f a b i) ?_ ?_
      · simp [c4]
      · simp [A4, Fin.sum_univ_four]
  · show y + (1.0 / 6.0 : ℝ) • (h • k1 + (2 : ℝ) • (h • k2) + (2 : ℝ) • (h • k3) + h • k4) = _
    rw [show (1.0 / 6.0 : ℝ) = 1 / 6 by norm_num]
    simp only [b4, Fin.sum_univ_four]
    simp only [Matrix.cons_val_zero, Matrix.cons_val_one, Matrix.cons_val]
    module

/-- **C40** one step of `rk45` is a step of a Runge-Kutta method that satisfies the conditions for order
five. -/
theorem C40_rk45_order : ∃ (A : Matrix (Fin 6) (Fin 6) ℝ) (b c : Fin 6 → ℝ), OrderFive A b c ∧
    ∀ (f : ℝ → Vec → ℕ → Vec) (h t : ℝ) (y : Vec) (i : ℕ),
      RKStep A b c (fun t y => f t y i) h t y (value (rk45Step h (pureFunc f) t y i)) := by
  refine ⟨A6, b6, c6, order6, fun f h t y i => ?_⟩
  let k1 := f t y i
  let k2 := f (t + h / 5) (y + (h / 5) • k1) i
  let k3 := f (t + 3 * h / 10) (y + (3 * h / 40) • k1 + (9 * h / 40) • k2) i
  let k4 := f (t + 3 * h / 5) (y + (3 * h / 10) • k1 - (9 * h / 10) • k2 + (6 * h / 5) • k3) i
  let k5 := f (t + h) (y - (11 * h / 54) • k1 + (5 * h / 2) • k2 - (70 * h / 27) • k3 + (35 * h / 27) • k4) i
  let k6 := f (t + 7 * h / 8) (y + (1631 * h / 55296) • k1 + (175 * h / 512) • k2 + (575 * h / 13824) • k3 +
    (44275 * h / 110592) • k4 + (253 * h / 4096) • k5) i
  refine ⟨![k1, k2, k3, k4, k5, k6], ?_, ?_⟩
  · intro j
    fin_cases j
    · simp [A6, c6, Fin.sum_univ_six, k1]
    all_goals
      refine congrArg₂ (fun a b => f a b i) ?_ ?_
      · simp [c6]
        try ring
      · simp [A6, Fin.sum_univ_six]
        try module
  · show y + h • ((37 / 378 : ℝ) • k1 + (250 / 621 : ℝ) • k3 + (125 / 594 : ℝ) • k4 +
      (512 / 1771 : ℝ) • k6) = _
    simp [b6, Fin.sum_univ_six]

/-- **C40** on a linear system with a constant force one step of `rk4` is the Taylor polynomial of degree
four of the exact solution `y(h)`: the derivatives of the solution at the start of the step are `w`,
`A w`, `A² w`, … with `w = A y + g`. -/
theorem C40_rk4_linear (A : Matrix (Fin 24) (Fin 24) ℝ) (g : ℕ → Vec) (h t : ℝ) (y : Vec) (i : ℕ) :
    value (rk4Step h (pureFunc fun _ y i => A *ᵥ y + g i) t y i) =
      y + ∑ k ∈ Finset.range 4, (h ^ (k + 1) / (k + 1).factorial) • (A ^ k *ᵥ (A *ᵥ y + g i)) := by
  have hp : ∀ k (v : Vec), A ^ (k + 1) *ᵥ v = A *ᵥ (A ^ k *ᵥ v) := by
    intro k v; rw [pow_succ', Matrix.mulVec_mulVec]
  simp only [Finset.sum_range_succ, Finset.sum_range_zero, hp, pow_zero, Matrix.one_mulVec]
  have hval : value (rk4Step h (pureFunc fun _ y i => A *ᵥ y + g i) t y i) =
      let f := fun v => A *ᵥ v + g i
      let k1 := h • f y
      let k2 := h • f (y + (0.5 : ℝ) • k1)
      let k3 := h • f (y + (0.5 : ℝ) • k2)
      let k4 := h • f (y + k3)
      y + (1.0 / 6.0 : ℝ) • (k1 + (2 : ℝ) • k2 + (2 : ℝ) • k3 + k4) := rfl
  rw [hval]
  simp only [Matrix.mulVec_add, Matrix.mulVec_smul]
  norm_num [Nat.factorial]
  generalize A *ᵥ y = y1
  generalize g i = gi
  generalize A *ᵥ gi = g1
  generalize A *ᵥ g1 = g2
  generalize A *ᵥ g2 = g3
  generalize A *ᵥ y1 = y2
  generalize A *ᵥ y2 = y3
  generalize A *ᵥ y3 = y4
  module

/-- **C40** on a linear system with a constant force one step of `rk45` agrees with the Taylor polynomial
of degree five of the exact solution; the term of degree six has the coefficient `1 / 800` instead of
`1 / 720`. -/
theorem C40_rk45_linear (A : Matrix (Fin 24) (Fin 24) ℝ) (g : ℕ → Vec) (h t : ℝ) (y : Vec) (i : ℕ) :
    value (rk45Step h (pureFunc fun _ y i => A *ᵥ y + g i) t y i) =
      y + ∑ k ∈ Finset.range 5, (h ^ (k + 1) / (k + 1).factorial) • (A ^ k *ᵥ (A *ᵥ y + g i)) +
        (h ^ 6 / 800) • (A ^ 5 *ᵥ (A *ᵥ y + g i)) := by
  have hp : ∀ k (v : Vec), A ^ (k + 1) *ᵥ v = A *ᵥ (A ^ k *ᵥ v) := by
    intro k v; rw [pow_succ', Matrix.mulVec_mulVec]
  simp only [Finset.sum_range_succ, Finset.sum_range_zero, hp, pow_zero, Matrix.one_mulVec]
  have hval : value (rk45Step h (pureFunc fun _ y i => A *ᵥ y + g i) t y i) =
      let f := fun v => A *ᵥ v + g i
      let k1 := f y
      let k2 := f (y + (h / 5) • k1)
      let k3 := f (y + (3 * h / 40) • k1 + (9 * h / 40) • k2)
      let k4 := f (y + (3 * h / 10) • k1 - (9 * h / 10) • k2 + (6 * h / 5) • k3)
      let k5 := f (y - (11 * h / 54) • k1 + (5 * h / 2) • k2 - (70 * h / 27) • k3 + (35 * h / 27) • k4)
      let k6 := f (y + (1631 * h / 55296) • k1 + (175 * h / 512) • k2 + (575 * h / 13824) • k3 +
        (44275 * h / 110592) • k4 + (253 * h / 4096) • k5)
      y + h • ((37 / 378 : ℝ) • k1 + (250 / 621 : ℝ) • k3 + (125 / 594 : ℝ) • k4 +
        (512 / 1771 : ℝ) • k6) := rfl
  rw [hval]
  have hs : ∀ u v : Vec, A *ᵥ (u - v) = A *ᵥ u - A *ᵥ v := fun u v => Matrix.mulVec_sub A u v
  simp only [Matrix.mulVec_add, Matrix.mulVec_smul, hs]
  norm_num [Nat.factorial]
  generalize A *ᵥ y = y1
  generalize g i = gi
  generalize A *ᵥ gi = g1
  generalize A *ᵥ g1 = g2
  generalize A *ᵥ g2 = g3
  generalize A *ᵥ g3 = g4
  generalize A *ᵥ g4 = g5
  generalize A *ᵥ y1 = y2
  generalize A *ᵥ y2 = y3
  generalize A *ᵥ y3 = y4
  generalize A *ᵥ y4 = y5
  generalize A *ᵥ y5 = y6
  module

theorem value_loop_succ (step : ℝ → Vec → ℕ → StateM Unit Vec) (h : ℝ) (left i : ℕ) (x0 : ℝ) (y : Vec) :
    value (loop step h (left + 1) i x0 y) = value (step x0 y i) ::
      value (loop step h left (i + 1) (x0 + h) (value (step x0 y i))) := rfl

theorem loop_length (step : ℝ → Vec → ℕ → StateM Unit Vec) (h : ℝ) (left i : ℕ) (x0 : ℝ) (y : Vec) :
    (value (loop step h left i x0 y)).length = left := by
  induction left generalizing i x0 y with
  | zero => rfl
  | succ n ih => rw [value_loop_succ, List.length_cons, ih]

theorem loop_get (step : ℝ → Vec → ℕ → StateM Unit Vec) (h : ℝ) (left i : ℕ) (x0 : ℝ) (y : Vec) (k : ℕ)
    (hk : k + 1 < (y :: value (loop step h left i x0 y)).length) :
    (y :: value (loop step h left i x0 y))[k + 1] =
      value (step (x0 + k * h) (y :: value (loop step h left i x0 y))[k] (i + k)) := by
  induction left generalizing i x0 y k with
  | zero => simp [loop_length] at hk
  | succ n ih =>
    simp only [value_loop_succ] at hk ⊢
    cases k with
    | zero => simp
    | succ k =>
      have := ih (i + 1) (x0 + h) (value (step x0 y i)) k (by simpa using hk)
      rw [List.getElem_cons_succ, this]
      simp only [List.getElem_cons_succ]
      congr 2
      · push_cast; ring
      · omega

theorem run_ok {step : ℝ → Vec → ℕ → StateM Unit Vec} {x0 : ℝ} {y0 : Vec} {x h : ℝ}
    {m : StateM Unit (List Vec)} (hr : run step x0 y0 x h = .ok m) :
    h ≠ 0 ∧ 0 ≤ pyInt ((x - x0) / h) ∧
      value m = y0 :: value (loop step h (pyInt ((x - x0) / h)).toNat 1 x0 y0) := by
  unfold run at hr
  dsimp only at hr
  split_ifs at hr with h0 h1 h2
  cases hr
  exact ⟨h0, by omega, rfl⟩

/-- What the two integrators return for a right-hand side without side effects: the steps one after the
other, from the initial state. -/
theorem run_columns {step : ℝ → Vec → ℕ → StateM Unit Vec} {x0 : ℝ} {y0 : Vec} {x h : ℝ}
    {m : StateM Unit (List Vec)} (hr : run step x0 y0 x h = .ok m) (hx : x0 ≤ x) (hh : 0 < h) :
    (value m).length = ⌊(x - x0) / h⌋₊ + 1 ∧ (value m)[0]? = some y0 ∧
    ∀ k (hk : k + 1 < (value m).length), (value m)[k + 1] =
      value (step (x0 + k * h) (value m)[k] (k + 1)) := by
  obtain ⟨-, -, e⟩ := run_ok hr
  have hq : 0 ≤ (x - x0) / h := div_nonneg (by linarith) hh.le
  have hn : (pyInt ((x - x0) / h)).toNat = ⌊(x - x0) / h⌋₊ := by
    unfold pyInt
    rw [if_pos hq]
    rfl
  rw [hn] at e
  refine ⟨?_, ?_, ?_⟩
  · rw [e, List.length_cons, loop_length]
  · rw [e]; rfl
  · intro k hk
    simp only [e] at hk ⊢
    rw [loop_get step h _ 1 x0 y0 k hk, Nat.add_comm 1 k]

/-- **C40** the columns returned by `rk4`: as many as steps plus one, the first is the initial state, and
each is one step after the previous one. -/
theorem C40_rk4_columns {f : ℝ → Vec → ℕ → Vec} {x0 : ℝ} {y0 : Vec} {x h : ℝ}
    {m : StateM Unit (List Vec)} (hr : rk4 x0 y0 x h (pureFunc f) = .ok m) (hx : x0 ≤ x) (hh : 0 < h) :
    (value m).length = ⌊(x - x0) / h⌋₊ + 1 ∧ (value m)[0]? = some y0 ∧
    ∀ k (hk : k + 1 < (value m).length), (value m)[k + 1] =
      value (rk4Step h (pureFunc f) (x0 + k * h) (value m)[k] (k + 1)) := run_columns hr hx hh

/-- **C40** the columns returned by `rk45`. -/
theorem C40_rk45_columns {f : ℝ → Vec → ℕ → Vec} {x0 : ℝ} {y0 : Vec} {x h : ℝ}
    {m : StateM Unit (List Vec)} (hr : rk45 x0 y0 x h (pureFunc f) = .ok m) (hx : x0 ≤ x) (hh : 0 < h) :
    (value m).length = ⌊(x - x0) / h⌋₊ + 1 ∧ (value m)[0]? = some y0 ∧
    ∀ k (hk : k + 1 < (value m).length), (value m)[k + 1] =
      value (rk45Step h (pureFunc f) (x0 + k * h) (value m)[k] (k + 1)) := run_columns hr hx hh

theorem run_isOk {step : ℝ → Vec → ℕ → StateM Unit Vec} {x0 : ℝ} {y0 : Vec} {x h : ℝ} :
    (∃ m, run step x0 y0 x h = .ok m) ↔ h ≠ 0 ∧ -1 < (x - x0) / h := by
  constructor
  · rintro ⟨m, hm⟩
    obtain ⟨h0, h1, -⟩ := run_ok hm
    refine ⟨h0, ?_⟩
    unfold pyInt at h1
    split_ifs at h1 with hq
    · linarith
    · by_contra hc
      have : ⌈(x - x0) / h⌉ ≤ -1 := by rw [Int.ceil_le]; push_cast; linarith
      omega
  · rintro ⟨h0, h1⟩
    have : 0 ≤ pyInt ((x - x0) / h) := by
      unfold pyInt
      split_ifs with hq
      · exact Int.floor_nonneg.2 hq
      · have : (-1 : ℤ) < ⌈(x - x0) / h⌉ := by rw [Int.lt_ceil]; push_cast; exact h1
        omega
    unfold run
    rw [if_neg h0]
    simp only
    rw [if_neg (by omega), if_neg (by omega)]
    exact ⟨_, rfl⟩

/-- **C40** the integrators run exactly when the step is not zero and the final time is not a whole step
(or more) before the initial time. -/
theorem C40_runs (f : ℝ → Vec → ℕ → Vec) (x0 : ℝ) (y0 : Vec) (x h : ℝ) :
    ((∃ m, rk4 x0 y0 x h (pureFunc f) = .ok m) ↔ h ≠ 0 ∧ -1 < (x - x0) / h) ∧
    ((∃ m, rk45 x0 y0 x h (pureFunc f) = .ok m) ↔ h ≠ 0 ∧ -1 < (x - x0) / h) :=
  ⟨run_isOk, run_isOk⟩

section converges

open NormedSpace RKLemmas
open scoped Matrix.Norms.Operator

theorem iterates {B : Matrix (Fin 24) (Fin 24) ℝ} {l : List Vec} {y0 : Vec} (h0 : l[0]? = some y0)
    (hs : ∀ k (hk : k + 1 < l.length), l[k + 1] = B *ᵥ l[k]) (k : ℕ) (hk : k < l.length) :
    l[k] = B ^ k *ᵥ y0 := by
  induction k with
  | zero =>
    rw [List.getElem?_eq_getElem hk] at h0
    simpa using h0
  | succ k ih => rw [hs k hk, ih, pow_succ', Matrix.mulVec_mulVec]

theorem exp_grid (A : Matrix (Fin 24) (Fin 24) ℝ) (h : ℝ) (k : ℕ) : exp ((k * h) • A) = exp (h • A) ^ k := by
  rw [← Matrix.exp_nsmul, ← Nat.cast_smul_eq_nsmul ℝ, smul_smul]

theorem error_bound {A B : Matrix (Fin 24) (Fin 24) ℝ} {h x0 ε : ℝ} {l : List Vec} {y0 : Vec}
    (h0 : l[0]? = some y0) (hs : ∀ k (hk : k + 1 < l.length), l[k + 1] = B *ᵥ l[k]) (hh : 0 < h)
    (hB : ∀ m : ℕ, ‖B ^ m - exp (h • A) ^ m‖ ≤ m * ε * Real.exp ‖h • A‖ ^ m)
    {u : ℝ → Vec} (hu : ∀ t, HasDerivAt u (A *ᵥ u t) t) (hu0 : u x0 = y0) (k : ℕ) (hk : k < l.length) :
    ‖l[k] - u (x0 + k * h)‖ ≤ k * ε * Real.exp (k * h * ‖A‖) * ‖y0‖ := by
  rw [iterates h0 hs k hk, solution_eq A hu (t0 := x0) (x0 + k * h), hu0, add_sub_cancel_left, exp_grid,
    ← Matrix.sub_mulVec]
  refine (Matrix.linfty_opNorm_mulVec _ _).trans (mul_le_mul_of_nonneg_right ?_ (norm_nonneg _))
  refine (hB k).trans (le_of_eq ?_)
  rw [← Real.exp_nat_mul, norm_smul, Real.norm_of_nonneg hh.le, mul_assoc (k : ℝ) h]

/-- **C40** `rk4` converges with order four on every linear system: at every returned column the distance
from the exact solution is at most a constant (for a fixed time `k h`) times `h ^ 4`. -/
theorem C40_rk4_converges (A : Matrix (Fin 24) (Fin 24) ℝ) {x0 x h : ℝ} {y0 : Vec}
    {m : StateM Unit (List Vec)} (hr : rk4 x0 y0 x h (pureFunc fun _ y _ => A *ᵥ y) = .ok m)
    (hx : x0 ≤ x) (hh : 0 < h) {u : ℝ → Vec} (hu : ∀ t, HasDerivAt u (A *ᵥ u t) t) (hu0 : u x0 = y0)
    (k : ℕ) (hk : k < (value m).length) :
    ‖(value m)[k] - u (x0 + k * h)‖ ≤
      h ^ 4 * ((k * h) * ‖A‖ ^ 5 / 120 * Real.exp (k * h * ‖A‖) * ‖y0‖) := by
  obtain ⟨-, h0, hs⟩ := C40_rk4_columns hr hx hh
  have hB := error_bound (A := A) (B := expSum 5 (h • A)) (h := h) (x0 := x0)
    (ε := ‖h • A‖ ^ 5 / (5).factorial) h0 ?_ hh (fun m => expSum_pow 5 m (h • A)) hu hu0 k hk
  · refine hB.trans (le_of_eq ?_)
    rw [norm_smul, Real.norm_of_nonneg hh.le]
    norm_num [Nat.factorial]
    ring
  · intro j hj
    rw [hs j hj]
    have := C40_rk4_linear A (fun _ => 0) h (x0 + j * h) (value m)[j] (j + 1)
    simp only [add_zero] at this
    rw [this]
    generalize (value m)[j] = y
    simp only [expSum, Finset.sum_range_succ, Finset.sum_range_zero, Matrix.add_mulVec, Matrix.smul_mulVec,
      smul_pow, Matrix.mulVec_mulVec, ← pow_succ]
    norm_num [Nat.factorial, smul_smul]
    module

/-- **C40** `rk45` converges with order five on every linear system. -/
theorem C40_rk45_converges (A : Matrix (Fin 24) (Fin 24) ℝ) {x0 x h : ℝ} {y0 : Vec}
    {m : StateM Unit (List Vec)} (hr : rk45 x0 y0 x h (pureFunc fun _ y _ => A *ᵥ y) = .ok m)
    (hx : x0 ≤ x) (hh : 0 < h) {u : ℝ → Vec} (hu : ∀ t, HasDerivAt u (A *ᵥ u t) t) (hu0 : u x0 = y0)
    (k : ℕ) (hk : k < (value m).length) :
    ‖(value m)[k] - u (x0 + k * h)‖ ≤
      h ^ 5 * ((k * h) * ‖A‖ ^ 6 / 360 * Real.exp (k * h * ‖A‖) * ‖y0‖) := by
  obtain ⟨-, h0, hs⟩ := C40_rk45_columns hr hx hh
  have hB := error_bound (A := A) (B := expSum 6 (h • A) + (1 / 800 : ℝ) • (h • A) ^ 6) (h := h) (x0 := x0)
    (ε := 2 * ‖h • A‖ ^ 6 / (6).factorial) h0 ?_ hh
    (fun m => expSum_pow' 6 m (h • A) (by norm_num) (by norm_num [Nat.factorial])) hu hu0 k hk
  · refine hB.trans (le_of_eq ?_)
    rw [norm_smul, Real.norm_of_nonneg hh.le]
    norm_num [Nat.factorial]
    ring
  · intro j hj
    rw [hs j hj]
    have := C40_rk45_linear A (fun _ => 0) h (x0 + j * h) (value m)[j] (j + 1)
    simp only [add_zero] at this
    rw [this]
    generalize (value m)[j] = y
    simp only [expSum, Finset.sum_range_succ, Finset.sum_range_zero, Matrix.add_mulVec, Matrix.smul_mulVec,
      smul_pow, Matrix.mulVec_mulVec, ← pow_succ]
    norm_num [Nat.factorial, smul_smul]
    module

end converges

/-- **C40** the right-hand side gets the number of the step: a force sampled by it is held during the step
at its value at the end of the step. The result is the right rectangle rule for both integrators,
whatever their order. -/
theorem C40_sampled_force {g : ℕ → Vec} {x0 : ℝ} {y0 : Vec} {x h : ℝ} {m m' : StateM Unit (List Vec)}
    (hr : rk4 x0 y0 x h (pureFunc fun _ _ i => g i) = .ok m)
    (hr' : rk45 x0 y0 x h (pureFunc fun _ _ i => g i) = .ok m') (hx : x0 ≤ x) (hh : 0 < h) (k : ℕ)
    (hk : k ≤ ⌊(x - x0) / h⌋₊) :
    (value m)[k]? = some (y0 + h • ∑ i ∈ Finset.range k, g (i + 1)) ∧
    (value m')[k]? = some (y0 + h • ∑ i ∈ Finset.range k, g (i + 1)) := by
  have key : ∀ l : List Vec, l.length = ⌊(x - x0) / h⌋₊ + 1 → l[0]? = some y0 →
      (∀ k (hk : k + 1 < l.length), l[k + 1] = l[k] + h • g (k + 1)) →
      l[k]? = some (y0 + h • ∑ i ∈ Finset.range k, g (i + 1)) := by
    intro l hl h0 hs
    induction k with
    | zero => simpa using h0
    | succ k ih =>
      have := ih (by omega) hs
      rw [List.getElem?_eq_getElem (by omega), Option.some.injEq] at this
      rw [List.getElem?_eq_getElem (by omega), hs k (by omega), this, Finset.sum_range_succ, smul_add, add_assoc]
  obtain ⟨a, b, c⟩ := C40_rk4_columns hr hx hh
  obtain ⟨a', b', c'⟩ := C40_rk45_columns hr' hx hh
  refine ⟨key _ a b ?_, key _ a' b' ?_⟩
  · intro j hj
    rw [c j hj]
    have := C40_rk4_linear 0 g h (x0 + j * h) (value m)[j] (j + 1)
    simp only [Matrix.zero_mulVec, zero_add] at this
    rw [this]
    norm_num [Finset.sum_range_succ, Nat.factorial]
  · intro j hj
    rw [c' j hj]
    have := C40_rk45_linear 0 g h (x0 + j * h) (value m')[j] (j + 1)
    simp only [Matrix.zero_mulVec, zero_add] at this
    rw [this]
    norm_num [Finset.sum_range_succ, Nat.factorial]

/-- Non-vacuity: an oscillator in the first mode, integrated over one second in steps of a tenth, gives
eleven columns, and it has an exact solution. -/
example : ∃ (A : Matrix (Fin 24) (Fin 24) ℝ) (m m' : StateM Unit (List Vec)) (u : ℝ → Vec),
    rk4 0 (Pi.single 0 1) 1 0.1 (pureFunc fun _ y _ => A *ᵥ y) = .ok m ∧
    rk45 0 (Pi.single 0 1) 1 0.1 (pureFunc fun _ y _ => A *ᵥ y) = .ok m' ∧
    (value m).length = 11 ∧ (value m').length = 11 ∧ A ≠ 0 ∧
    (∀ t, HasDerivAt u (A *ᵥ u t) t) ∧ u 0 = Pi.single 0 1 := by
  let A : Matrix (Fin 24) (Fin 24) ℝ := Matrix.single 0 12 1 - Matrix.single 12 0 1
  obtain ⟨m, hm⟩ := (C40_runs (fun _ y _ => A *ᵥ y) 0 (Pi.single 0 1) 1 0.1).1.2 (by norm_num)
  obtain ⟨m', hm'⟩ := (C40_runs (fun _ y _ => A *ᵥ y) 0 (Pi.single 0 1) 1 0.1).2.2 (by norm_num)
  refine ⟨A, m, m', fun t => Real.cos t • Pi.single 0 1 - Real.sin t • Pi.single 12 1, hm, hm', ?_, ?_, ?_, ?_, ?_⟩
  · rw [(C40_rk4_columns hm (by norm_num) (by norm_num)).1]; norm_num
  · rw [(C40_rk45_columns hm' (by norm_num) (by norm_num)).1]; norm_num
  · intro h
    have := congrFun (congrFun h 0) 12
    simp only [A, Matrix.sub_apply, Matrix.single_apply, Matrix.zero_apply] at this
    rw [if_pos (by decide), if_neg (by decide)] at this
    norm_num at this
  · intro t
    have := ((Real.hasDerivAt_cos t).smul_const (Pi.single 0 1 : Vec)).sub
      ((Real.hasDerivAt_sin t).smul_const (Pi.single 12 1 : Vec))
    refine this.congr_deriv ?_
    have e1 : A *ᵥ (Pi.single 0 1 : Vec) = -Pi.single 12 1 := by
      ext i
      simp only [A, Matrix.mulVec_single_one, Matrix.col_apply, Matrix.sub_apply, Matrix.single_apply,
        Pi.neg_apply, Pi.single_apply]
      fin_cases i <;> simp
    have e2 : A *ᵥ (Pi.single 12 1 : Vec) = Pi.single 0 1 := by
      ext i
      simp only [A, Matrix.mulVec_single_one, Matrix.col_apply, Matrix.sub_apply, Matrix.single_apply,
        Pi.single_apply]
      fin_cases i <;> simp
    rw [Matrix.mulVec_sub, Matrix.mulVec_smul, Matrix.mulVec_smul, e1, e2]
    module
  · simp

end Ross.Props
