import Mathlib.Analysis.SpecialFunctions.Trigonometric.Basic

/-! # Specification for C103: signals made of tones -/

namespace Ross.Spec

open Real

/-- `N` samples, `dt` apart and from the time `t0` on, of a mean value and `K` tones; tone `k` has
the frequency `k / (N dt)` in hertz, the amplitude `A k` and the phase `φ k`. -/
noncomputable def tones (N K : ℕ) (t0 dt mean : ℝ) (A φ : ℕ → ℝ) : List ℝ :=
  List.ofFn fun j : Fin N => mean + ∑ k ∈ Finset.Icc 1 K,
    A k * cos (2 * π * (k / (N * dt)) * (t0 + (j : ℕ) * dt) + φ k)

end Ross.Spec
