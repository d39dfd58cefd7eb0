import Mathlib.Algebra.Order.Field.Basic
import Verif.Model.Runs

/-! # Specification: critical speeds, Campbell diagrams, critical speed maps -/

namespace Ross.Spec

open Ross

/-- The straight line through the points `(a, wa)` and `(b, wb)` of a curve of frequency against speed meets the line of
synchronous speed at `x`, and nowhere else. -/
def ChordMeets (a wa b wb x : ℝ) : Prop :=
  a ≠ b ∧ (wb - wa) / (b - a) ≠ 1 ∧ x = wb + (wb - wa) / (b - a) * (x - b)

/-- What is assumed about `scipy.optimize.newton` without a derivative, whose last step is one of the secant method: the
result is the zero of the line through two points of the graph, and is close to the second of them. -/
structure NewtonOk (newton : (ℝ → Res ℝ) → ℝ → ℝ → Res ℝ) : Prop where
  secant : ∀ f x0 rtol x, newton f x0 rtol = .ok x → ∃ a b fa fb, f a = .ok fa ∧ f b = .ok fb ∧ fa ≠ fb ∧
    (fb - fa) * (x - b) = -fb * (b - a) ∧ |x - b| ≤ 1.48e-8 + rtol * |b|

/-- What is assumed about `np.argsort`: it lists all indices in an order that sorts the array. -/
structure ArgsortOk (argsort : List ℝ → List ℕ) : Prop where
  perm : ∀ l, (argsort l).Perm (List.range l.length)
  sorted : ∀ l : List ℝ, ((argsort l).map fun i => l.getD i 0).Pairwise (· ≤ ·)

/-- At speed `s` the analysis with `num_modes` gives `w` as entry `i` of the frequencies `field`. -/
def FrequencyAt (env : RunEnv) (r : Rotor) (num_modes : ℕ) (field : Rotor.Modes → List ℝ) (i : ℕ) (s w : ℝ) : Prop :=
  ∃ m, r.modes env s num_modes = .ok m ∧ (field m)[i]? = some w

/-- Column `j` of a row of a Campbell diagram describes mode `k` of the analysis `m`, by the frequencies `freq`. -/
def ColumnOf (freq : List ℝ) (m : Rotor.Modes) (row : Rotor.CampbellRow) (j k : ℕ) : Prop :=
  ∃ w d z v, freq[k]? = some w ∧ m.log_dec[k]? = some d ∧ m.damping_ratio[k]? = some z ∧ m.whirl[k]? = some v ∧
    row.wd[j]? = some w ∧ row.log_dec[j]? = some d ∧ row.damping_ratio[j]? = some z ∧
    row.whirl_values[j]? = some (ModalResults.whirl_to_cmap v)

/-- The bearing is a spring of stiffness `k` in both directions at node `n`, fixed to the ground, with no other
coefficient at any frequency. -/
structure IsSpring (b : BearingElement) (n : ℕ) (k : ℝ) : Prop where
  n : b.n = n
  ground : b.n_link = none
  kxx : ∀ ω, b.kxx.eval ω = .ok k
  kyy : ∀ ω, b.kyy.eval ω = .ok k
  rest : ∀ c ∈ [b.kxy, b.kyx, b.cxx, b.cyy, b.cxy, b.cyx, b.mxx, b.myy, b.mxy, b.myx], ∀ ω, c.eval ω = .ok 0

/-- The bearing has cross-coupled stiffness `Q` and `-Q` at node `n`, fixed to the ground, and no other coefficient. -/
structure IsCross (b : BearingElement) (n : ℕ) (Q : ℝ) : Prop where
  n : b.n = n
  ground : b.n_link = none
  kxy : ∀ ω, b.kxy.eval ω = .ok Q
  kyx : ∀ ω, b.kyx.eval ω = .ok (-Q)
  rest : ∀ c ∈ [b.kxx, b.kyy, b.cxx, b.cyy, b.cxy, b.cyx, b.mxx, b.myy, b.mxy, b.myx], ∀ ω, c.eval ω = .ok 0

end Ross.Spec
