import Mathlib.Analysis.SpecialFunctions.Pow.Real
import Mathlib.LinearAlgebra.Matrix.NonsingularInverse
import Verif.Model.Basic

/-!
# The Newmark integrator (`utils.py` 628-751)

Floating-point numbers are exact reals. The progress message (`progress_interval`, 703 and 715-717) is
not modelled. The sizes of the arrays returned by `func` are those of the state.
-/

namespace Ross

open Matrix

namespace Newmark

/-- `y`, `ydot` and `y2dot` of one time step. -/
structure State (n : ℕ) where
  y : Fin n → ℝ
  ydot : Fin n → ℝ
  y2dot : Fin n → ℝ

/-- The tuple `(M, C, K, RHS)` returned by `func` (`utils.py` 721). -/
structure Sys (n : ℕ) where
  M : Matrix (Fin n) (Fin n) ℝ
  C : Matrix (Fin n) (Fin n) ℝ
  K : Matrix (Fin n) (Fin n) ℝ
  RHS : Fin n → ℝ

/-- The options with their defaults (`utils.py` 700-702). -/
structure Options where
  gamma : ℝ := 0.5
  beta : ℝ := 0.25
  tol : ℝ := 1e-6

variable {n : ℕ}

/-- `res = RHS - (K @ y + C @ ydot) - M @ y2dot` (`utils.py` 727, 744). -/
def resid (s : Sys n) (q : State n) : Fin n → ℝ :=
  s.RHS - (s.K *ᵥ q.y + s.C *ᵥ q.ydot) - s.M *ᵥ q.y2dot

/-- `la.norm` of a vector. -/
noncomputable def norm2 (v : Fin n → ℝ) : ℝ := Real.sqrt (∑ i, v i ^ 2)

open Classical in
/-- `la.solve(A, b)` of a vector: raises `LinAlgError` for a singular matrix. -/
noncomputable def solveVec (A : Matrix (Fin n) (Fin n) ℝ) (b : Fin n → ℝ) : Res (Fin n → ℝ) :=
  if A.det = 0 then .error .linAlgError else .ok (A⁻¹ *ᵥ b)

/-- The values before the iteration (`utils.py` 723-725). -/
noncomputable def predict (o : Options) (dt : ℝ) (q : State n) : State n where
  y2dot := 0
  ydot := q.ydot + ((1 - o.gamma) * dt) • q.y2dot
  y := q.y + dt • q.ydot + ((0.5 - o.beta) * dt ^ 2) • q.y2dot

/-- One pass of the `while` loop (`utils.py` 737-742). -/
noncomputable def correct (o : Options) (dt : ℝ) (s : Sys n) (q : State n) : Res (State n) := do
  let dy2dot ← solveVec (s.M + (o.gamma * dt) • s.C + (o.beta * dt ^ 2) • s.K) (resid s q)
  pure ⟨q.y + (o.beta * dt ^ 2) • dy2dot, q.ydot + (o.gamma * dt) • dy2dot, q.y2dot + dy2dot⟩

open Classical in
/-- `while la.norm(res) >= tol` (`utils.py` 730-744); `left` is the number of passes still allowed:
`nr_iter` beyond `1e5` raises `Warning`. -/
noncomputable def iterate (o : Options) (dt : ℝ) (s : Sys n) : ℕ → State n → Res (State n)
  | 0, q => if o.tol ≤ norm2 (resid s q) then .error .warning else .ok q
  | left + 1, q =>
    if o.tol ≤ norm2 (resid s q) then correct o dt s q >>= iterate o dt s left else .ok q

/-- One time step (`utils.py` 719-748). `func` gets the state of the previous step. -/
noncomputable def advance (func : ℕ → ℝ → State n → Res (Sys n)) (o : Options) (step : ℕ) (dt : ℝ)
    (q : State n) : Res (State n) := do
  let s ← func step dt q
  iterate o dt s 100000 (predict o dt q)

/-- The loop over the time steps (`utils.py` 714-749): `prev` is `t[step - 1]`, `q` the state there;
the states of the remaining steps are returned. -/
noncomputable def run (func : ℕ → ℝ → State n → Res (Sys n)) (o : Options) :
    ℕ → ℝ → State n → List ℝ → Res (List (State n))
  | _, _, _, [] => .ok []
  | step, prev, q, t :: ts => do
    let q' ← advance func o step (t - prev) q
    let rest ← run func o (step + 1) t q' ts
    pure (q' :: rest)

/-- Conversion of a float to an integer `dtype`: towards zero. -/
noncomputable def truncate (x : ℝ) : ℝ := if 0 ≤ x then ⌊x⌋ else ⌈x⌉

/-- `newmark(func, t, y_size, gamma, beta, tol)` (`utils.py` 628-751). `intTime` tells that `t` is an
integer array: `yout` has the `dtype` of `t` (711). For an empty `t` reading `t[-1]` (703) raises
`IndexError`. -/
noncomputable def newmark (func : ℕ → ℝ → State n → Res (Sys n)) (t : List ℝ) (o : Options := {})
    (intTime : Bool := false) : Res (List (Fin n → ℝ)) :=
  match t with
  | [] => .error .indexError
  | t0 :: ts => do
    let l ← run func o 1 t0 ⟨0, 0, 0⟩ ts
    let yout := 0 :: l.map State.y
    pure (if intTime then yout.map fun y => fun i => truncate (y i) else yout)

end Newmark

end Ross
