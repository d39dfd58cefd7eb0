import Verif.Model.Runs

/-!
# The warning about extrapolated coefficients

`Rotor._check_frequency_array` (`rotor_assembly.py` 1164-1194) and where it is called.
-/

namespace Ross

/-- `max(l)` or `np.max(l)`: `ValueError` for nothing. -/
noncomputable def maxOf : List ℝ → Res ℝ
  | [] => .error .valueError
  | a :: l => .ok (l.foldl max a)

/-- `min(l)` or `np.min(l)`. -/
noncomputable def minOf : List ℝ → Res ℝ
  | [] => .error .valueError
  | a :: l => .ok (l.foldl min a)

open Classical in
/-- The test of one table, `rotor_assembly.py` 1187-1189. -/
noncomputable def beyond (frequency_range table : List ℝ) : Res Bool := do
  let a ← maxOf frequency_range
  let b ← maxOf table
  if b < a then pure true
  else
    let c ← minOf frequency_range
    let d ← minOf table
    pure (decide (c < d))

/-- The loop over the bearings, `rotor_assembly.py` 1185-1194: whether it warns. -/
noncomputable def checkLoop (frequency_range : List ℝ) : List BrgEl → Res Bool
  | [] => .ok false
  | b :: l =>
    match b.base.frequency with
    | none => checkLoop frequency_range l
    | some f => do
      if ← beyond frequency_range f then pure true else checkLoop frequency_range l

namespace Rotor

/-- `Rotor._check_frequency_array` (`rotor_assembly.py` 1164-1194). -/
noncomputable def checkFrequencyArray (r : Rotor) (frequency_range : List ℝ) : Res Bool :=
  checkLoop frequency_range r.bearings

/-- `run_freq_response` with its warning (`rotor_assembly.py` 1685-1705). -/
noncomputable def freqResponseWarned (r : Rotor) (la : Lapack) (speed_range : List ℝ) (modes : Option (List ℤ)) :
    Res (Bool × List (FreqResp r.ndof)) := do
  let w ← r.checkFrequencyArray speed_range
  let x ← r.run_freq_response la speed_range modes
  pure (w, x)

/-- `run_forced_response` with its warnings (`rotor_assembly.py` 1801-1823): it does not look at the tables. -/
noncomputable def forcedResponseWarned (r : Rotor) (la : Lapack) (force : List (Fin r.ndof → ℂ)) (speed_range : List ℝ)
    (modes : Option (List ℤ)) : Res (Bool × List (ForcedResp r.ndof)) := do
  let x ← r.run_forced_response la force speed_range modes
  pure (false, x)

/-- `run_campbell` with its warning (`rotor_assembly.py` 2452-2487). -/
noncomputable def campbellWarned (env : RunEnv) (r : Rotor) (speed_range : List ℝ) (frequencies : ℕ)
    (frequency_type : String) : Res (Bool × Campbell) := do
  let w ← r.checkFrequencyArray speed_range
  let x ← r.run_campbell env speed_range frequencies frequency_type
  pure (w, x)

/-- `run_modal` with its warnings (`rotor_assembly.py` 675-699): it does not look at the tables. -/
noncomputable def modalWarned (r : Rotor) (la : Lapack) (speed : ℝ) : Res (Bool × Modal r.ndof) := do
  let x ← r.run_modal la speed
  pure (false, x)

end Rotor

end Ross
