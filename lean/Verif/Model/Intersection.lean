import Mathlib.LinearAlgebra.Matrix.NonsingularInverse
import Mathlib.LinearAlgebra.Matrix.Notation
import Mathlib.Data.Real.Basic
import Verif.Model.Basic

/-! # Model of `intersection` (`ross/utils.py` 459-565)

The curves are lists of numbers (no `NaN`). -/

namespace Ross

open Matrix

/-- `np.linalg.solve` in exact arithmetic; `none` is `LinAlgError`, raised for singular matrices. -/
noncomputable def linSolve {n : ℕ} (A : Matrix (Fin n) (Fin n) ℝ) (b : Fin n → ℝ) : Option (Fin n → ℝ) :=
  open Classical in if A.det = 0 then none else some (A⁻¹ *ᵥ b)

namespace Intersection

/-- `_rect_inter_inner` and the comparisons of its results (`utils.py` 508-528) for segment `i` of the
first curve and segment `j` of the second: the ranges of one coordinate overlap. -/
def overlap (x1 x2 : List ℝ) (i j : ℕ) : Prop :=
  -- `S1 <= S2` and `S3 >= S4`
  min (x1.getD i 0) (x1.getD (i + 1) 0) ≤ max (x2.getD j 0) (x2.getD (j + 1) 0) ∧
  max (x1.getD i 0) (x1.getD (i + 1) 0) ≥ min (x2.getD j 0) (x2.getD (j + 1) 0)

open Classical in
/-- `_rectangle_intersection_` (`utils.py` 519-530): `np.nonzero` lists the pairs row by row. -/
noncomputable def candidates (x1 y1 x2 y2 : List ℝ) : List (ℕ × ℕ) :=
  (List.range (x1.length - 1)).flatMap fun i =>
    ((List.range (x2.length - 1)).filter fun j => overlap x1 x2 i j ∧ overlap y1 y2 i j).map fun j => (i, j)

/-- `AA[:, :, i]` (`utils.py` 543-547). -/
noncomputable def matA (x1 y1 x2 y2 : List ℝ) (i j : ℕ) : Matrix (Fin 4) (Fin 4) ℝ :=
  let dx1 := x1.getD (i + 1) 0 - x1.getD i 0
  let dy1 := y1.getD (i + 1) 0 - y1.getD i 0
  let dx2 := x2.getD (j + 1) 0 - x2.getD j 0
  let dy2 := y2.getD (j + 1) 0 - y2.getD j 0
  !![dx1, 0, -1, 0;
     0, dx2, -1, 0;
     dy1, 0, 0, -1;
     0, dy2, 0, -1]

/-- `BB[:, i]` (`utils.py` 549-553). -/
def vecB (x1 y1 x2 y2 : List ℝ) (i j : ℕ) : Fin 4 → ℝ :=
  ![-x1.getD i 0, -x2.getD j 0, -y1.getD i 0, -y2.getD j 0]

open Classical in
/-- One column of `T` and its test (`utils.py` 555-561): when the system cannot be solved the column is
infinite and is not in range. -/
noncomputable def point (x1 y1 x2 y2 : List ℝ) (p : ℕ × ℕ) : Option (ℝ × ℝ) :=
  match linSolve (matA x1 y1 x2 y2 p.1 p.2) (vecB x1 y1 x2 y2 p.1 p.2) with
  | none => none
  | some T => if 0 ≤ T 0 ∧ 0 ≤ T 1 ∧ T 0 ≤ 1 ∧ T 1 ≤ 1 then some (T 2, T 3) else none

/-- `intersection` (`utils.py` 459-565).  Curves without points and coordinate lists of different lengths
raise `ValueError`. -/
noncomputable def intersection (x1 y1 x2 y2 : List ℝ) : Res (List ℝ × List ℝ) :=
  if x1.length ≠ y1.length ∨ x2.length ≠ y2.length ∨ x1 = [] ∨ x2 = [] then .error .valueError
  else
    let xy0 := (candidates x1 y1 x2 y2).filterMap (point x1 y1 x2 y2)
    .ok (xy0.map Prod.fst, xy0.map Prod.snd)

end Intersection

end Ross
