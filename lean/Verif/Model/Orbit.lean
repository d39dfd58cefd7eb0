import Mathlib.Analysis.SpecialFunctions.Complex.Arg
import Mathlib.Analysis.SpecialFunctions.Pow.Complex
import Verif.Model.Dynamics

/-!
# Model of orbits (`results.py` 178-331)

Floating-point numbers are exact.  `np.angle` and `np.arctan2` are `Complex.arg` (the sign of a zero is
not modelled).  `scipy.linalg.eig` is the one of `Lapack`, for matrices with one displacement and one
velocity row, that is of size two.
-/

namespace Ross

open Matrix

/-- The strings "Forward", "Backward" and "Mixed". -/
inductive Whirl
  | forward
  | backward
  | mixed
  deriving DecidableEq

/-- `np.argmax(f[:n])`: the first index of a largest entry. -/
noncomputable def argmax (f : ℕ → ℝ) (n : ℕ) : ℕ :=
  (List.range n).foldl (fun b i => if f b < f i then i else b) 0

/-- `np.argmin(f[:n])`: the first index of a smallest entry. -/
noncomputable def argmin (f : ℕ → ℝ) (n : ℕ) : ℕ := argmax (fun i => -f i) n

open Classical in
/-- The order of complex numbers in numpy: by real part, then by imaginary part. -/
noncomputable def cle (z w : ℂ) : Bool := decide (z.re < w.re ∨ z.re = w.re ∧ z.im ≤ w.im)

/-- `lam.min()`; the array is never empty. -/
noncomputable def cmin : List ℂ → ℂ
  | [] => 0
  | z :: t => t.foldl (fun b w => if cle b w then b else w) z

/-- `lam.max()`. -/
noncomputable def cmax : List ℂ → ℂ
  | [] => 0
  | z :: t => t.foldl (fun b w => if cle w b then b else w) z

/-- An `Orbit` object; the arrays with 360 points are functions of the index. -/
structure Orbit where
  node : ℕ
  node_pos : ℝ
  ru_e : ℂ
  rv_e : ℂ
  x_circle : ℕ → ℝ
  y_circle : ℕ → ℝ
  angle : ℕ → ℝ
  major_index : ℕ
  major_x : ℝ
  major_y : ℝ
  major_angle : ℝ
  minor_angle : ℝ
  nu : ℝ
  nv : ℝ
  minor_axis : ℝ
  major_axis : ℝ
  kappa : ℝ
  whirl : Whirl

namespace Orbit

/-- `np.linspace(0, 2 * np.pi, 360)[i]` (`results.py` 242-243). -/
noncomputable def c (i : ℕ) : ℝ := i * (2 * Real.pi / 359)

/-- `np.exp(1j * c)[i]` (`results.py` 244). -/
noncomputable def circle (i : ℕ) : ℂ := Complex.exp (Complex.I * c i)

/-- `angle` (`results.py` 248-250): negative angles are increased by a full turn. -/
noncomputable def polar (x y : ℝ) : ℝ :=
  let a := Complex.arg ⟨x, y⟩
  if a < 0 then a + 2 * Real.pi else a

/-- `H = T @ T.T` (`results.py` 263-273); the rows are those of `x` and of `y`. -/
noncomputable def H (ru_e rv_e : ℂ) : Matrix (Fin 1 ⊕ Fin 1) (Fin 1 ⊕ Fin 1) ℝ :=
  let ru := ‖ru_e‖
  let rv := ‖rv_e‖
  let nu := Complex.arg ru_e
  let nv := Complex.arg rv_e
  let T : Matrix (Fin 1 ⊕ Fin 1) (Fin 1 ⊕ Fin 1) ℝ :=
    Matrix.of fun i j => match i, j with
      | .inl _, .inl _ => ru * Real.cos nu
      | .inl _, .inr _ => -ru * Real.sin nu
      | .inr _, .inl _ => rv * Real.cos nv
      | .inr _, .inr _ => -rv * Real.sin nv
  T * Tᵀ

/-- `diff` (`results.py` 281-287): the difference of the phases, brought back by a full turn. -/
noncomputable def phaseDiff (nu nv : ℝ) : ℝ :=
  let diff := nv - nu
  if diff < -Real.pi then diff + 2 * Real.pi
  else if Real.pi < diff then diff - 2 * Real.pi
  else diff

open Classical in
/-- `Orbit.__init__` (`results.py` 235-303), without the color. -/
noncomputable def init (la : Lapack) (node : ℕ) (node_pos : ℝ) (ru_e rv_e : ℂ) : Orbit :=
  -- 246-250
  let x_circle := fun i => (ru_e * circle i).re
  let y_circle := fun i => (rv_e * circle i).re
  let angle := fun i => polar (x_circle i) (y_circle i)
  -- 253-259
  let major_index := argmax (fun i => Real.sqrt (x_circle i ^ 2 + y_circle i ^ 2)) 180
  let major_angle := angle major_index
  -- 262-280
  let nu := Complex.arg ru_e
  let nv := Complex.arg rv_e
  let lam := (la.eig (H ru_e rv_e)).map Prod.fst
  let minor := cmin lam ^ (1 / 2 : ℂ)
  let major := cmax lam ^ (1 / 2 : ℂ)
  let kappa := minor / major
  let diff := phaseDiff nu nv
  -- 290-295
  let kappa := if diff = 0 ∨ diff = Real.pi then 0
    else if 0 < diff ∧ diff < Real.pi then kappa * (-1)
    else kappa
  { node := node, node_pos := node_pos, ru_e := ru_e, rv_e := rv_e
    x_circle := x_circle, y_circle := y_circle, angle := angle
    major_index := major_index
    major_x := x_circle major_index, major_y := y_circle major_index
    major_angle := major_angle, minor_angle := major_angle + Real.pi / 2
    nu := nu, nv := nv
    minor_axis := minor.re, major_axis := major.re, kappa := kappa.re
    -- 300
    whirl := if 0 < kappa.re then .forward else .backward }

/-- The argument of `calculate_amplitude`. -/
inductive Angle
  | major
  | minor
  | at (a : ℝ)

open Classical in
/-- `Orbit.calculate_amplitude` (`results.py` 306-331): amplitude and phase. -/
noncomputable def calculate_amplitude (o : Orbit) : Angle → ℝ × ℝ
  | .major => (o.major_axis, o.major_angle)
  | .minor => (o.minor_axis, o.minor_angle)
  | .at a =>
    let idx := argmin (fun i => |o.angle i - a|) 360
    let amplitude := Real.sqrt (o.x_circle idx ^ 2 + o.y_circle idx ^ 2)
    let phase := o.angle 0 + a
    (amplitude, if 2 * Real.pi < phase then phase - 2 * Real.pi else phase)

end Orbit

end Ross
