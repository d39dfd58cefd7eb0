import Mathlib.Data.Real.Basic
import Mathlib.LinearAlgebra.Matrix.Notation
import Verif.Model.Basic

/-! # Model of `ross/point_mass.py` -/

namespace Ross

/-- Python `float(x)` for a number or `None`: `float(None)` raises `TypeError`. -/
def pyFloat : Option ℝ → Res ℝ
  | some x => .ok x
  | none => .error .typeError

/-- Attributes of a `PointMass` (`point_mass.py` 56-69). -/
structure PointMass where
  n : Option ℕ
  m : Option ℝ
  mx : ℝ
  my : ℝ
  tag : Option String
  color : String

namespace PointMass

/-- `PointMass.__init__` (`point_mass.py` 56-69). -/
def init (n : Option ℕ := none) (m mx my : Option ℝ := none) (tag : Option String := none)
    (color : String := "DarkSalmon") : Res PointMass := do
  -- 60-62
  let (mx, my) ← if mx.isNone ∧ my.isNone then do
      let a ← pyFloat m
      let b ← pyFloat m
      pure (some a, some b)
    else pure (mx, my)
  -- 64-65
  let mx ← pyFloat mx
  let my ← pyFloat my
  pure ⟨n, m, mx, my, tag, color⟩

/-- `PointMass.M` (`point_mass.py` 157-164). -/
def M (p : PointMass) : Matrix (Fin 2) (Fin 2) ℝ := !![p.mx, 0; 0, p.my]

/-- `PointMass.C` (`point_mass.py` 185). -/
def C (_ : PointMass) : Matrix (Fin 2) (Fin 2) ℝ := 0

/-- `PointMass.K` (`point_mass.py` 206). -/
def K (_ : PointMass) : Matrix (Fin 2) (Fin 2) ℝ := 0

/-- `PointMass.G` (`point_mass.py` 227). -/
def G (_ : PointMass) : Matrix (Fin 2) (Fin 2) ℝ := 0

end PointMass

/-- Attributes of a `PointMass6DoF` (`point_mass.py` 369-385); the attribute `m` is not set. -/
structure PointMass6DoF where
  n : Option ℕ
  mx : ℝ
  my : ℝ
  mz : ℝ
  tag : Option String
  color : String

namespace PointMass6DoF

/-- `PointMass6DoF.__init__` (`point_mass.py` 369-385). -/
def init (n : Option ℕ := none) (m mx my mz : Option ℝ := none) (tag : Option String := none)
    (color : String := "DarkSalmon") : Res PointMass6DoF := do
  -- 374-377
  let (mx, my, mz) ← if mx.isNone ∧ my.isNone then do
      let a ← pyFloat m
      let b ← pyFloat m
      let c ← pyFloat m
      pure (some a, some b, some c)
    else pure (mx, my, mz)
  -- 379-381
  let mx ← pyFloat mx
  let my ← pyFloat my
  let mz ← pyFloat mz
  pure ⟨n, mx, my, mz, tag, color⟩

/-- `PointMass6DoF.M` (`point_mass.py` 433-456). -/
def M (p : PointMass6DoF) : Matrix (Fin 3) (Fin 3) ℝ := !![p.mx, 0, 0; 0, p.my, 0; 0, 0, p.mz]

/-- `C`, `K`, `G` are inherited with `size = 3` (`point_mass.py` 185, 206, 227, 385). -/
def C (_ : PointMass6DoF) : Matrix (Fin 3) (Fin 3) ℝ := 0

/-- See `C`. -/
def K (_ : PointMass6DoF) : Matrix (Fin 3) (Fin 3) ℝ := 0

/-- See `C`. -/
def G (_ : PointMass6DoF) : Matrix (Fin 3) (Fin 3) ℝ := 0

end PointMass6DoF

end Ross
