import Mathlib.Data.Real.Basic
import Verif.Model.Basic

/-! # Model of `ross/probe.py` -/

namespace Ross

/-- Attributes of a `Probe` (`probe.py` 42-54). -/
structure Probe where
  node : ℕ
  angle : Option ℝ
  direction : String
  tag : Option String

namespace Probe

/-- `Probe.__init__` (`probe.py` 42-54). -/
def init (node : ℕ) (angle : Option ℝ := none) (direction : String := "radial")
    (tag : Option String := none) : Res Probe :=
  -- 48-49
  if ¬ (direction = "radial" ∨ direction = "axial") then .error .valueError
  -- 51-52
  else if direction = "radial" ∧ angle = none then .error .valueError
  -- 53-54
  else if direction = "axial" then .ok ⟨node, none, direction, tag⟩
  else .ok ⟨node, angle, direction, tag⟩

/-- `Probe.info` (`probe.py` 57-58). -/
def info (p : Probe) : ℕ × Option ℝ × String := (p.node, p.angle, p.direction)

end Probe

end Ross
