import Verif.Spec.Readout
import Verif.Spec.Position
import Verif.Model.RespPlots

/-!
# Specification of the tables and figures of forced and time responses
-/

namespace Ross.Spec

open Ross.RespPlots

/-- A probe that can be made: radial with an angle, or axial. -/
def IsProbe (p : Probe) : Prop :=
  (p.direction = "radial" ∧ ∃ θ, p.angle = some θ) ∨ p.direction = "axial"

/-- What a probe sees of a motion of the rotor: the displacement of its node in its direction. -/
noncomputable def seen {M : ℕ} (nd N : ℕ) (p : Probe) (y : Fin M → ℝ) : ℝ :=
  if p.direction = "axial" then motion nd N y ("z", p.node)
  else Real.cos (p.angle.getD 0) * motion nd N y ("x", p.node) +
    Real.sin (p.angle.getD 0) * motion nd N y ("y", p.node)

/-- Amplitude and phase of the orbit of a node at the angle of a probe (see C56). -/
noncomputable def measured (la : Lapack) (r : Rotor) (N : ℕ) (kind : RespKind) (p : Probe)
    (x : Rotor.ForcedResp r.ndof) : ℝ × ℝ :=
  (Orbit.init la p.node (position r.shaft p.node) (motion r.number_dof N (asked x kind) ("x", p.node))
    (motion r.number_dof N (asked x kind) ("y", p.node))).calculate_amplitude (.at (p.angle.getD 0))

/-- The name of a probe, the `i`-th of its list: its tag, or else a label. -/
def nameOf (deg : ℝ → String) (p : Probe) (i : ℕ) : String :=
  match p.tag.filter (· ≠ "") with
  | some t => t
  | none => getLabel deg p (i + 1)

/-- The probes, with their places in the list, that are radial. -/
def radials (probe : List Probe) : List (Probe × ℕ) := probe.zipIdx.filter fun q => q.1.direction = "radial"

/-- Radial probes on the shaft, or axial ones, with different names of which none is "frequency". -/
structure DistinctNames (deg : ℝ → String) (N : ℕ) (probe : List Probe) : Prop where
  made : ∀ p ∈ probe, IsProbe p
  on : ∀ p ∈ probe, p.direction = "radial" → p.node ≤ N
  names : ((radials probe).map fun q => nameOf deg q.1 q.2).Nodup
  free : ∀ q ∈ radials probe, nameOf deg q.1 q.2 ≠ "frequency"

/-- The probes that the model of the rotor can read: axial ones need six degrees of freedom per node. -/
def shown (nd : ℕ) (probe : List Probe) : List (Probe × ℕ) :=
  probe.zipIdx.filter fun q => q.1.direction = "radial" ∨ nd = 6

/-- An angle that is drawn in a unit of polar figures, in radians. -/
noncomputable def inRadians : String → ℝ → Option ℝ
  | "radians", x => some x
  | "degrees", x => some (x * Real.pi / 180)
  | _, _ => none

/-- A conversion from radians that is right for the names of radians and degrees. -/
def ConvertsAngles (conv : String → ℝ) : Prop :=
  (∀ s ∈ ["rad", "radian", "radians"], conv s = 1) ∧ ∀ s ∈ ["degree", "degrees", "deg"], conv s = 180 / Real.pi

end Ross.Spec
