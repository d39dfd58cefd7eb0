import Verif.Spec.Rotor
import Verif.Spec.Shape
import Verif.Spec.RotorInput
import Verif.Model.Readout

/-!
# Specification of readings at a node
-/

namespace Ross.Spec

/-- The motion in a direction at a node, `key = (direction, node)`, of a system with `nd` degrees of freedom per
node whose shaft ends at node `N`, when all its degrees of freedom move as `y`. -/
def motion {M : ℕ} {α : Type} [Zero α] (nd N : ℕ) (y : Fin M → α) (key : String × ℕ) : α :=
  if h : slot nd N key < M then y ⟨slot nd N key, h⟩ else 0

/-- The displacements, velocities or accelerations of a response. -/
def asked {M : ℕ} (x : Rotor.ForcedResp M) : RespKind → Fin M → ℂ
  | .displacement => x.forced_resp
  | .velocity => x.velc_resp
  | .acceleration => x.accl_resp

/-- A node of the shaft that no bearing is linked to, or a support that one is linked to. -/
def Readable (a : RotorArgs) (N node : ℕ) : Prop :=
  (node ≤ N ∧ ∀ b ∈ a.bearings, b.n_link ≠ some node) ∨
  (N < node ∧ node ≤ N + a.pms.length ∧ ∃ b ∈ a.bearings, b.n_link = some node)

/-- The sum of the bending stiffnesses of shaft elements. -/
noncomputable def stiffness (l : List ShaftEl) : ℝ := (l.map fun e => e.s.material.E * e.s.Ie).sum

/-- The elements that begin at node `n`, and those that end there. -/
def beginAt (r : Rotor) (n : ℕ) : List ShaftEl := r.shaft.filter fun e => e.s.n = some n
def endAt (r : Rotor) (n : ℕ) : List ShaftEl := r.shaft.filter fun e => e.s.n.map (· + 1) = some n

end Ross.Spec
