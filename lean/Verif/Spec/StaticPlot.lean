import Verif.Model.StaticPlot
import Verif.Spec.Static

/-! # Specification: arrows in a free-body diagram -/

namespace Ross.Spec

/-- The arrow pushes upwards. -/
def Upwards (a : Arrow) : Prop := a.tail < a.head

/-- The arrow pushes downwards. -/
def Downwards (a : Arrow) : Prop := a.head < a.tail

/-- The points at both ends of every element: `f j` at node `j` and `g j` at node `j + 1`. -/
noncomputable def atEnds (N : ℕ) (pos : ℕ → ℝ) (f g : ℕ → ℝ) (ux uy : ℝ) : List (ℝ × ℝ) :=
  (List.range N).flatMap fun j => [(pos j * ux, f j * uy), (pos (j + 1) * ux, g j * uy)]

/-- The arrows of one kind. -/
def arrowsOf (k : ArrowKind) (b : FreeBody) : List Arrow := b.arrows.filter fun a => a.kind = k

/-- The nodes of the shaft with bearings that carry it. -/
noncomputable def carryingNodes (r : Rotor) : ℕ :=
  (((r.bearings.filter fun b => !b.isSeal && decide (b.n < r.nodes_pos.length)).map fun b => b.n).toFinset).card

/-- The forces shown are in equilibrium: what is shown for the arrows, positive upwards, adds up to the weight of the
shaft. -/
noncomputable def InEquilibrium (b : FreeBody) : Prop := (b.arrows.map fun a => a.value).sum = b.weight

end Ross.Spec
