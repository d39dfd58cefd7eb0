import Verif.Model.Rotor
import Verif.Spec.Position
import Verif.Spec.Attach

/-! # Specification: where the elements of a rotor stand -/

namespace Ross.Spec

open Ross

/-- The shaft elements fill the nodes from the first to the last without gaps. -/
def NoGaps (r : Rotor) : Prop := ∀ k < shaftEnd r, ∃ e ∈ r.shaft, leftNode e = k

/-- The bearing `b` stands at node `k` of a shaft that ends at node `N`: a bearing on the shaft at its own node, any other
one where a bearing stands that shares its node or is linked to it. -/
inductive StandsAt (brs : List BrgEl) (N : ℕ) : BrgEl → ℕ → Prop
  | shaft {b : BrgEl} : b.n ≤ N → StandsAt brs N b b.n
  | support {b c : BrgEl} {k : ℕ} : N < b.n → c ∈ brs → c.tag ≠ b.tag → (c.n = b.n ∨ c.n_link = some b.n) →
      StandsAt brs N c k → StandsAt brs N b k

/-- The table of elements of the rotor has one row with tag `t`, and gives it the axial position `z`. -/
def TableSays (r : Rotor) (t : Option String) (z : ℝ) : Prop :=
  (r.df.filter fun x => x.tag = t).map (fun x => (x.nodes_pos_l, x.nodes_pos_r)) = [(some z, some z)]

end Ross.Spec
