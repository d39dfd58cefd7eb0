import Verif.Model.CoAxialPos
import Verif.Spec.CoAxialDofs

/-! # Specification of C129: the axial positions of coaxial rotors -/

namespace Ross.Spec.CoAxial

open Ross

/-- The bearing links to node `k` of shaft `j`, counted from 0. -/
def LinksTo (shafts : List (List ShaftEl)) (b : BrgEl) (j k : ℕ) : Prop :=
  b.isSeal = false ∧ b.n_link = some (before shafts j + j + k) ∧ ∃ l, shafts[j]? = some l ∧ k ≤ l.length

/-- Element `k` of shaft `j` has length `ℓ`. -/
def HasLength (shafts : List (List ShaftEl)) (j k : ℕ) (ℓ : ℝ) : Prop :=
  ∃ l e, shafts[j]? = some l ∧ l[k]? = some e ∧ e.s.L = ℓ

/-- The bearings that link to shafts are on the first shaft and link to others, and where they do the elements to the
left have the same length, and those to the right too. -/
def CarriedEvenly (shafts : List (List ShaftEl)) (br : List BrgEl) : Prop :=
  ∀ b ∈ br, ∀ j k, LinksTo shafts b j k → 1 ≤ j ∧
    (∀ ℓ, HasLength shafts j k ℓ → HasLength shafts 0 b.n ℓ) ∧
    (∀ ℓ, 1 ≤ k → HasLength shafts j (k - 1) ℓ → 1 ≤ b.n ∧ HasLength shafts 0 (b.n - 1) ℓ)

/-- The position of node `k` of shaft `j` is `z`: as the left end of element `k`, and as the right end of the element
before. -/
def NodeAt (shafts : List (List ShaftEl)) (p : CoAxialPos.Pos) (j k : ℕ) (z : ℝ) : Prop :=
  ∃ l, shafts[j]? = some l ∧ (k < l.length → p.l (before shafts j + k) = z) ∧
    (1 ≤ k → k ≤ l.length → p.r (before shafts j + k - 1) = z)

end Ross.Spec.CoAxial
