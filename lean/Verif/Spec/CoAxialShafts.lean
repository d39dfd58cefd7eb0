import Verif.Spec.CoAxialDofs

/-! # Specification of C126: the shaft of an element of a coaxial rotor -/

namespace Ross.Spec.CoAxial

open Ross

/-- The element is a disk or bearing on node `n`. -/
def SitsOn (n : ℕ) : Elm → Prop
  | .disk e => e.d.n = n
  | .brg b => b.n = n
  | _ => False

/-- The shaft element begins or ends at node `n`. -/
def Reaches (n : ℕ) (x : ShaftEl) : Prop := ∃ k, x.s.n = some k ∧ (k = n ∨ k + 1 = n)

/-- The table of the elements says `z` of the element: in all its rows, of which there is one. -/
def Says (df : List CoAxial.Row) (e : Elm) (z : Option ℕ) : Prop :=
  (∃ row ∈ df, row.tag = e.tag) ∧ ∀ row ∈ df, row.tag = e.tag → row.shaft_number = z

end Ross.Spec.CoAxial
