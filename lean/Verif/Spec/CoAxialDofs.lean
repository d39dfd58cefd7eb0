import Verif.Spec.CoAxial
import Verif.Spec.Attach

/-! # Specification: nodes of coaxial rotors -/

namespace Ross.Spec.CoAxial

open Ross

/-- No shaft is empty and no shaft element has a node or a name. -/
def Unnamed (a : CoAxial.Args) : Prop :=
  ∀ l ∈ a.shafts, l ≠ [] ∧ ∀ e ∈ l, e.s.n = none ∧ e.s.tag = none

/-- The number of elements of the shafts before shaft `j`. -/
def before (shafts : List (List ShaftEl)) (j : ℕ) : ℕ := ((shafts.take j).map List.length).sum

/-- The shafts with nodes and names: a shaft of `k` elements has `k + 1` nodes, none shared with another shaft; names
are numbered through. -/
def numbered (shafts : List (List ShaftEl)) : List (List ShaftEl) :=
  shafts.mapIdx fun j l => l.mapIdx fun i e =>
    { e with s := { e.s with
        n := some (before shafts j + j + i)
        tag := some ((if e.six then "ShaftElement6DoF" else "ShaftElement") ++ " " ++ toString (before shafts j + i)) } }

/-- The last shaft node of the rotor is `N`. -/
def EndsAt (elements : List Elm) (N : ℕ) : Prop :=
  (∃ e k, Elm.shaft e ∈ elements ∧ e.s.n = some k ∧ k + 1 = N) ∧
    ∀ e k, Elm.shaft e ∈ elements → e.s.n = some k → k + 1 ≤ N

/-- All elements have four degrees of freedom per node, and disks are on shaft nodes. -/
def FourAt (N : ℕ) : Elm → Prop
  | .shaft e => e.six = false
  | .disk e => e.six = false ∧ e.d.n ≤ N
  | .brg b => ∃ s c, b = .brg s c
  | .pm p => ∃ q, p = .pm q

end Ross.Spec.CoAxial
