import Verif.Model.Rotor
import Verif.Spec.Rotor

/-! # Specification: which degrees of freedom an element acts on -/

namespace Ross.Spec

open Ross

/-- Does the element have the directions of a rotor with `nd` dofs per node?  (The constructor checks
this for all elements but point masses.) -/
def Fits (nd : ℕ) : Elm → Prop
  | .pm (.pm6 _) => nd = 6
  | _ => True

/-- The dofs, in the order of its matrices, of an element placed at node `n` of a rotor with `nd`
dofs per node: a shaft element joins nodes `n` and `n + 1`, a disk sits on `n`, a bearing acts on the
translations of `n` and of its link node, a point mass on the translations of `n`. -/
def attach (nd : ℕ) : Elm → ℕ → List (String × ℕ)
  | .shaft _, n => dofsAt (nodeLetters nd) n ++ dofsAt (nodeLetters nd) (n + 1)
  | .disk _, n => dofsAt (nodeLetters nd) n
  | .brg b, n =>
    match b.n_link with
    | none => dofsAt (supportLetters nd) n
    | some k => if k = n then dofsAt (supportLetters nd) n
      else dofsAt (supportLetters nd) n ++ dofsAt (supportLetters nd) k
  | .pm (.pm _), n => dofsAt ["x", "y"] n
  | .pm (.pm6 _), n => dofsAt ["x", "y", "z"] n

/-- The bilinear form that one element contributes with its matrix `mat`, at its global indices. -/
noncomputable def contrib (mat : Elm → Res LMat) (z : Elm × Dict DofKey ℕ) (x y : ℕ → ℝ) : ℝ :=
  match mat z.1 with
  | .ok E => elemBilin z.2.values E.2 x y
  | .error _ => 0

/-- The last node of the shaft of a rotor. -/
def shaftEnd (r : Rotor) : ℕ := (r.shaft.map fun e => e.s.n.getD 0 + 1).foldr max 0

/-- A point mass that moves in all the directions of a support node. -/
def PmFull (nd : ℕ) : PmEl → Prop
  | .pm _ => nd = 4
  | .pm6 _ => nd = 6

end Ross.Spec
