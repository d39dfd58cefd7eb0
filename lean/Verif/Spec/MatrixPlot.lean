import Verif.Model.MatrixPlot
import Verif.Spec.Attach
import Verif.Spec.Work

/-! # Specification: the heat map of a global matrix -/

namespace Ross.Spec

open Ross

/-- How the axes of the heat map name a dof. -/
def shownAs (key : String × ℕ) : String × ℕ :=
  match key with
  | ("alpha", n) => ("α", n)
  | ("beta", n) => ("β", n)
  | (l, n) => (l, n)

/-- The matrix of the rotor that has the given name. -/
noncomputable def rotorMatrix (r : Rotor) (w : MatrixPlot.Name) (ω : ℝ) :
    Res (Matrix (Fin r.ndof) (Fin r.ndof) ℝ) :=
  match w with
  | .M => r.M (some ω)
  | .K => r.K ω
  | .C => r.C ω
  | .G => r.G

/-- The matrix of an element that has the given name. -/
noncomputable def elementMatrix (w : MatrixPlot.Name) (ω : ℝ) (e : Elm) : Res LMat :=
  match w with
  | .M => e.M ω
  | .K => e.K ω
  | .C => e.C ω
  | .G => e.G

/-- The rows of a heat map are drawn from the bottom up: the entry in row `i` counted from the top. -/
def cell {α : Type*} (t : List (List α)) (i j : ℕ) : Option α :=
  (t.reverse[i]?).bind fun row => row[j]?

/-- The dofs, in the order of its matrices, of an element at its own node: those of `attach` but for the
link node of a bearing. -/
def ownDofs (nd : ℕ) : Elm → ℕ → List (String × ℕ)
  | .brg _, n => dofsAt (supportLetters nd) n
  | e, n => attach nd e n

end Ross.Spec
