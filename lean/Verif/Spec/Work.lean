import Verif.Spec.Attach

/-! # Specification: virtual work of the elements of a rotor -/

namespace Ross.Spec

open Ross Matrix

/-- The global indices of the dofs that an element acts on, in the order of its matrices, for a shaft
whose last node is `N`. -/
def globalOf (nd N : ℕ) (e : Elm) : List ℕ := (attach nd e (e.n.getD 0)).map (slot nd N)

/-- The bilinear form that one element contributes with its matrix `mat`: both vectors are read at
the dofs the element acts on. -/
noncomputable def workOf (nd N : ℕ) (mat : Elm → Res LMat) (e : Elm) (x y : ℕ → ℝ) : ℝ :=
  match mat e with
  | .ok E => elemBilin (globalOf nd N e) E.2 x y
  | .error _ => 0

/-- The global vector `x` describes the motion `u`, given by direction and node. -/
def Describes (r : Rotor) (x : ℕ → ℝ) (u : String × ℕ → ℝ) : Prop :=
  ∀ key, IsDof r.number_dof (shaftEnd r) r.pms.length key →
    x (slot r.number_dof (shaftEnd r) key) = u key

/-- Unit translation of every node along `dir`. -/
noncomputable def translation (dir : String) (key : String × ℕ) : ℝ := if key.1 = dir then 1 else 0

/-- The mass with which a point mass opposes translations along `dir` (`"x"` or `"y"`). -/
def PmEl.massAlong (dir : String) : PmEl → ℝ
  | .pm p => if dir = "x" then p.mx else p.my
  | .pm6 p => if dir = "x" then p.mx else p.my

/-- The added mass of a bearing to ground along `dir` (`"x"` or `"y"`) at frequency `ω`; a bearing
between two nodes does not resist a common translation. -/
noncomputable def BrgEl.groundMass (ω : ℝ) (dir : String) (b : BrgEl) : ℝ :=
  match b.n_link with
  | some _ => 0
  | none => match (if dir = "x" then b.base.mxx else b.base.myy).interp with
    | some g => g ω
    | none => 0

/-- All nodes that the element acts on belong to the rotor. -/
def InRange (r : Rotor) (e : Elm) : Prop :=
  ∀ key ∈ attach r.number_dof e (e.n.getD 0), key.2 ≤ shaftEnd r + r.pms.length

/-- The element does not link a node to itself. -/
def NotSelfLinked : Elm → Prop
  | .brg b => b.n_link ≠ some b.n
  | _ => True

end Ross.Spec
