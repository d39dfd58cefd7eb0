import Mathlib.Algebra.BigOperators.Group.Finset.Basic
import Verif.Model.Elements

/-! # Specification: axial positions of shaft nodes -/

namespace Ross.Spec

open Ross

/-- The left node of a numbered shaft element. -/
def leftNode (e : ShaftEl) : ℕ := e.s.n.getD 0

/-- The nodes where shaft elements start. -/
def leftNodes (sh : List ShaftEl) : Finset ℕ := (sh.map leftNode).toFinset

/-- The length of the layer that starts at node `g`: that of its first element in the list. -/
noncomputable def layerLength (sh : List ShaftEl) (g : ℕ) : ℝ :=
  ((sh.find? fun e => leftNode e = g).map fun e => e.s.L).getD 0

/-- The axial position of node `g`: the lengths of the layers to its left. -/
noncomputable def position (sh : List ShaftEl) (g : ℕ) : ℝ :=
  ∑ x ∈ leftNodes sh with x < g, layerLength sh x

end Ross.Spec
