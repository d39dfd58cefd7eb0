import Mathlib.Data.Real.Basic
import Mathlib.Data.Prod.Lex

/-! # Specification: where two polylines cross -/

namespace Ross.Spec

/-- A point of the segment from `a` to `b`. -/
def OnSegment (a b p : ℝ × ℝ) : Prop :=
  ∃ t : ℝ, 0 ≤ t ∧ t ≤ 1 ∧ p = (a.1 + t * (b.1 - a.1), a.2 + t * (b.2 - a.2))

/-- The segments from `a` to `b` and from `c` to `d` are not parallel (and not points). -/
def Transversal (a b c d : ℝ × ℝ) : Prop :=
  (b.1 - a.1) * (d.2 - c.2) ≠ (b.2 - a.2) * (d.1 - c.1)

/-- Segment `i` of the polyline `P` and segment `j` of the polyline `Q` are not parallel and meet in
`p`. -/
def Crossing (P Q : List (ℝ × ℝ)) (i j : ℕ) (p : ℝ × ℝ) : Prop :=
  ∃ (hi : i + 1 < P.length) (hj : j + 1 < Q.length), Transversal P[i] P[i + 1] Q[j] Q[j + 1] ∧
    OnSegment P[i] P[i + 1] p ∧ OnSegment Q[j] Q[j + 1] p

end Ross.Spec
