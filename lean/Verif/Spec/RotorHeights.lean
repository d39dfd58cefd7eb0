import Verif.Spec.RotorPlot
import Verif.Model.RotorHeights

/-! # Specification: how bearings and point masses are drawn on a rotor -/

namespace Ross.Spec

open Ross RotorPlot

/-- What is assumed about `sort_values(by="n_l")`: the same rows, sorted by their nodes. -/
def SortsNodes (ns : NodeSort) : Prop :=
  ∀ l, (ns.sort l).Perm l ∧ (ns.sort l).Pairwise fun x y => x.n_l.getD 0 ≤ y.n_l.getD 0

/-- All shaft elements have a positive length. -/
def PositiveLengths (r : Rotor) : Prop := ∀ e ∈ r.shaft, 0 < e.s.L

/-- The greatest outer radius of the shaft at node `k`: of the left faces of the elements that start there and the right
faces of those that end there. -/
def RadiusAt (sh : List ShaftEl) (k : ℕ) (R : ℝ) : Prop :=
  IsGreatest {x | (∃ e ∈ sh, leftNode e = k ∧ x = e.s.odl / 2) ∨ ∃ e ∈ sh, leftNode e + 1 = k ∧ x = e.s.odr / 2} R

/-- The bearings that the table of elements puts at node `k`, from the lowest node up. -/
structure BearingsAt (r : Rotor) (k : ℕ) (l : List BrgEl) : Prop where
  nodup : l.Nodup
  mem : ∀ b, b ∈ l ↔ b ∈ r.bearings ∧ TableSays r b.tag (position r.shaft k)
  sorted : l.Pairwise fun b c => b.n ≤ c.n

/-- The scale factors of some bearings together. -/
noncomputable def scales (l : List BrgEl) : ℝ := (l.map fun b => b.base.scale_factor).sum

/-- Points on a grid of width `s` from `(x, y)`. -/
noncomputable def onGrid (x y s : ℝ) (l : List (ℝ × ℝ)) : List (ℝ × ℝ) := l.map fun p => (x + s * p.1, y + s * p.2)

/-- The lower base with its stem, on a grid of one fourteenth of the height. -/
noncomputable def lowerBase : List (ℝ × ℝ) := [(0, 0), (0, 3.5), (-2, 3.5), (2, 3.5)]

/-- The upper base with its stem. -/
noncomputable def upperBase : List (ℝ × ℝ) := [(0, 14), (0, 10.5), (-2, 10.5), (2, 10.5)]

/-- The spring, from the left end of the lower base to that of the upper base. -/
noncomputable def springLine : List (ℝ × ℝ) :=
  [(-2, 3.5), (-2, 4.5), (-3, 4.5), (-1, 5.5), (-3, 6.5), (-1, 7.5), (-3, 8.5), (-1, 9.5), (-2, 9.5), (-2, 10.5)]

/-- The three parts of the damper, from the right end of the lower base to that of the upper base. -/
noncomputable def damperLines : List (List (ℝ × ℝ)) :=
  [[(2, 3.5), (2, 5.5)], [(0, 8.5), (0, 5.5), (4, 5.5), (4, 8.5)], [(0, 7.5), (4, 7.5), (2, 7.5), (2, 10.5)]]

/-- The line of the ground. -/
noncomputable def groundLine : List (ℝ × ℝ) := [(-3, 14), (3, 14)]

/-- The hatching above a ground at height `g`: six strokes of a fifth of the ground's width, each one tenth of `g` high. -/
noncomputable def hatching (x s g : ℝ) : List (List (ℝ × ℝ)) :=
  [0, 1, 2, 3, 4, 5].map fun i : ℝ => [(x + s * (-3 + 1.2 * i), g), (x + s * (-3 + 1.2 * (i + 1)), g + g / 10)]

/-- The icon of a bearing at `x` between the heights `y₀` and `y₁`, above and below the axis. -/
noncomputable def bearingIcon (grounded : Bool) (x y₀ y₁ : ℝ) : List (List (ℝ × ℝ)) :=
  let s := (y₁ - y₀) / 14
  let draw := onGrid x y₀ s
  ([draw lowerBase, draw upperBase] ++ (if grounded then draw groundLine :: hatching x s y₁ else []) ++
    draw springLine :: damperLines.map draw).flatMap fun l => [l, mirrored l]

end Ross.Spec
