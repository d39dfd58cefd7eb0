import Mathlib.Algebra.BigOperators.Group.Finset.Basic
import Mathlib.Order.Bounds.Basic
import Verif.Model.RotorPlot
import Verif.Spec.Place

/-! # Specification: what the drawing of a rotor shows -/

namespace Ross.Spec

open Ross RotorPlot

/-- The section of a shaft element from `z`: inner and outer surface on the left, outer and inner surface on the right. -/
noncomputable def section' (s : ShaftElement) (z : ℝ) : List (ℝ × ℝ) :=
  [(z, s.idl / 2), (z, s.odl / 2), (z + s.L, s.odr / 2), (z + s.L, s.idr / 2), (z, s.idl / 2)]

/-- The other half of a section. -/
def mirrored (l : List (ℝ × ℝ)) : List (ℝ × ℝ) := l.map fun p => (p.1, -p.2)

/-- A list of points in other units. -/
def inUnits (u : ℝ) (l : List (ℝ × ℝ)) : List (ℝ × ℝ) := l.map fun p => (u * p.1, u * p.2)

/-- The dimensions of an element that its text shows. -/
def dimensions (u : ℝ) (e : ShaftEl) : List ℝ :=
  [u * e.s.odl, u * e.s.idl, u * e.s.odr, u * e.s.idr] ++ (if e.six then [e.s.alpha, e.s.beta] else []) ++ [u * e.s.L]

/-- The thin wedge of a disk: its foot at `(z, y)`, its upper edge `2 s` above and `s / 25` to both sides. -/
noncomputable def wedge (z y s : ℝ) : List (ℝ × ℝ) :=
  [(z, y), (z + s / 25, y + 2 * s), (z - s / 25, y + 2 * s), (z, y)]

/-- The points of an outline; `none` ends one part and begins the next. -/
def outlineOf (parts : List (List (ℝ × ℝ))) : List (Option ℝ × Option ℝ) :=
  [(none, none)].intercalate (parts.map fun l => l.map fun p => (some p.1, some p.2))

/-- The circle with center `(x, y)` and radius `ρ`. -/
def circleAt (x y ρ : ℝ) : Circle := ⟨some (x - ρ), some (y - ρ), some (x + ρ), some (y + ρ)⟩

/-- The greatest mean outer diameter of the shaft elements that meet at node `n`. -/
def DiameterAt (sh : List ShaftEl) (n : ℕ) (d : ℝ) : Prop :=
  IsGreatest {x | ∃ e ∈ sh, (leftNode e = n ∨ leftNode e + 1 = n) ∧ x = (e.s.odl + e.s.odr) / 2} d

/-- The mean over the nodes of the shaft of those diameters. -/
def MeanDiameter (r : Rotor) (m : ℝ) : Prop :=
  ∃ g : ℕ → ℝ, (∀ n ≤ shaftEnd r, DiameterAt r.shaft n (g n)) ∧
    m = (∑ n ∈ Finset.range (shaftEnd r + 1), g n) / (shaftEnd r + 1)

/-- A disk drawn on node `n` with size `s`. -/
structure DiskDrawn (u : ℝ) (sh : List ShaftEl) (e : DiskEl) (s : ℝ) (p : DiskPatch) : Prop where
  outline : ∃ d, DiameterAt sh e.d.n d ∧
    p.z.zip p.y = outlineOf [wedge (u * position sh e.d.n) (u * d / 2) s,
      mirrored (wedge (u * position sh e.d.n) (u * d / 2) s)] ∧
    p.circles = [circleAt (u * position sh e.d.n) (u * d / 2 + 2 * s) (s / 8),
      circleAt (u * position sh e.d.n) (-(u * d / 2 + 2 * s)) (s / 8)]
  text : p.n = e.d.n ∧ p.numbers = [e.d.Ip, e.d.Id, e.d.m]

/-- The scale of every disk by its mass is asked for. -/
def ByMass (l : List DiskScale) : Prop := ∀ x ∈ l, ∃ c, x = .mass c

/-- The greatest mass of some disks. -/
def GreatestMass (l : List DiskEl) (M : ℝ) : Prop := IsGreatest {x | ∃ e ∈ l, x = e.d.m} M

/-- `f` is the scale of the `i`-th disk `e`: by its share of the greatest mass, from one half to one, if all disks ask for
that, and the one given otherwise. -/
def ScaleOf (disks : List DiskEl) (scales : List DiskScale) (i : ℕ) (e : DiskEl) (f : ℝ) : Prop :=
  (ByMass scales → ∃ M, GreatestMass disks M ∧ f = 1 / 2 + e.d.m / M / 2) ∧
  (¬ ByMass scales → scales[i]? = some (.num f) ∨ scales[i]? = some (.mass (some f)))

end Ross.Spec
