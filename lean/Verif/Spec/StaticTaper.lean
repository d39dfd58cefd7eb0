import Verif.Spec.Static

/-! # Specification: the static diagrams of shafts whose elements are not cylinders -/

namespace Ross.Spec

open Ross Rotor

/-- The elements between nodes `i` and `i + 1`. -/
def layer (r : Rotor) (i : ℕ) : List ShaftEl := r.shaft.filter fun e => leftNode e = i

/-- The moment about a point at the distance `d` right of its left end of the weight of a shaft element: that of all its
slices. -/
noncomputable def weightMoment (e : ShaftEl) (d : ℝ) : ℝ :=
  gravity * e.s.material.rho * ∫ x in (0 : ℝ)..e.s.L, (d - x) * e.s.beam.area x

/-- The moment about node `j` of all forces left of it, for elements of any form. -/
noncomputable def bendingOf (r : Rotor) (st : StaticResults) (j : ℕ) : ℝ :=
  ∑ i ∈ Finset.range j,
    ((diskWeight r i - reactionAt st i) * (position r.shaft j - position r.shaft i) +
      ((layer r i).map fun e => weightMoment e (position r.shaft j - position r.shaft i)).sum)

/-- By how much the section of a shaft element is larger at its right end. -/
noncomputable def growth (e : ShaftEl) : ℝ := e.s.beam.area e.s.L - e.s.beam.area 0

/-- The error of the shear force between nodes `i` and `i + 1`. -/
noncomputable def shearError (r : Rotor) (i : ℕ) : ℝ :=
  gravity * ((layer r i).map fun e => e.s.material.rho * e.s.L * growth e / (60 * (1 + e.s.phi))).sum

/-- What the error of the bending moment becomes more between nodes `i` and `i + 1`. -/
noncomputable def momentError (r : Rotor) (i : ℕ) : ℝ :=
  gravity * ((layer r i).map fun e =>
    e.s.material.rho * e.s.L ^ 2 * growth e * (1 / 12 - 1 / (60 * (1 + e.s.phi)))).sum

end Ross.Spec
