import Verif.Model.FromSection
import Verif.Spec.RotorInput
import Verif.Spec.Convergence

/-! # Specification: a rotor described by the sections of its shaft -/

namespace Ross.Spec

open Ross

/-- A conical part of a shaft. -/
structure Region where
  L : ℝ
  idl : ℝ
  odl : ℝ
  idr : ℝ
  odr : ℝ
  material : Material

/-- The lists of the call describe these regions: an omitted list of right diameters means cylinders,
and a single material is the material of all regions. -/
structure SectionsOf (a : SectionArgs) (R : List Region) : Prop where
  leng : a.leng_data = R.map Region.L
  idl : a.idl_data = R.map Region.idl
  odl : a.odl_data = R.map Region.odl
  idr : a.idr_data = some (R.map Region.idr) ∨ a.idr_data = none ∧ ∀ g ∈ R, g.idr = g.idl
  odr : a.odr_data = some (R.map Region.odr) ∨ a.odr_data = none ∧ ∀ g ∈ R, g.odr = g.odl
  material : a.material_data = some (.many (R.map Region.material)) ∨
    ∃ m, a.material_data = some (.one m) ∧ ∀ g ∈ R, g.material = m

/-- The region is a tube of positive length and wall, of a physical material. -/
structure Region.Solid (g : Region) : Prop where
  L_pos : 0 < g.L
  idl_nonneg : 0 ≤ g.idl
  idl_lt : g.idl < g.odl
  idr_nonneg : 0 ≤ g.idr
  idr_lt : g.idr < g.odr
  rho_pos : 0 < g.material.rho
  E_pos : 0 < g.material.E
  G_pos : 0 < g.material.G_s
  nu_gt : -(1 / 2) < g.material.Poisson

/-- Area of the cross section of a region at distance `x` from its left end. -/
noncomputable def Region.area (g : Region) (x : ℝ) : ℝ :=
  Real.pi * ((g.odl + (g.odr - g.odl) * (x / g.L)) ^ 2 - (g.idl + (g.idr - g.idl) * (x / g.L)) ^ 2) / 4

/-- The shaft element `x` is the part of the region between the fractions `j / k` and `(j + 1) / k`,
a 4-dof element with all effects and without loads or damping. -/
structure Slice (k j : ℕ) (g : Region) (x : ShaftEl) : Prop where
  six : x.six = false
  length : x.s.L = g.L / k
  idl : x.s.idl = g.idl + (g.idr - g.idl) * (j / k)
  odl : x.s.odl = g.odl + (g.odr - g.odl) * (j / k)
  idr : x.s.idr = g.idl + (g.idr - g.idl) * ((j + 1) / k)
  odr : x.s.odr = g.odl + (g.odr - g.odl) * ((j + 1) / k)
  material : x.s.material = g.material
  shear : x.s.shear_effects = true
  rotary : x.s.rotary_inertia = true
  gyro : x.s.gyroscopic = true
  plain : Plain x.s

/-- The names of the elements when the shaft has `N` elements. -/
def sectionTags (N : ℕ) (disks : List DiskEl) (bearings : List BrgEl) : List String :=
  ((List.range N).map fun i => "ShaftElement " ++ toString i) ++
  (disks.mapIdx fun i e => tagOr "Disk " i e.d.tag) ++
  (bearings.mapIdx fun i b => tagOr (if b.isSeal then "Seal " else "Bearing ") i b.tag)

end Ross.Spec
