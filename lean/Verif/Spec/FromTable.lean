import Verif.Spec.Tables
import Verif.Model.FromTable

/-!
# Specification of elements read from tables

Which cell of the sheet each attribute of an element comes from.
-/

namespace Ross.Spec

open Tables (Kind)

/-- What the table with header `hdr` gives for the quantity `k` in row `i` of its data: the converted cell of the column
that is called so, or the default if no column is. -/
def TableGives (kind : Kind) (sheet : Sheet) (hdr : List Cell) (rows : Sheet) (k : String) (i : ℕ) (v : PVal) : Prop :=
  ∃ r, rows[i]? = some r ∧
    ((∃ j, Picks hdr (namesOf kind k) j ∧ Becomes kind (Us sheet) (RpmSeen (keyWord kind) sheet) k (r.getD j .blank) v) ∨
      (∀ j, ¬ Picks hdr (namesOf kind k) j) ∧ (k, v) ∈ leftOut kind)

/-- The values that count as false; all others count as true. -/
def Falsy (v : PVal) : Prop := v = .num 0 ∨ v = .str "" ∨ v = .bool false ∨ v = .null

/-- The color of the row `r` of a table of materials. -/
def ColorOf (hdr r : List Cell) (c : String) : Prop :=
  (∃ j, Titled hdr "color" j ∧ Colored (r.getD j .blank) (.str c)) ∨ (∀ j, ¬ Titled hdr "color" j) ∧ c = "#525252"

/-- The row of the table of materials has this name: the integer part of its number after `shaft_mat_`. -/
def Calls (hdr r : List Cell) (name : String) : Prop :=
  ∃ j x, Titled hdr "matno" j ∧ numberIn (r.getD j .blank) = some x ∧ name = "shaft_mat_" ++ toString (intPart x)

/-- The row gives this density and these moduli. -/
def MaterialRow (sheet : Sheet) (hdr r : List Cell) (m : Material) : Prop :=
  Calls hdr r m.name ∧ (∃ j, Titled hdr "rhoa" j ∧ Scaled (Us sheet) 27679.904 (r.getD j .blank) (.num m.rho)) ∧
    (∃ j, Titled hdr "ea" j ∧ Scaled (Us sheet) 6894.757 (r.getD j .blank) (.num m.E)) ∧
    (∃ j, Titled hdr "ga" j ∧ Scaled (Us sheet) 6894.757 (r.getD j .blank) (.num m.G_s)) ∧
    m.G_s ≠ 0 ∧ m.E = 2 * m.G_s * (1 + m.Poisson) ∧ ColorOf hdr r m.color

/-- Row `i` of a "Model" sheet gives the shaft element. -/
structure ShaftRow (sheet : Sheet) (hdr : List Cell) (rows : Sheet) (mhdr : List Cell) (mrows : Sheet) (i : ℕ)
    (s : ShaftElement) : Prop where
  L : TableGives (.shaft true) sheet hdr rows "L" i (.num s.L)
  idl : TableGives (.shaft true) sheet hdr rows "idl" i (.num s.idl)
  odl : TableGives (.shaft true) sheet hdr rows "odl" i (.num s.odl)
  idr : TableGives (.shaft true) sheet hdr rows "idr" i (.num s.idr)
  odr : TableGives (.shaft true) sheet hdr rows "odr" i (.num s.odr)
  n : ∃ n : ℕ, s.n = some n ∧ TableGives (.shaft true) sheet hdr rows "n" i (.num n)
  axial_force : TableGives (.shaft true) sheet hdr rows "axial_force" i (.num s.axial_force)
  torque : TableGives (.shaft true) sheet hdr rows "torque" i (.num s.torque)
  shear_effects : ∃ v, TableGives (.shaft true) sheet hdr rows "shear_effects" i v ∧ (s.shear_effects = true ↔ ¬ Falsy v)
  rotary_inertia : ∃ v, TableGives (.shaft true) sheet hdr rows "rotary_inertia" i v ∧ (s.rotary_inertia = true ↔ ¬ Falsy v)
  gyroscopic : ∃ v, TableGives (.shaft true) sheet hdr rows "gyroscopic" i v ∧ (s.gyroscopic = true ↔ ¬ Falsy v)
  shear_method_calc : ∃ v, TableGives (.shaft true) sheet hdr rows "shear_method_calc" i v ∧
    ∀ t, v = .str t → s.shear_method_calc = t
  /-- The material is the last one of its name. -/
  material : TableGives (.shaft true) sheet hdr rows "material" i (.str s.material.name) ∧
    ∃ (q : ℕ) (r : List Cell), mrows[q]? = some r ∧ MaterialRow sheet mhdr r s.material ∧
      ∀ q' > q, ∀ r', mrows[q']? = some r' → ¬ Calls mhdr r' s.material.name
  tag : s.tag = none

/-- `v` is the list that is read for `k`: one number for each row. -/
def NumbersRead (sheet : Sheet) (hdr : List Cell) (rows : Sheet) (k : String) (v : List ℝ) : Prop :=
  v.length = rows.length ∧ ∀ i x, v[i]? = some x → TableGives .bearing sheet hdr rows k i (.num x)

/-- The value for row `i` of a list that can be left out. -/
def GivenOr {α : Type} (l : Option (List α)) (dflt : α) (i : ℕ) (x : α) : Prop :=
  (l = none → x = dflt) ∧ ∀ xs, l = some xs → xs[i]? = some x

/-- Row `i` gives the disk. -/
structure DiskRow (sheet : Sheet) (hdr : List Cell) (rows : Sheet) (tag : Option (List (Option String)))
    (scale_factor : Option (List ℝ)) (color : Option (List String)) (i : ℕ) (d : DiskElement) : Prop where
  n : TableGives .disk sheet hdr rows "n" i (.num d.n)
  m : TableGives .disk sheet hdr rows "m" i (.num d.m)
  Id : TableGives .disk sheet hdr rows "Id" i (.num d.Id)
  Ip : TableGives .disk sheet hdr rows "Ip" i (.num d.Ip)
  tag : GivenOr tag none i d.tag
  scale_factor : GivenOr scale_factor 1 i d.scale_factor
  color : GivenOr color "Firebrick" i d.color

end Ross.Spec
