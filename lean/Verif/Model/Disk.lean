import Mathlib.Analysis.SpecialFunctions.Trigonometric.Basic
import Mathlib.LinearAlgebra.Matrix.Notation
import Verif.Model.Material

/-! # Model of `ross/disk_element.py` -/

namespace Ross

open Real Matrix

/-- Attributes of a `DiskElement` / `DiskElement6DoF` (`disk_element.py` 59-70).  Node numbers are
natural numbers (`int(n)` of an integer argument); `scale_factor` is numeric (the string `"mass"`
only changes drawings). -/
structure DiskElement where
  n : ℕ
  m : ℝ
  Id : ℝ
  Ip : ℝ
  tag : Option String
  scale_factor : ℝ
  color : String

namespace DiskElement

/-- `DiskElement.__init__` (`disk_element.py` 59-70); `float(...)` is the identity on reals. -/
def init (n : ℕ) (m Id Ip : ℝ) (tag : Option String := none) (scale_factor : ℝ := 1)
    (color : String := "Firebrick") : DiskElement :=
  ⟨n, m, Id, Ip, tag, scale_factor, color⟩

/-- `DiskElement.from_geometry` (`disk_element.py` 389-457). -/
noncomputable def fromGeometry (n : ℕ) (material : Material) (width i_d o_d : ℝ)
    (tag : Option String := none) (scale_factor : ℝ := 1) (color : String := "Firebrick") :
    DiskElement :=
  let m := material.rho * π * width * (o_d ^ 2 - i_d ^ 2) / 4
  let Ip := m * (o_d ^ 2 + i_d ^ 2) / 8
  let Id := 1 / 2 * Ip + 1 / 12 * m * width ^ 2
  init n m Id Ip tag scale_factor color

variable (d : DiskElement)

/-- `DiskElement.M` (`disk_element.py` 207-215). -/
def M : Matrix (Fin 4) (Fin 4) ℝ :=
  !![d.m, 0, 0, 0;
     0, d.m, 0, 0;
     0, 0, d.Id, 0;
     0, 0, 0, d.Id]

/-- `DiskElement.K` (`disk_element.py` 237-239). -/
def K (_ : DiskElement) : Matrix (Fin 4) (Fin 4) ℝ := 0

/-- `DiskElement.C` (`disk_element.py` 261-263). -/
def C (_ : DiskElement) : Matrix (Fin 4) (Fin 4) ℝ := 0

/-- `DiskElement.G` (`disk_element.py` 285-292). -/
def G : Matrix (Fin 4) (Fin 4) ℝ :=
  !![0, 0, 0, 0;
     0, 0, 0, 0;
     0, 0, 0, d.Ip;
     0, 0, -d.Ip, 0]

/-- `DiskElement6DoF.M` (`disk_element.py` 607-620). -/
def M₆ : Matrix (Fin 6) (Fin 6) ℝ :=
  !![d.m, 0, 0, 0, 0, 0;
     0, d.m, 0, 0, 0, 0;
     0, 0, d.m, 0, 0, 0;
     0, 0, 0, d.Id, 0, 0;
     0, 0, 0, 0, d.Id, 0;
     0, 0, 0, 0, 0, d.Ip]

/-- `DiskElement6DoF.K` (`disk_element.py` 644-646). -/
def K₆ (_ : DiskElement) : Matrix (Fin 6) (Fin 6) ℝ := 0

/-- `DiskElement6DoF.Kdt` (`disk_element.py` 673-682). -/
def Kdt₆ : Matrix (Fin 6) (Fin 6) ℝ :=
  !![0, 0, 0, 0, 0, 0;
     0, 0, 0, 0, 0, 0;
     0, 0, 0, 0, 0, 0;
     0, 0, 0, 0, 0, 0;
     0, 0, 0, d.Ip, 0, 0;
     0, 0, 0, 0, 0, 0]

/-- `DiskElement6DoF.C` (`disk_element.py` 703-705). -/
def C₆ (_ : DiskElement) : Matrix (Fin 6) (Fin 6) ℝ := 0

/-- `DiskElement6DoF.G` (`disk_element.py` 729-740). -/
def G₆ : Matrix (Fin 6) (Fin 6) ℝ :=
  !![0, 0, 0, 0, 0, 0;
     0, 0, 0, 0, 0, 0;
     0, 0, 0, 0, 0, 0;
     0, 0, 0, 0, d.Ip, 0;
     0, 0, 0, -d.Ip, 0, 0;
     0, 0, 0, 0, 0, 0]

/-- `DiskElement.from_table` (`disk_element.py` 499-520) once the table has been read: the columns
are parallel lists, and the optional lists of tags, scale factors and colours are indexed by row.
An index beyond the end of one of them raises `IndexError`. -/
def fromColumns (n : List ℕ) (m Id Ip : List ℝ) (tag : Option (List (Option String)))
    (scale_factor : Option (List ℝ)) (color : Option (List String)) : Res (List DiskElement) :=
  let tag := tag.getD (List.replicate n.length none)
  let scale_factor := scale_factor.getD (List.replicate n.length 1)
  let color := color.getD (List.replicate n.length "Firebrick")
  (List.range n.length).mapM fun i =>
    match n[i]?, m[i]?, Id[i]?, Ip[i]?, tag[i]?, scale_factor[i]?, color[i]? with
    | some n, some m, some Id, some Ip, some t, some s, some c => .ok (init n m Id Ip t s c)
    | _, _, _, _, _, _, _ => .error .indexError

end DiskElement

end Ross
