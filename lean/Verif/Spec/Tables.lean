import Verif.Model.Tables

/-!
# Specification of reading tables

Which row is the header, which rows are the data, which column is read, and what a cell becomes.
-/

namespace Ross.Spec

open Tables (Kind)

/-- `s` in lower case. -/
def lowered (s : String) : List Char := s.toList.map Char.toLower

/-- The row has a cell with this text, in upper or lower case. -/
def HasText (w : String) (row : List Cell) : Prop := ∃ s, Cell.str s ∈ row ∧ lowered s = w.toList

/-- Some cell of these rows contains this text, in upper or lower case. -/
def Mentions (w : String) (rows : Sheet) : Prop :=
  ∃ row ∈ rows, ∃ s, Cell.str s ∈ row ∧ w.toList <:+: lowered s

/-- Row `h` is the first one that has the text `w` in a cell. -/
def IsHeader (w : String) (sheet : Sheet) (h : ℕ) : Prop :=
  (∃ row, sheet[h]? = some row ∧ HasText w row) ∧
    ∀ i < h, ∀ row, sheet[i]? = some row → ¬ HasText w row

/-- Column `j` of a table with this header is called `w`: by its text, or `unnamed: j` where the header
has no text; it is the first such column. -/
def Named (hdr : List Cell) (w : String) (j : ℕ) : Prop :=
  (∃ c, hdr[j]? = some c ∧ nameOf j c = some w.toList) ∧
    ∀ i < j, ∀ c, hdr[i]? = some c → nameOf i c ≠ some w.toList
where
  /-- The name of a column. -/
  nameOf (j : ℕ) : Cell → Option (List Char)
    | .str s => some (lowered s)
    | .blank => some ("unnamed: ".toList ++ (toString j).toList)
    | _ => none

/-- Column `j` is the one that is read for a list of possible names: it is called by one of them, and
no column is called by an earlier one. -/
def Picks (hdr : List Cell) (names : List String) (j : ℕ) : Prop :=
  ∃ l w r, names = l ++ w :: r ∧ Named hdr w j ∧ ∀ w' ∈ l, ∀ i, ¬ Named hdr w' i

/-- The cell holds a number. -/
def Numeric : Cell → Prop
  | .int _ => True
  | .num _ => True
  | _ => False

/-- The cell holds a whole number. -/
def Whole : Cell → Prop
  | .int _ => True
  | _ => False

/-- `rows` is the first block of consecutive rows with a number in column `j`. -/
def IsBlock (j : ℕ) (body rows : Sheet) : Prop :=
  rows ≠ [] ∧ (∀ r ∈ rows, Numeric (r.getD j .blank)) ∧
    ∃ pre post, body = pre ++ rows ++ post ∧ (∀ r ∈ pre, ¬ Numeric (r.getD j .blank)) ∧
      ∀ r ∈ post.head?, ¬ Numeric (r.getD j .blank)

/-- The word that marks the header. -/
def keyWord : Kind → String
  | .bearing => "kxx"
  | .shaft true => "od_left"
  | .shaft false => "material"
  | .disk => "ip"

/-- The names that a column can have. -/
def namesOf : Kind → String → List String
  | .bearing, "frequency" => ["frequency", "speed"]
  | .bearing, k => [k]
  | .shaft _, "L" => ["length"]
  | .shaft _, "idl" => ["i_d_l", "idl", "id_left"]
  | .shaft _, "odl" => ["o_d_l", "odl", "od_left"]
  | .shaft _, "idr" => ["i_d_r", "idr", "id_right"]
  | .shaft _, "odr" => ["o_d_r", "odr", "od_right"]
  | .shaft _, "material" => ["material", "matnum"]
  | .shaft _, "n" => ["n", "elemnum"]
  | .shaft _, "axial_force" => ["axial_force", "axial force", "axial"]
  | .shaft _, "shear_effects" => ["shear_effects", "shear effects"]
  | .shaft _, "rotary_inertia" => ["rotary_inertia", "rotary inertia"]
  | .shaft _, "shear_method_calc" => ["shear_method_calc", "shear method calc"]
  | .shaft _, k => [k]
  | .disk, "n" => ["unnamed: 0", "n"]
  | .disk, "m" => ["m", "mass"]
  | .disk, "Id" => ["it", "id"]
  | .disk, "Ip" => ["ip"]
  | .disk, k => [k]

/-- The columns that a table must have. -/
def mandatory : Kind → List String
  | .bearing => ["kxx", "cxx"]
  | .shaft _ => ["L", "idl", "odl", "idr", "odr", "material"]
  | .disk => ["n", "m", "Id", "Ip"]

/-- The columns that a table can leave out, with the values that are used then. -/
def leftOut : Kind → List (String × PVal)
  | .bearing => [("kyy", .null), ("kxy", .num 0), ("kyx", .num 0), ("cyy", .null), ("cxy", .num 0),
      ("cyx", .num 0), ("frequency", .null)]
  | .shaft _ => [("n", .null), ("axial_force", .num 0), ("torque", .num 0),
      ("shear_effects", .bool true), ("rotary_inertia", .bool true), ("gyroscopic", .bool true),
      ("shear_method_calc", .str "cowper")]
  | .disk => []

/-- Factors from lbf, inches, lbm and seconds to the units of the international system. -/
noncomputable def usFactor : Kind → String → ℝ
  | .bearing, "frequency" => 1
  | .bearing, _ => 175.1268369864
  | .shaft _, "L" => 0.0254
  | .shaft _, "idl" => 0.0254
  | .shaft _, "odl" => 0.0254
  | .shaft _, "idr" => 0.0254
  | .shaft _, "odr" => 0.0254
  | .shaft _, "axial_force" => 4.448221615255
  | .disk, "m" => 0.45359237
  | .disk, "Id" => 0.0002926397
  | .disk, "Ip" => 0.0002926397
  | _, _ => 1

/-- The table is taken to be in lbf and inches. -/
def Us (rows : Sheet) : Prop := Mentions "inches" rows ∨ Mentions "lb" rows

/-- The speeds are taken to be in revolutions per minute: a row mentions "rpm", and the rows before it
do not have both the header and the units of lengths or forces, where the search ends. -/
def RpmSeen (key : String) (sheet : Sheet) : Prop :=
  ∃ i row, sheet[i]? = some row ∧ Mentions "rpm" [row] ∧
    ¬ ((∃ r ∈ sheet.take i, HasText key r) ∧ Us (sheet.take i))

open Classical in
/-- The factor that a column is multiplied with. -/
noncomputable def factorOf (kind : Kind) (us rpm : Prop) (k : String) : ℝ :=
  (if us then usFactor kind k else 1) *
    if rpm ∧ kind = .bearing ∧ k = "frequency" then 0.1047197551197 else 1

/-- What is subtracted: nodes are counted from 1 in the tables of shafts and disks. -/
noncomputable def shiftOf (kind : Kind) (k : String) : ℝ :=
  if kind ≠ .bearing ∧ k = "n" then 1 else 0

/-- Whether the entries of a column are changed. -/
def Changed (kind : Kind) (us rpm : Prop) (k : String) : Prop :=
  us ∧ k ∈ changedBy kind ∨ rpm ∧ kind = .bearing ∧ k = "frequency" ∨ kind ≠ .bearing ∧ k = "n"
where
  /-- The columns that depend on the units. -/
  changedBy : Kind → List String
    | .bearing => ["kxx", "cxx", "kyy", "kxy", "kyx", "cyy", "cxy", "cyx"]
    | .shaft _ => ["L", "idl", "odl", "idr", "odr", "axial_force"]
    | .disk => ["m", "Id", "Ip"]

/-- The number in a cell. -/
def numberIn : Cell → Option ℝ
  | .int z => some z
  | .num x => some x
  | _ => none

/-- The integer part. -/
noncomputable def intPart (x : ℝ) : ℤ := if 0 ≤ x then ⌊x⌋ else ⌈x⌉

/-- What a cell of column `k` becomes: a number is converted, an empty cell is NaN, and text, which
can only stand in a column that is not converted, stays. -/
def Becomes (kind : Kind) (us rpm : Prop) (k : String) (c : Cell) (v : PVal) : Prop :=
  if kind = .shaft true ∧ k = "material" then
    ∃ x, numberIn c = some x ∧ v = .str ("shaft_mat_" ++ toString (intPart x))
  else match c with
    | .int z => v = .num (((z : ℝ) - shiftOf kind k) * factorOf kind us rpm k)
    | .num x => v = .num ((x - shiftOf kind k) * factorOf kind us rpm k)
    | .blank => v = .nan
    | .str s => v = .str s ∧ ¬ Changed kind us rpm k

/-- The list `vs` that a table gives for `k`: one value for each row, from the column that is called so,
or the value `dflt` for columns that are left out.  A missing value cannot be converted. -/
def ReadsAs (kind : Kind) (us rpm : Prop) (hdr : List Cell) (rows : Sheet) (k : String)
    (dflt : Option PVal) (vs : List PVal) : Prop :=
  (∃ j, Picks hdr (namesOf kind k) j ∧
      List.Forall₂ (fun r v => Becomes kind us rpm k (r.getD j .blank) v) rows vs) ∨
    (∀ j, ¬ Picks hdr (namesOf kind k) j) ∧
      ∃ u, dflt = some u ∧ vs = List.replicate rows.length u ∧ ¬ (u = .null ∧ Changed kind us rpm k)

/-- Row `h` of the sheet is the header `hdr`, and `rows` are the rows with data below it. -/
def IsTable (kind : Kind) (sheet : Sheet) (hdr : List Cell) (rows : Sheet) : Prop :=
  ∃ h j, IsHeader (keyWord kind) sheet h ∧ sheet[h]? = some hdr ∧ Named hdr (keyWord kind) j ∧
    IsBlock j (sheet.drop (h + 1)) rows ∧ ¬ ∀ r ∈ sheet.drop (h + 1), ∀ c ∈ r, Whole c

/-! ### Materials -/

/-- Column `j` is the first one with exactly this title. -/
def Titled (hdr : List Cell) (w : String) (j : ℕ) : Prop :=
  hdr[j]? = some (.str w) ∧ ∀ i < j, hdr[i]? ≠ some (.str w)

/-- An empty cell. -/
def Blank : Cell → Prop
  | .blank => True
  | _ => False

/-- What a cell with a property of a material becomes. -/
def Scaled (us : Prop) (f : ℝ) (c : Cell) (v : PVal) : Prop :=
  match c with
  | .int z => us ∧ v = .num (z * f) ∨ ¬ us ∧ v = .num z
  | .num x => us ∧ v = .num (x * f) ∨ ¬ us ∧ v = .num x
  | .blank => v = .nan
  | .str s => ¬ us ∧ v = .str s

/-- What a cell with a color becomes. -/
def Colored (c : Cell) (v : PVal) : Prop :=
  match c with
  | .int z => v = .num z
  | .num x => v = .num x
  | .blank => v = .str "#525252"
  | .str s => v = .str s

/-- `rows` are the rows of the table of materials with header `hdr`: the rows below it up to the first
one without a number of a material. -/
def IsMaterials (sheet : Sheet) (hdr : List Cell) (rows : Sheet) : Prop :=
  ∃ h post, IsHeader "matno" sheet h ∧ sheet[h]? = some hdr ∧ sheet.drop (h + 1) = rows ++ post ∧
    (sheet.drop (h + 1) ≠ [] → ∃ j, Titled hdr "matno" j ∧
      (∀ r ∈ rows, ¬ Blank (r.getD j .blank)) ∧ ∀ r ∈ post.head?, Blank (r.getD j .blank))

/-- The list `vs` holds what `P` says of the cells of the column `w`. -/
def FromColumn (hdr : List Cell) (rows : Sheet) (w : String) (P : Cell → PVal → Prop)
    (vs : List PVal) : Prop :=
  ∃ j, (rows ≠ [] → Titled hdr w j) ∧ List.Forall₂ (fun r v => P (r.getD j .blank) v) rows vs

end Ross.Spec
