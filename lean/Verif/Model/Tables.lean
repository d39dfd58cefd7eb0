import Verif.Model.Basic
import Mathlib.Algebra.Order.Floor.Ring
import Mathlib.Algebra.Order.Archimedean.Real.Basic

/-!
# Model of reading tables

`ross/utils.py` 18-310, `read_table_file`.  A sheet is the list of its rows of cells as
`pd.read_excel(..., header=None)` gives it; all rows have the same number of cells, which is at least
two (pandas skips empty lines of sheets with one column).  Reading it again with `header=h` makes row
`h` the names of the columns and the rows below it the data: pandas names a column without name
`Unnamed: i`.  Two columns whose names differ only by upper and lower case are not modelled: the first
one is read.  Cells with dates or booleans and letters outside ASCII are not modelled either.
-/

namespace Ross

/-- A cell; pandas reads whole numbers as integers and empty cells as NaN. -/
inductive Cell
  | int (z : ℤ)
  | num (x : ℝ)
  | str (s : String)
  | blank

/-- The rows of a sheet. -/
abbrev Sheet := List (List Cell)

/-- An entry of the lists that are returned. -/
inductive PVal
  | num (x : ℝ)
  | nan
  | str (s : String)
  | bool (b : Bool)
  | null

/-- A value of the dictionary that is returned. -/
inductive TableParam
  | one (n : ℕ)
  | list (l : List PVal)

namespace Tables

/-- `isinstance(cell, str)`. -/
def isStr : Cell → Bool
  | .str _ => true
  | _ => false

/-- `s.lower()`. -/
def lower (s : String) : String := String.ofList (s.toList.map Char.toLower)

/-- `p in s`. -/
def hasSub (p s : String) : Bool := s.toList.tails.any fun t => p.toList.isPrefixOf t

/-- The arguments `element` and `sheet_type`. -/
inductive Kind
  | bearing
  | shaft (model : Bool)
  | disk
  deriving DecidableEq

/-- `header_key_word` (`utils.py` 57, 75-78, 110). -/
def headerKey : Kind → String
  | .bearing => "kxx"
  | .shaft true => "od_left"
  | .shaft false => "material"
  | .disk => "ip"

/-- `parameter_columns` (`utils.py` 58-59, 79-84, 111-114), in the order of insertion. -/
def requiredColumns : Kind → List (String × List String)
  | .bearing => [("kxx", ["kxx"]), ("cxx", ["cxx"])]
  | .shaft _ =>
    [("L", ["length"]), ("idl", ["i_d_l", "idl", "id_left"]), ("odl", ["o_d_l", "odl", "od_left"]),
     ("idr", ["i_d_r", "idr", "id_right"]), ("odr", ["o_d_r", "odr", "od_right"]),
     ("material", ["material", "matnum"])]
  | .disk => [("n", ["unnamed: 0", "n"]), ("m", ["m", "mass"]), ("Id", ["it", "id"]), ("Ip", ["ip"])]

/-- `optional_parameter_columns` with `default_dictionary` (`utils.py` 60-73, 85-108). -/
def optionalColumns : Kind → List (String × List String × PVal)
  | .bearing =>
    [("kyy", ["kyy"], .null), ("kxy", ["kxy"], .num 0), ("kyx", ["kyx"], .num 0),
     ("cyy", ["cyy"], .null), ("cxy", ["cxy"], .num 0), ("cyx", ["cyx"], .num 0),
     ("frequency", ["frequency", "speed"], .null)]
  | .shaft _ =>
    [("n", ["n", "elemnum"], .null), ("axial_force", ["axial_force", "axial force", "axial"], .num 0),
     ("torque", ["torque"], .num 0), ("shear_effects", ["shear_effects", "shear effects"], .bool true),
     ("rotary_inertia", ["rotary_inertia", "rotary inertia"], .bool true),
     ("gyroscopic", ["gyroscopic"], .bool true),
     ("shear_method_calc", ["shear_method_calc", "shear method calc"], .str "cowper")]
  | .disk => []

/-! ### The header and the units -/

/-- `header_index` (`none` until the header is found), `convert_to_metric`,
`convert_to_rad_per_sec`. -/
structure Scan where
  header : Option ℕ
  metric : Bool
  rpm : Bool

/-- The tests on one cell (`utils.py` 123-135). -/
def scanCell (key : String) (index : ℕ) (st : Scan) : Cell → Scan
  | .str s =>
    let st := if st.header.isNone then
        (if lower s = key then { st with header := some index } else st)
      else st
    let st := if hasSub "inches" (lower s) || hasSub "lbm" (lower s) || hasSub "lb" (lower s) then
        { st with metric := true }
      else st
    if hasSub "rpm" (lower s) then { st with rpm := true } else st
  | _ => st

/-- The loop over the cells of a row (`utils.py` 122-137). -/
def scanRow (key : String) (index : ℕ) : Scan → List Cell → Scan
  | st, [] => st
  | st, c :: t =>
    let st' := scanCell key index st c
    if isStr c && st'.header.isSome && st'.metric && st'.rpm then st' else scanRow key index st' t

/-- The loop over the rows (`utils.py` 121-139). -/
def scan (key : String) : ℕ → Scan → Sheet → Scan
  | _, st, [] => st
  | i, st, row :: t =>
    let st' := scanRow key i st row
    if st'.header.isSome && st'.metric then st' else scan key (i + 1) st' t

/-! ### Columns -/

/-- The names of the columns, in lower case (`utils.py` 203-204); a number is no name. -/
def names (header : List Cell) : List (Option String) :=
  header.mapIdx fun i c =>
    match c with
    | .str s => some (lower s)
    | .blank => some ("unnamed: " ++ toString i)
    | _ => none

/-- The names of the columns as they are (`utils.py` 168-170). -/
def rawNames (header : List Cell) : List (Option String) :=
  header.mapIdx fun i c =>
    match c with
    | .str s => some s
    | .blank => some ("Unnamed: " ++ toString i)
    | _ => none

/-- The place of a column, `none` for `KeyError`. -/
def column (nm : List (Option String)) (k : String) : Option ℕ := nm.findIdx? (· = some k)

/-- The entry of a row. -/
def cellAt (row : List Cell) (j : ℕ) : Cell := row.getD j .blank

/-- A cell as a Python value. -/
def PVal.ofCell : Cell → PVal
  | .int z => .num z
  | .num x => .num x
  | .str s => .str s
  | .blank => .nan

/-! ### The rows with data -/

/-- Whether all cells are integers: the rows of the data frame are then arrays of `numpy.int64`, which
are not instances of `int`. -/
def allInt (rows : Sheet) : Bool :=
  rows.all fun r => r.all fun c => match c with
    | .int _ => true
    | _ => false

/-- `(isinstance(x, int) or isinstance(x, float)) and not pd.isna(x)` (`utils.py` 213-217). -/
def isNumber (ints : Bool) : Cell → Bool
  | .int _ => !ints
  | .num _ => true
  | _ => false

/-- The loop that finds and isolates the rows with data (`utils.py` 207-239): `first_data_row_found`
and the rows that are not dropped. -/
def isolate (data : List Cell → Bool) : Bool → Bool → Sheet → Bool × Sheet
  | first, _, [] => (first, [])
  | first, last, row :: t =>
    if !first && data row then
      let r := isolate data true last t
      (r.1, row :: r.2)
    else if !first then isolate data first last t
    else if first && !last then
      if data row then
        let r := isolate data first last t
        (r.1, row :: r.2)
      else isolate data first true t
    else isolate data first last t

/-! ### Building the lists -/

/-- `df[name].tolist()` for the first of the names that is a column. -/
def firstColumn (nm : List (Option String)) (aliases : List String) : Option ℕ :=
  aliases.findSome? (column nm)

/-- The values of a column. -/
def values (rows : Sheet) (j : ℕ) : List PVal := rows.map fun r => PVal.ofCell (cellAt r j)

/-- One pass of the loop over the required columns (`utils.py` 244-254). -/
def required (nm : List (Option String)) (rows : Sheet) (kv : String × List String) :
    Res (String × TableParam) :=
  match firstColumn nm kv.2 with
  | some j => .ok (kv.1, .list (values rows j))
  | none => .error .valueError

/-- One pass of the loop over the optional columns (`utils.py` 255-264). -/
def optional (nm : List (Option String)) (rows : Sheet) (kv : String × List String × PVal) :
    String × TableParam :=
  match firstColumn nm kv.2.1 with
  | some j => (kv.1, .list (values rows j))
  | none => (kv.1, .list (List.replicate rows.length kv.2.2))

/-- `x * f`: text and `None` cannot be multiplied by a float. -/
noncomputable def times (f : ℝ) : PVal → Res PVal
  | .num x => .ok (.num (x * f))
  | .nan => .ok .nan
  | .bool b => .ok (.num ((if b then 1 else 0) * f))
  | _ => .error .typeError

/-- `x - 1`. -/
noncomputable def minusOne : PVal → Res PVal
  | .num x => .ok (.num (x - 1))
  | .nan => .ok .nan
  | .bool b => .ok (.num ((if b then 1 else 0) - 1))
  | _ => .error .typeError

/-- `int(x)`: truncates a float; texts are taken not to be numerals. -/
noncomputable def toInt : PVal → Res ℤ
  | .num x => .ok (if 0 ≤ x then ⌊x⌋ else ⌈x⌉)
  | .nan => .error .valueError
  | .str _ => .error .valueError
  | .bool b => .ok (if b then 1 else 0)
  | .null => .error .typeError

/-- `"shaft_mat_" + str(int(x))` (`utils.py` 265-270). -/
noncomputable def materialName (x : PVal) : Res PVal := do
  let z ← toInt x
  pure (.str ("shaft_mat_" ++ toString z))

/-- Changes the list of one key. -/
def change (k : String) (f : PVal → Res PVal) (d : Dict String TableParam) : Res (Dict String TableParam) :=
  d.mapM fun kv =>
    match kv.2 with
    | .list l => if kv.1 = k then do
        let l' ← l.mapM f
        pure (kv.1, .list l')
      else pure kv
    | .one _ => pure kv

/-- The conversion factors (`utils.py` 279-302), key by key: the code converts row by row, which gives
the same lists and the same exception. -/
noncomputable def metricFactors : Kind → List (String × ℝ)
  | .bearing =>
    [("kxx", 175.1268369864), ("cxx", 175.1268369864), ("kyy", 175.1268369864),
     ("kxy", 175.1268369864), ("kyx", 175.1268369864), ("cyy", 175.1268369864),
     ("cxy", 175.1268369864), ("cyx", 175.1268369864)]
  | .shaft _ =>
    [("L", 0.0254), ("idl", 0.0254), ("odl", 0.0254), ("idr", 0.0254), ("odr", 0.0254),
     ("axial_force", 4.448221615255)]
  | .disk => [("m", 0.45359237), ("Id", 0.0002926397), ("Ip", 0.0002926397)]

/-- `if p: x = f(x)`. -/
def onlyIf {α : Type} (p : Prop) [Decidable p] (f : α → Res α) (x : α) : Res α :=
  if p then f x else pure x

/-- `df[k]`. -/
def columnOf (nm : List (Option String)) (k : String) : Res ℕ :=
  match column nm k with
  | none => .error .keyError
  | some j => .ok j

/-- `isinstance(cell, str)` and `cell.lower() == "matno"` (`utils.py` 154-155). -/
def isMatno : Cell → Bool
  | .str s => lower s = "matno"
  | _ => false

/-- The row of the header of the materials (`utils.py` 150-167). -/
def materialHeader (sheet : Sheet) : Res ℕ :=
  match sheet.findIdx? (fun row => row.any isMatno) with
  | none => .error .valueError
  | some h => .ok h

/-- `not pd.isna(cell)` (`utils.py` 177). -/
def notBlank : Cell → Bool
  | .blank => false
  | _ => true

/-- The rows of the materials (`utils.py` 168-182): those below the header until the first row without a
number of a material. -/
def materialRows (nm : List (Option String)) (body : Sheet) : Res Sheet :=
  if body.isEmpty then pure []
  else do
    let j ← columnOf nm "matno"
    pure (body.takeWhile fun r => notBlank (cellAt r j))

/-- The values of a property (`utils.py` 176-191); a column is looked up when there is a row. -/
def property (nm : List (Option String)) (rows : Sheet) (k : String) : Res (List PVal) :=
  if rows.isEmpty then pure []
  else do
    let j ← columnOf nm k
    pure (values rows j)

/-- The colors (`utils.py` 176-191). -/
def colors (nm : List (Option String)) (rows : Sheet) : List PVal :=
  match column nm "color" with
  | none => List.replicate rows.length (PVal.str "#525252")
  | some j => (values rows j).map fun v => match v with
    | .nan => .str "#525252"
    | v => v

/-- The table of materials of a "Model" sheet (`utils.py` 148-201).  A missing column is looked for
before the numbers of the materials are read. -/
noncomputable def materials (sheet : Sheet) (metric : Bool) : Res (Dict String TableParam) := do
  let h ← materialHeader sheet
  let nm := rawNames (sheet.getD h [])
  let rows ← materialRows nm (sheet.drop (h + 1))
  let no ← property nm rows "matno"
  let rho ← property nm rows "rhoa"
  let e ← property nm rows "ea"
  let g ← property nm rows "ga"
  let no ← no.mapM toInt
  -- 192-201
  let rho ← onlyIf (metric = true) (fun l => l.mapM (times 27679.904)) rho
  let e ← onlyIf (metric = true) (fun l => l.mapM (times 6894.757)) e
  let g ← onlyIf (metric = true) (fun l => l.mapM (times 6894.757)) g
  pure [("matno", .list (no.map fun z : ℤ => PVal.num z)), ("rhoa", .list rho), ("ea", .list e),
    ("ga", .list g), ("color", .list (colors nm rows))]

/-- Conversions of the lists (`utils.py` 265-308). -/
noncomputable def convertAll (kind : Kind) (metric rpm : Bool) (d : Dict String TableParam) :
    Res (Dict String TableParam) := do
  -- 265-270
  let d ← onlyIf (kind = .shaft true) (change "material" materialName) d
  -- 273-277
  let d ← onlyIf (kind ≠ .bearing) (change "n" minusOne) d
  -- 279-302
  let d ← onlyIf (metric = true)
    (fun d => (metricFactors kind).foldlM (fun d kf => change kf.1 (times kf.2) d) d) d
  -- 303-308
  onlyIf (rpm = true ∧ kind = .bearing) (change "frequency" (times 0.1047197551197)) d

/-- `read_table_file(file, element, sheet_name, n, sheet_type)` on the content of the sheet
(`utils.py` 48-310); a `DataNotFoundError` is `.exception`. -/
noncomputable def readTable (sheet : Sheet) (kind : Kind) (n : ℕ) : Res (Dict String TableParam) := do
  let st := scan (headerKey kind) 0 ⟨none, false, false⟩ sheet
  -- 140-145
  match st.header with
  | none => .error .valueError
  | some h => do
    -- 148-201
    let mats ← onlyIf (kind = .shaft true) (fun _ => materials sheet st.metric) []
    let nm := names (sheet.getD h [])
    let body := sheet.drop (h + 1)
    -- 203-239
    let data := fun row => match column nm (headerKey kind) with
      | some j => isNumber (allInt body) (cellAt row j)
      | none => false
    let (found, rows) := isolate data false false body
    if !found then .error .exception
    else do
      -- 242-264
      let req ← (requiredColumns kind).mapM (required nm rows)
      let d : Dict String TableParam :=
        (if kind = .bearing then [("n", TableParam.one n)] else []) ++ req ++
          (optionalColumns kind).map (optional nm rows)
      let d ← convertAll kind st.metric st.rpm d
      -- 309
      pure (d ++ mats)

end Tables

end Ross
