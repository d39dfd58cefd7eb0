import Verif.Model.Static

/-!
# Summary tables

`Rotor.summary` (`rotor_assembly.py` 3299-3334) and the tables of `SummaryResults.plot` (`results.py` 4222-4374).  The data
frames of disks and bearings are kept as the elements with the columns that merging adds; the other columns are attributes
of the elements (`element.py` 202-204).  The formats `{:.3f}`, `{:.3e}` and `{:.2e}` are not modelled: the tables hold the
numbers themselves.  The column "Shaft number" is zero for every element and is left out, and so are colors and fonts.
-/

namespace Ross

namespace Summary

/-- A data frame of elements with the names and values of the columns added to it. -/
structure SumFrame (α : Type) where
  cols : List String
  rows : List (α × List (Option ℝ))

/-- `pd.DataFrame([el.summary() for el in elements])`, `rotor_assembly.py` 254-262. -/
def frameOf {α : Type} (l : List α) : SumFrame α := ⟨[], l.map fun x => (x, [])⟩

/-- The values of `df` that a left join on the tag finds, NaN if there are none. -/
def joined (df : List Row) (t : Option String) : List (Option ℝ) :=
  match (df.filter fun x => x.tag = t).map (·.nodes_pos_l) with
  | [] => [none]
  | l => l

/-- The names of the columns after merging with a column `nodes_pos_l`: pandas appends `_x` and `_y` to names that occur
in both frames. -/
def mergedCols (cols : List String) : List String :=
  if "nodes_pos_l" ∈ cols then
    (cols.map fun c => if c = "nodes_pos_l" then "nodes_pos_l_x" else c) ++ ["nodes_pos_l_y"]
  else cols ++ ["nodes_pos_l"]

/-- `pd.merge(frame, self.df[["tag", "nodes_pos_l"]], on="tag", how="left")`, `rotor_assembly.py` 3317-3322.  The frame of no
elements has no column `tag`: `KeyError`.  Columns that get the same name are a `MergeError`, which is a `ValueError`. -/
def merge {α : Type} (tag : α → Option String) (df : List Row) (f : SumFrame α) : Res (SumFrame α) :=
  if f.rows.length = 0 then .error .keyError
  else if (mergedCols f.cols).Nodup then
    .ok ⟨mergedCols f.cols, f.rows.flatMap fun x => (joined df (tag x.1)).map fun z => (x.1, x.2 ++ [z])⟩
  else .error .valueError

/-- `SummaryResults`, `results.py` 4213-4220; `df_shaft` is kept as the rotor's shaft with its positions. -/
structure SummaryResults where
  shaft : List (ShaftEl × (ℝ × ℝ) × ℝ)
  df_disks : SumFrame DiskEl
  df_bearings : SumFrame BrgEl
  brg_forces : Dict (Option String) ℝ
  CG : ℝ
  Ip : ℝ
  tag : String

/-- A rotor with its frames of disks and bearings, `rotor_assembly.py` 308-309. -/
structure State where
  rotor : Rotor
  df_disks : SumFrame DiskEl
  df_bearings : SumFrame BrgEl

/-- A rotor just constructed; the frame of bearings is without the seals, `rotor_assembly.py` 256-262. -/
def start (r : Rotor) : State := ⟨r, frameOf r.disks, frameOf (r.bearings.filter fun b => !b.isSeal)⟩

/-- `Rotor.summary()`, `rotor_assembly.py` 3317-3334: the outcome (`none`: an auxiliary rotor is not finished) and the rotor
afterwards, whose frames are the merged ones. -/
noncomputable def summary (pd : Pandas) (sp : Scipy) (fuel : ℕ) (s : State) : Option (Res SummaryResults) × State :=
  match merge (fun e => e.d.tag) s.rotor.df s.df_disks with
  | .error e => (some (.error e), s)
  | .ok dk =>
    match merge BrgEl.tag s.rotor.df s.df_bearings with
    | .error e => (some (.error e), { s with df_disks := dk })
    | .ok br =>
      let s' : State := ⟨s.rotor, dk, br⟩
      match s.rotor.run_static pd sp fuel with
      | none => (none, s')
      | some (.error e) => (some (.error e), s')
      | some (.ok st) => (some (.ok {
          shaft := s.rotor.shaft.zip ((Rotor.shaftPos s.rotor.shaft).zip s.rotor.axial_cg_pos)
          df_disks := dk, df_bearings := br, brg_forces := st.bearing_forces_tag
          CG := s.rotor.CG, Ip := s.rotor.Ip, tag := s.rotor.tag }), s')

/-- A line of "Shaft Element data", `results.py` 4236-4248. -/
structure ShaftLine where
  n_l : ℕ
  n_r : ℕ
  n : ℕ
  left : ℝ
  L : ℝ
  cg : ℝ
  right : ℝ
  material : String
  m : ℝ
  Im : ℝ

/-- "Rotor data", `results.py` 4250-4261. -/
structure RotorLine where
  tag : String
  first : ℕ
  last : ℕ
  start : ℝ
  length : ℝ
  CG : ℝ
  Ip : ℝ
  mass : ℝ

/-- A line of "Disk Element data", `results.py` 4263-4270. -/
structure DiskLine where
  tag : Option String
  n : ℕ
  pos : Option ℝ
  m : ℝ
  Ip : ℝ

/-- A line of "Bearing Element data" but for its last column, `results.py` 4272-4277. -/
structure BearingLine where
  tag : Option String
  n : ℕ
  n_link : Option ℕ
  pos : Option ℝ

/-- The tables drawn; the column of forces has its own length. -/
structure Tables where
  rotor : RotorLine
  shaft : List ShaftLine
  disks : List DiskLine
  bearings : List BearingLine
  forces : List ℝ

/-- `frame["nodes_pos_l"]`, with the elements. -/
def column {α : Type} (f : SumFrame α) : Res (List (α × Option ℝ)) :=
  if "nodes_pos_l" ∈ f.cols then
    .ok (f.rows.map fun x => (x.1, (x.2[f.cols.idxOf "nodes_pos_l"]?).getD none))
  else .error .keyError

/-- A line of the shaft's table. -/
noncomputable def shaftLine (x : ShaftEl × (ℝ × ℝ) × ℝ) : ShaftLine where
  n_l := Rotor.nodeOf x.1
  n_r := Rotor.nodeOf x.1 + 1
  n := Rotor.nodeOf x.1
  left := x.2.1.1
  L := x.1.s.L
  cg := x.2.2
  right := x.2.1.2
  material := x.1.s.material.name
  m := x.1.s.m
  Im := x.1.s.Im

/-- `SummaryResults.plot()`, `results.py` 4234-4279: the content of its tables.  `.iloc[0]` of no elements is an
`IndexError`. -/
noncomputable def plot (s : SummaryResults) : Res Tables :=
  match s.shaft.head?, s.shaft.getLast? with
  | some a, some b => do
    let dk ← column s.df_disks
    let br ← column s.df_bearings
    pure {
      rotor := {
        tag := s.tag
        first := Rotor.nodeOf a.1
        last := Rotor.nodeOf b.1 + 1
        start := a.2.1.1
        length := b.2.1.2
        CG := s.CG
        Ip := s.Ip
        mass := (s.shaft.map fun x => x.1.s.m).sum + (s.df_disks.rows.map fun x => x.1.d.m).sum }
      shaft := s.shaft.map shaftLine
      disks := dk.map fun x => ⟨x.1.d.tag, x.1.d.n, x.2, x.1.d.m, x.1.d.Ip⟩
      bearings := br.map fun x => ⟨x.1.tag, x.1.n, x.1.n_link, x.2⟩
      forces := s.brg_forces.map fun kv => kv.2 }
  | _, _ => .error .indexError

end Summary

end Ross
