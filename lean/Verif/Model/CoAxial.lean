import Verif.Model.Rotor

/-! # Model of `CoAxialRotor.__init__` (`ross/rotor_assembly.py` 3689-4146)

Modelled: numbering, tags, order, dof check, the check for elements outside the shafts, the number of
dofs, the loop that finds the shaft of every element, the global dof numbers.  Not modelled: axial
positions, diameters, masses, drawing heights, and the exceptions that computing them can raise
(except the one for a missing list of bearings).  Bearings are `BearingElement`s and
`SealElement`s. -/

namespace Ross

namespace CoAxial

open Rotor

/-- The arguments of `CoAxialRotor.__init__`. -/
structure Args where
  shafts : List (List ShaftEl)
  disks : List DiskEl := []
  bearings : List BrgEl := []
  pms : List PmEl := []

/-- `sh.__class__.__name__`. -/
def className (e : ShaftEl) : String := if e.six then "ShaftElement6DoF" else "ShaftElement"

/-- Numbering and tagging of the elements of one shaft (`rotor_assembly.py` 3718-3722). -/
def numberOne (aux_n aux_n_tag : ℕ) (l : List ShaftEl) : List ShaftEl :=
  l.mapIdx fun i e =>
    { e with
      s := { e.s with
        n := some (e.s.n.getD (i + aux_n))
        tag := defTag (className e ++ " ") (i + aux_n_tag) e.s.tag } }

/-- The loop over the shafts (`rotor_assembly.py` 3715-3724); `shaft[-1]` of an empty shaft raises
`IndexError`.  `j` counts the shafts. -/
def number (aux_n aux_n_tag j : ℕ) : List (List ShaftEl) → Res (List (List ShaftEl))
  | [] => .ok []
  | l :: t =>
    let l' := numberOne aux_n aux_n_tag l
    match l'.getLast? with
    | none => .error .indexError
    | some e => do
      let t' ← number (nodeOf e + 2) (nodeOf e + 1 - j) (j + 1) t
      pure (l' :: t')

/-- A row of the data frame: the columns that the loop over the elements reads; point masses have no
`n_l`, `n_r`. -/
structure Row where
  tag : Option String
  n_l : Option ℕ
  n_r : Option ℕ
  n_link : Option ℕ
  shaft_number : Option ℕ

/-- `df.loc[df.tag == t, "shaft_number"] = z`. -/
def setNum (rows : List Row) (t : Option String) (z : Option ℕ) : List Row :=
  rows.map fun r => if r.tag = t then { r with shaft_number := z } else r

/-- The columns `shnum_l`, `shnum_r` found for one element (`rotor_assembly.py` 3928-3938): `none`
when both stay empty. -/
def findNum (rows : List Row) (e : Elm) : Option (Option ℕ) :=
  match e.n with
  | none => none
  | some n =>
    let shnum_l := (rows.filter fun r => r.n_l = some n ∧ r.tag ≠ e.tag).map (·.shaft_number)
    let shnum_r := (rows.filter fun r => r.n_r = some n ∧ r.tag ≠ e.tag).map (·.shaft_number)
    match shnum_l, shnum_r with
    | v :: _, _ => some v
    | [], v :: _ => some v
    | [], [] => ((rows.filter fun r => r.n_link = some n ∧ r.tag ≠ e.tag).map (·.shaft_number)).head?

/-- The loop `for elm in cycle(self.elements)` (`rotor_assembly.py` 3925-3946); `none`: not finished
after `fuel` iterations. -/
def loop (elements : List Elm) : ℕ → List Elm → List Row → List (Option String) → Option (List Row)
  | 0, _, _, _ => none
  | fuel + 1, todo, rows, pending =>
    match todo with
    | [] =>
      match elements with
      | [] => some rows
      | _ :: _ => loop elements fuel elements rows pending
    | e :: rest =>
      if pending = [] then some rows
      else if e.tag ∈ pending then
        match findNum rows e with
        | some z => loop elements fuel rest (setNum rows e.tag z) (pending.filter (· ≠ e.tag))
        | none => loop elements fuel rest rows pending
      else loop elements fuel rest rows pending

/-- The lists after numbering, tagging and sorting (`rotor_assembly.py` 3714-3757). -/
def parts (a : Args) : Res Parts := do
  let shafts ← number 0 0 0 a.shafts
  let sh₀ := shafts.flatten
  pure ⟨sh₀, sortShaft sh₀, tagDisks a.disks, sortBearings (tagBearings a.bearings), tagPms a.pms⟩

/-- The rows of the data frame (`rotor_assembly.py` 3795-3884); the rows of the shaft elements carry
the number of their shaft. -/
def rows (p : Parts) (num : ShaftEl → ℕ) : List Row :=
  (p.sh.map fun e => ⟨e.s.tag, some (nodeOf e), some (nodeOf e + 1), none, some (num e)⟩) ++
  (p.dk.map fun e => ⟨e.d.tag, some e.d.n, some e.d.n, none, none⟩) ++
  (p.br.map fun b => ⟨b.tag, some b.n, some b.n, b.n_link, none⟩) ++
  (p.pm.map fun q => ⟨q.tag, none, none, none, none⟩)

/-- The elements without shaft number: all but the shaft elements (`rotor_assembly.py` 3920-3924). -/
def unassigned (p : Parts) : List (Option String) :=
  p.dk.map (·.d.tag) ++ p.br.map BrgEl.tag ++ p.pm.map PmEl.tag

/-- A constructed coaxial rotor. -/
structure Rotor' where
  elements : List Elm
  number_dof : ℕ
  ndof : ℕ
  placed : List (Elm × Dict DofKey ℕ)
  df : List Row

/-- `4 * max(n) + 8 + 2 * len(point_masses)` (`rotor_assembly.py` 3914-3918), for any `number_dof`. -/
def ndofOf (sh₀ : List ShaftEl) (pm : List PmEl) : ℕ :=
  4 * maxOr0 (sh₀.map nodeOf) + 8 + 2 * pm.length

/-- `CoAxialRotor.__init__` (`rotor_assembly.py` 3689-4024) up to the placement of the elements.
`num` gives the shaft of a shaft element, `sort` is `df.sort_values(by="n_l")`.  `none`: not finished
after `fuel` iterations of the loop over the elements. -/
def init (sort : List Row → List Row) (num : ShaftEl → ℕ) (fuel : ℕ) (a : Args) :
    Option (Res Rotor') :=
  match parts a with
  | .error e => some (.error e)
  | .ok p =>
    match checkNumberDof p.sh p.dk p.br with
    | .error e => some (.error e)
    | .ok number_dof =>
      -- 3851: `df_bearings["n_link"]` of an empty frame
      if p.br.all BrgEl.isSeal then some (.error .keyError)
      -- 3890-3897
      else if outside p.sh p.dk p.br p.pm then some (.error .valueError)
      else
        match loop p.elements fuel p.elements (sort (rows p num)) (unassigned p) with
        | none => none
        | some df =>
          -- 3978-4013: the numbers 4 and 2 are fixed
          match p.elements.mapM (place 4 (lastNode p.sh)) with
          | .error e => some (.error e)
          | .ok placed => some (.ok ⟨p.elements, number_dof, ndofOf p.sh₀ p.pm, placed, df⟩)

end CoAxial

end Ross
