import Mathlib.Data.Real.Basic
import Verif.Model.Basic

/-! # Model of `ross/materials.py` -/

namespace Ross

/-- The attributes of a `Material` object (`materials.py` 60, 79-83). -/
structure Material where
  name : String
  rho : ℝ
  E : ℝ
  G_s : ℝ
  Poisson : ℝ
  color : String

namespace Material

/-- The number of arguments that are not `None` (`materials.py` 64-67). -/
def given (E G_s Poisson : Option ℝ) : ℕ :=
  (if E.isSome then 1 else 0) + (if G_s.isSome then 1 else 0) + (if Poisson.isSome then 1 else 0)

open Classical in
/-- Python `/` on floats: a zero divisor raises. -/
noncomputable def pyDiv (a b : ℝ) : Res ℝ :=
  if b = 0 then .error .zeroDivisionError else .ok (a / b)

/-- `Material.__init__` (`materials.py` 57-83).  `float(...)` is the identity on reals;
unit conversion by `check_units` happens before and is modelled in `Model/Units.lean`. -/
noncomputable def init (name : String) (rho : ℝ) (E G_s Poisson : Option ℝ)
    (color : String := "#525252") : Res Material :=
  -- 61-62: `if " " in name: raise ValueError`
  if ' ' ∈ name.toList then .error .valueError
  -- 64-71
  else if given E G_s Poisson ≠ 2 then .error .valueError
  else
    match E, G_s, Poisson with
    -- 72-73: `E = G_s * (2 * (1 + Poisson))`
    | none, some g, some p => .ok ⟨name, rho, g * (2 * (1 + p)), g, p, color⟩
    -- 74-75: `G_s = E / (2 * (1 + Poisson))`
    | some e, none, some p => do
        let g ← pyDiv e (2 * (1 + p))
        .ok ⟨name, rho, e, g, p, color⟩
    -- 76-77: `Poisson = (E / (2 * G_s)) - 1`
    | some e, some g, none => do
        let q ← pyDiv e (2 * g)
        .ok ⟨name, rho, e, g, q - 1, color⟩
    -- not reachable when exactly two are given; `float(None)` raises `TypeError`
    | _, _, _ => .error .typeError

/-- The material file `available_materials.toml`: absent, or the table `Materials` from name to
the saved `__dict__` (`materials.py` 17, 176-198). -/
abbrev Lib := Option (Dict String Material)

/-- `Material.get_data` (`materials.py` 181-198): a missing file is created empty.
Returns the data and the new file. -/
def getData : Lib → Dict String Material × Lib
  | some d => (d, some d)
  | none => ([], some [])

/-- `Material.save_material` (`materials.py` 276-280). -/
def save (f : Lib) (m : Material) : Lib :=
  some ((getData f).1.set m.name m)

/-- `Material.load_material` (`materials.py` 201-226): the stored `Poisson` is dropped and the
material is rebuilt from the stored fields by `Material(**material)`. -/
noncomputable def load (f : Lib) (name : String) : Res Material × Lib :=
  let (d, f') := getData f
  match d.get? name with
  | none => (.error .keyError, f')
  | some m => (init m.name m.rho (some m.E) (some m.G_s) none m.color, f')

/-- `Material.remove_material` (`materials.py` 229-251): removing an absent name returns a
message and leaves the file alone. -/
def remove (f : Lib) (name : String) : Lib :=
  let (d, f') := getData f
  match d.get? name with
  | none => f'
  | some _ => some (d.del name)

/-- `Material.available_materials` (`materials.py` 254-274). -/
def available (f : Lib) : List String × Lib :=
  ((getData f).1.keys, (getData f).2)

/-- One call on the library. -/
inductive Op
  | save (m : Material)
  | remove (name : String)
  | load (name : String)
  | available

/-- Effect of one call on the file. -/
noncomputable def step (f : Lib) : Op → Lib
  | .save m => save f m
  | .remove n => remove f n
  | .load n => (load f n).2
  | .available => (available f).2

/-- The file after a history of calls, oldest first. -/
noncomputable def run (f : Lib) (ops : List Op) : Lib := ops.foldl step f

end Material

end Ross
