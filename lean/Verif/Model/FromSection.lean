import Verif.Model.Convergence
import Verif.Model.Section

/-! # Model of `Rotor.from_section` (`ross/rotor_assembly.py` 3337-3550) -/

namespace Ross

/-- `material_data`: one material or a list of materials. -/
inductive MaterialData where
  | one (m : Material)
  | many (ms : List Material)

/-- Arguments of `Rotor.from_section` (`rotor_assembly.py` 3337-3352).  `nel_r` is a natural number
(for a negative one `range(nel_r)` is empty and the constructor refuses the empty shaft).  `disk_data`
and `brg_seal_data` are lists of elements, as in the example of the docstring. -/
structure SectionArgs where
  leng_data : List ℝ
  idl_data : List ℝ
  odl_data : List ℝ
  idr_data : Option (List ℝ) := none
  odr_data : Option (List ℝ) := none
  material_data : Option MaterialData := none
  disk_data : Option (List DiskEl) := none
  brg_seal_data : Option (List BrgEl) := none
  min_w : Option ℝ := none
  max_w : Option ℝ := none
  rated_w : Option ℝ := none
  nel_r : ℕ := 1
  tag : Option String := none

/-- `l[i]` for a non-negative index. -/
def listItem {α : Type} (l : List α) (i : ℕ) : Res α :=
  match l[i]? with
  | none => .error .indexError
  | some x => .ok x

/-- `material_data[i]` in the loop over a list (3478), `material_data` in the loop for one material
(3506). -/
def MaterialData.at (m : MaterialData) (i : ℕ) : Res Material :=
  match m with
  | .one m => .ok m
  | .many ms => listItem ms i

/-- The body of the loop over the regions (`rotor_assembly.py` 3460-3484 and 3486-3511).  The formulas
are those of `ShaftElement.section`; node and tag are left to the constructor of the rotor. -/
noncomputable def regionElems (nel_r : ℕ) (idl_data odl_data idr_data odr_data : List ℝ)
    (m : MaterialData) (i : ℕ) (leng : ℝ) : Res (List ShaftElement) := do
  -- 3461: `leng / nel_r`
  if nel_r = 0 then throw .zeroDivisionError
  let idr ← listItem idr_data i
  let idl ← listItem idl_data i
  let odr ← listItem odr_data i
  let odl ← listItem odl_data i
  let mat ← m.at i
  ShaftElement.sectionElems leng nel_r idl odl (some idr) (some odr) (some mat) none true true true 0 0

/-- Arguments of the call `cls(…)` at the end of `Rotor.from_section` (`rotor_assembly.py`
3423-3550).  A `Material` has no `len`, so `len(material_data)` raises the `TypeError` that selects
the second loop (3485). -/
noncomputable def sectionArgs (a : SectionArgs) : Res RotorArgs := do
  -- 3423-3426
  if a.leng_data.length ≠ a.odl_data.length ∨ a.leng_data.length ≠ a.idl_data.length then
    throw .valueError
  -- 3428-3429
  match a.material_data with
  | none => throw .attributeError
  | some m =>
    -- 3431-3439
    let idr_data := a.idr_data.getD a.idl_data
    let odr_data := a.odr_data.getD a.odl_data
    if a.odr_data.isSome ∧ (a.leng_data.length ≠ odr_data.length ∨
        a.leng_data.length ≠ idr_data.length) then
      throw .valueError
    -- 3453-3457
    match m with
    | .many ms => if a.leng_data.length ≠ ms.length then throw .indexError
    | .one _ => pure ()
    let regions ← a.leng_data.zipIdx.mapM fun p =>
      regionElems a.nel_r a.idl_data a.odl_data idr_data odr_data m p.2 p.1
    -- 3515-3520: iterating over `None` raises `TypeError`
    let disks ← match a.disk_data with
      | none => throw .typeError
      | some l => pure (l.map (scaleDisk a.nel_r))
    -- 3522-3527
    let bearings ← match a.brg_seal_data with
      | none => throw .typeError
      | some l => pure (l.map (scaleBrg a.nel_r))
    pure
      { shaft := regions.flatten.map fun s => Nest.el ⟨false, s⟩
        disks := disks
        bearings := bearings
        min_w := a.min_w
        max_w := a.max_w
        rated_w := a.rated_w
        tag := a.tag }

/-- `Rotor.from_section` (`rotor_assembly.py` 3337-3550). -/
noncomputable def fromSection (pd : Pandas) (fuel : ℕ) (a : SectionArgs) : Option (Res Rotor) :=
  match sectionArgs a with
  | .error e => some (.error e)
  | .ok b => Rotor.init pd fuel b

end Ross
