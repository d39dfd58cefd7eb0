import Mathlib.LinearAlgebra.Matrix.NonsingularInverse
import Mathlib.Data.Matrix.Block
import Verif.Model.Rotor

/-! # Model of the rotor matrices (`ross/rotor_assembly.py` 924-1162) -/

namespace Ross

open Matrix

namespace LMat

/-- `E[p, q]`; only used below the size of `E`. -/
def ent (E : LMat) (p q : ℕ) : ℝ :=
  if h : p < E.1 ∧ q < E.1 then E.2 ⟨p, h.1⟩ ⟨q, h.2⟩ else 0

end LMat

/-- Index of the last occurrence of `i` in `l`. -/
def lastIdx (l : List ℕ) (i : ℕ) : Option ℕ :=
  match l with
  | [] => none
  | a :: t =>
    match lastIdx t i with
    | some p => some (p + 1)
    | none => if a = i then some 0 else none

/-- `A[np.ix_(dofs, dofs)] += E` (`rotor_assembly.py` 979, 1014-1017, 1088-1091, 1116).  Reading out
of range raises `IndexError`, adding arrays of different shapes raises `ValueError`
(no element matrix has a shape that numpy would broadcast).  numpy adds on a gathered copy and then
assigns, so for a repeated index only the last occurrence takes effect. -/
def ixAdd {N : ℕ} (A : Matrix (Fin N) (Fin N) ℝ) (dofs : List ℕ) (E : LMat) :
    Res (Matrix (Fin N) (Fin N) ℝ) :=
  if dofs.any (fun d => N ≤ d) then .error .indexError
  else if E.1 ≠ dofs.length then .error .valueError
  else .ok fun i j =>
    match lastIdx dofs i, lastIdx dofs j with
    | some p, some q => A i j + E.ent p q
    | _, _ => A i j

/-- Change of one entry of a matrix of unknown size: row `i` of the result. -/
def syncShaft {k : ℕ} (M G : Matrix (Fin k) (Fin k) ℝ) : Matrix (Fin k) (Fin k) ℝ :=
  fun i j =>
    let g (q : ℕ) : ℝ := LMat.ent ⟨k, G⟩ i q
    if i.val < 8 then
      if i.val = 0 ∨ i.val = 3 ∨ i.val = 4 ∨ i.val = 7 then
        if j.val = 0 then M i j - g 1
        else if j.val = 3 then M i j + g 2
        else if j.val = 4 then M i j - g 5
        else if j.val = 7 then M i j + g 6
        else M i j
      else
        if j.val = 1 then M i j + g 0
        else if j.val = 2 then M i j - g 3
        else if j.val = 5 then M i j + g 4
        else if j.val = 6 then M i j - g 7
        else M i j
    else M i j

/-- The change for disks (`rotor_assembly.py` 974-977). -/
def syncDisk {k : ℕ} (M G : Matrix (Fin k) (Fin k) ℝ) : Matrix (Fin k) (Fin k) ℝ :=
  fun i j =>
    if i.val = 2 ∧ j.val = 2 then M i j - LMat.ent ⟨k, G⟩ 2 3
    else if i.val = 3 ∧ j.val = 3 then M i j + LMat.ent ⟨k, G⟩ 3 2
    else M i j

/-- The element mass matrix used by `Rotor.M` (`rotor_assembly.py` 954-977). -/
noncomputable def Elm.Msync (ω : ℝ) (synchronous : Bool) (e : Elm) : Res LMat :=
  if synchronous then
    match e with
    | .shaft ⟨false, s⟩ => .ok ⟨8, syncShaft s.M s.G⟩
    | .shaft ⟨true, s⟩ => .ok ⟨12, syncShaft s.M₆ s.G₆⟩
    | .disk ⟨false, d⟩ => .ok ⟨4, syncDisk d.M d.G⟩
    | .disk ⟨true, d⟩ => .ok ⟨6, syncDisk d.M₆ d.G₆⟩
    | e => e.M ω
  else e.M ω

namespace Rotor

variable (r : Rotor)

/-- One pass `for elm in elements: A0[np.ix_(dofs, dofs)] += elm.X(...)`. -/
def assemble (N : ℕ) (mat : Elm → Res LMat) (l : List (Elm × Dict DofKey ℕ)) :
    Res (Matrix (Fin N) (Fin N) ℝ) :=
  l.foldlM (fun A x => do
    let E ← mat x.1
    ixAdd A x.2.values E) 0

/-- `Rotor.M` (`rotor_assembly.py` 924-982). -/
noncomputable def M (frequency : Option ℝ := none) (synchronous : Bool := false) :
    Res (Matrix (Fin r.ndof) (Fin r.ndof) ℝ) :=
  assemble r.ndof (Elm.Msync (frequency.getD 0) synchronous) r.placed

/-- `set(self.elements) - set(ignore)` in the order of `self.elements`
(`rotor_assembly.py` 1008, 1082): elements are hashed and compared by their tag, which is unique in
a rotor, so `ignore` is given as a list of tags. -/
def keep (ignore : List (Option String)) : List (Elm × Dict DofKey ℕ) :=
  r.placed.filter fun x => x.1.tag ∉ ignore

/-- `Rotor.K` (`rotor_assembly.py` 984-1019). -/
noncomputable def K (frequency : ℝ) (ignore : List (Option String) := []) :
    Res (Matrix (Fin r.ndof) (Fin r.ndof) ℝ) :=
  assemble r.ndof (Elm.K frequency) (r.keep ignore)

/-- `Rotor.C` (`rotor_assembly.py` 1058-1093). -/
noncomputable def C (frequency : ℝ) (ignore : List (Option String) := []) :
    Res (Matrix (Fin r.ndof) (Fin r.ndof) ℝ) :=
  assemble r.ndof (Elm.C frequency) (r.keep ignore)

/-- `Rotor.G` (`rotor_assembly.py` 1095-1118). -/
noncomputable def G : Res (Matrix (Fin r.ndof) (Fin r.ndof) ℝ) :=
  assemble r.ndof Elm.G r.placed

/-- `elm.Kst()` / `elm.Kdt()` (`rotor_assembly.py` 1047-1054); only called for shaft elements and
disks of a 6-dof rotor. -/
noncomputable def kdtOf : Elm → Res LMat
  | .shaft ⟨true, s⟩ => .ok ⟨12, s.Kst₆⟩
  | .disk ⟨true, d⟩ => .ok ⟨6, d.Kdt₆⟩
  | _ => .error .attributeError

/-- `Rotor.Ksdt` (`rotor_assembly.py` 1021-1056). -/
noncomputable def Ksdt : Res (Matrix (Fin r.ndof) (Fin r.ndof) ℝ) :=
  if r.number_dof = 6 then
    assemble r.ndof kdtOf (r.placed.filter fun x =>
      match x.1 with
      | .shaft _ => true
      | .disk _ => true
      | _ => false)
  else .ok 0

open Classical in
/-- `scipy.linalg.solve(A, B)`: raises `LinAlgError` for a singular matrix. -/
noncomputable def laSolve {N : ℕ} {ι : Type*} (A : Matrix (Fin N) (Fin N) ℝ)
    (B : Matrix (Fin N) ι ℝ) : Res (Matrix (Fin N) ι ℝ) :=
  if A.det = 0 then .error .linAlgError else .ok (A⁻¹ * B)

/-- `Rotor.A` (`rotor_assembly.py` 1120-1162); rows and columns are split as displacement and
velocity. -/
noncomputable def A (speed : ℝ := 0) (frequency : Option ℝ := none) (synchronous : Bool := false) :
    Res (Matrix (Fin r.ndof ⊕ Fin r.ndof) (Fin r.ndof ⊕ Fin r.ndof) ℝ) := do
  let frequency := frequency.getD speed
  let M ← r.M (some frequency) synchronous
  let K ← r.K frequency
  let X ← laSolve (-M) K
  let C ← r.C frequency
  let G ← r.G
  let Y ← laSolve (-M) (C + speed • G)
  pure (fromBlocks 0 1 X Y)

end Rotor

end Ross
