import Verif.Model.Assembly

/-! # Model of the dof removal of `ross/utils.py` -/

namespace Ross

open Matrix

/-- `np.arange(2, n, 3)` contains `i` (`utils.py` 850). -/
def thirdDof (i : ℕ) : Bool := 2 ≤ i ∧ (i - 2) % 3 = 0

/-- The indices that `np.delete` keeps: those below `n` that are not deleted, in order. -/
def keptDofs (n : ℕ) : List ℕ := (List.range n).filter fun i => !thirdDof i

/-- `remove_dofs(matrix)` with the default `dofs` (`utils.py` 815-855). -/
def removeDofs (A : LMat) : LMat :=
  ⟨(keptDofs A.1).length, Matrix.of fun p q => A.ent ((keptDofs A.1).getD p 0) ((keptDofs A.1).getD q 0)⟩

/-- `remove_dofs(matrix, dofs)` with a given list (`utils.py` 852): `np.delete` raises `IndexError`
for an index out of range and takes no notice of repeated ones.  Negative indices are not modelled. -/
def removeDofsOf (A : LMat) (dofs : List ℕ) : Res LMat :=
  if dofs.all (· < A.1) then
    let kept := (List.range A.1).filter fun i => i ∉ dofs
    .ok ⟨kept.length, Matrix.of fun p q => A.ent (kept.getD p 0) (kept.getD q 0)⟩
  else .error .indexError

/-- `remove_dofs` of a matrix whose size is known (`utils.py` 815-855). -/
def removeMat {n : ℕ} (A : Matrix (Fin n) (Fin n) ℝ) :
    Matrix (Fin (keptDofs n).length) (Fin (keptDofs n).length) ℝ := (removeDofs ⟨n, A⟩).2

/-- What `convert_6dof_to_4dof(rotor)` replaces in its copy of the rotor (`utils.py` 858-907).  The
other attributes are those of the rotor. -/
structure Converted (n : ℕ) where
  M : Option ℝ → Bool → Res (Matrix (Fin n) (Fin n) ℝ)
  K : ℝ → Res (Matrix (Fin n) (Fin n) ℝ)
  Ksdt : Res (Matrix (Fin n) (Fin n) ℝ)
  C : ℝ → Res (Matrix (Fin n) (Fin n) ℝ)
  G : Res (Matrix (Fin n) (Fin n) ℝ)
  number_dof : ℕ
  ndof : ℕ

/-- `convert_6dof_to_4dof` (`utils.py` 890-907). -/
noncomputable def convert6to4 (r : Rotor) : Res (Converted (keptDofs r.ndof).length) := do
  let M0 ← r.M
  pure {
    M := fun frequency synchronous => do let A ← r.M frequency synchronous; pure (removeMat A)
    K := fun frequency => do let A ← r.K frequency; pure (removeMat A)
    Ksdt := do let A ← r.Ksdt; pure (removeMat A)
    C := fun frequency => do let A ← r.C frequency; pure (removeMat A)
    G := do let A ← r.G; pure (removeMat A)
    number_dof := 4
    ndof := (removeDofs ⟨r.ndof, M0⟩).1 }

/-- `Rotor.A` of a converted rotor (`rotor_assembly.py` 1120-1162): the method reads `self.M` and the
other replaced attributes. -/
noncomputable def Converted.A {n : ℕ} (c : Converted n) (speed : ℝ := 0) (frequency : Option ℝ := none)
    (synchronous : Bool := false) : Res (Matrix (Fin n ⊕ Fin n) (Fin n ⊕ Fin n) ℝ) := do
  let frequency := frequency.getD speed
  let M ← c.M (some frequency) synchronous
  let K ← c.K frequency
  let X ← Rotor.laSolve (-M) K
  let C ← c.C frequency
  let G ← c.G
  let Y ← Rotor.laSolve (-M) (C + speed • G)
  pure (fromBlocks 0 1 X Y)

end Ross
