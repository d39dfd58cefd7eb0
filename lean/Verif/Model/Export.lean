import Verif.Model.Dynamics

/-! # Matrices exported to a file (`Rotor.save_mat`, `rotor_assembly.py` 2981-3014) -/

namespace Ross

/-- The dictionary that is handed to `scipy.io.savemat`. -/
structure MatFile (N : ℕ) where
  M : Matrix (Fin N) (Fin N) ℝ
  K : Matrix (Fin N) (Fin N) ℝ
  C : Matrix (Fin N) (Fin N) ℝ
  G : Matrix (Fin N) (Fin N) ℝ
  nodes : List ℝ

/-- `Rotor.save_mat` (`rotor_assembly.py` 2981-3014), without writing the file. -/
noncomputable def Rotor.saveMat (r : Rotor) (speed : ℝ) (frequency : Option ℝ := none) : Res (MatFile r.ndof) := do
  let frequency := frequency.getD speed
  let M ← r.M (some frequency)
  let K ← r.K frequency
  let C ← r.C frequency
  let G ← r.G
  pure ⟨M, K, C, G, r.nodes_pos⟩

end Ross
