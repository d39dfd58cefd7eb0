import Verif.Model.Fault

/-! # Model of `ross/faults/crack.py`

Floating-point numbers are exact reals.  `np.linalg.pinv` is the inverse, as it is for matrices that are not
singular. -/

namespace Ross

open Fault Matrix

/-- The columns `c44`, `c55` and `c45` of `tools/data/PAPADOPOULOS.csv` (117-118): pairs of a coefficient
and a depth. -/
structure CrackTable where
  c44 : List (ℝ × ℝ)
  c55 : List (ℝ × ℝ)
  c45 : List (ℝ × ℝ)

/-- The arguments of `Crack.__init__` (72-94). -/
structure Crack where
  args : Args
  depth_ratio : ℝ
  n_crack : ℕ
  crack_type : Option String := some "Mayes"

namespace Crack

open Real

variable (c : Crack)

/-- The two models of the breathing of the crack. -/
inductive Breathing
  | mayes
  | gasch

open Classical in
/-- The checks of `__init__` (96-115). -/
noncomputable def kind : Res Breathing :=
  if c.depth_ratio ≤ 0.5 then
    match c.crack_type with
    | none => .ok .mayes
    | some "Mayes" => .ok .mayes
    | some "Gasch" => .ok .gasch
    | some _ => .error .exception
  else .error .valueError

/-- `tempS` (155-158). -/
noncomputable def tempS (s : ShaftElement) : ℝ :=
  π * (((s.odr / 2) ^ 2 + (s.odl / 2) ^ 2) / 2 - ((s.idr / 2) ^ 2 + (s.idl / 2) ^ 2) / 2)

/-- `tempI` (159-166). -/
noncomputable def tempI (s : ShaftElement) : ℝ :=
  π / 4 * (((s.odr / 2) ^ 4 + (s.odl / 2) ^ 4) / 2 - ((s.idr / 2) ^ 4 + (s.idl / 2) ^ 4) / 2)

/-- `kappa` (168-170). -/
noncomputable def kappa (s : ShaftElement) : ℝ :=
  6 * (1 + s.material.Poisson) ^ 2 / (7 + 12 * s.material.Poisson + 4 * s.material.Poisson ^ 2)

/-- `A` (172). -/
noncomputable def shear (s : ShaftElement) : ℝ :=
  12 * s.material.E * tempI s / (s.material.G_s * kappa s * tempS s * s.L ^ 2)

/-- `Co` (175-202). -/
noncomputable def Co (s : ShaftElement) : Matrix (Fin 4) (Fin 4) ℝ :=
  let EI := s.material.E * tempI s
  let a := s.L ^ 3 * (1 + shear s / 4) / (3 * EI)
  let b := s.L ^ 2 / (2 * EI)
  let d := s.L / EI
  !![a, 0, 0, -b;
     0, a, b, 0;
     0, b, d, 0;
     -b, 0, 0, d]

open Classical in
/-- `_get_coefs` (503-521) for one column of the table. -/
noncomputable def get_coefs (s : ShaftElement) (column : List (ℝ × ℝ)) : Res ℝ :=
  match column.find? fun x => decide (c.depth_ratio * 2 ≤ x.2) with
  | none => .error .indexError
  | some x => .ok (x.1 * (1 - s.material.Poisson ^ 2) / (s.material.E * (s.odl / 2) ^ 3))

open Classical in
/-- `Cc` (205-214). -/
noncomputable def Cc (tab : CrackTable) (s : ShaftElement) : Res (Matrix (Fin 4) (Fin 4) ℝ) := do
  let c44 ← c.get_coefs s tab.c44
  let c55 ← c.get_coefs s tab.c55
  let c45 ← c.get_coefs s tab.c45
  if c.depth_ratio = 0 then pure (Co s)
  else pure (Co s + !![0, 0, 0, 0; 0, 0, 0, 0; 0, 0, c55, c45; 0, 0, c45, c44])

/-- The stiffnesses that `run` keeps (216-222). -/
structure Stiff where
  Kele : Matrix (Fin 4) (Fin 4) ℝ
  ko : ℝ
  kcx : ℝ
  kcz : ℝ

/-- `self.Kele`, `self.ko`, `self.kcx` and `self.kcz` (216-222). -/
noncomputable def stiff (tab : CrackTable) (s : ShaftElement) : Res Stiff := do
  let Cc ← c.Cc tab s
  let kc := Cc⁻¹
  pure ⟨(Co s)⁻¹, (Co s)⁻¹ 0 0, kc 0 0, kc 1 1⟩

/-- `self.T_matrix` (357-362). -/
noncomputable def T_matrix (ap : ℝ) : Matrix (Fin 2) (Fin 2) ℝ := !![cos ap, sin ap; -sin ap, cos ap]

/-- `_mayes` (478-501). -/
noncomputable def mayes (k : Stiff) (ap : ℝ) : Matrix (Fin 2) (Fin 2) ℝ :=
  let kee := 0.5 * (k.ko + k.kcx) + 0.5 * (k.ko - k.kcx) * cos ap
  let knn := 0.5 * (k.ko + k.kcz) + 0.5 * (k.ko - k.kcz) * cos ap
  (T_matrix ap)ᵀ * !![kee, 0; 0, knn] * T_matrix ap

/-- `cosine_sum` (464-467). -/
noncomputable def cosine_sum (ap : ℝ) : ℝ :=
  ∑ i ∈ Finset.range 18, (-1) ^ i * cos ((2 * i + 1) * ap) / (2 * i + 1)

/-- `_gasch` (444-476). -/
noncomputable def gasch (k : Stiff) (ap : ℝ) : Matrix (Fin 2) (Fin 2) ℝ :=
  let kme := (k.ko + k.kcx) / 2
  let kmn := (k.ko + k.kcz) / 2
  let kde := (k.ko - k.kcx) / 2
  let kdn := (k.ko - k.kcz) / 2
  let kee := kme + (4 / π) * kde * cosine_sum ap
  let knn := kmn + (4 / π) * kdn * cosine_sum ap
  (T_matrix ap)ᵀ * !![kee, 0; 0, knn] * T_matrix ap

/-- `self.crack_model(ap)`. -/
noncomputable def breathe (b : Breathing) (k : Stiff) (ap : ℝ) : Matrix (Fin 2) (Fin 2) ℝ :=
  match b with
  | .mayes => mayes k ap
  | .gasch => gasch k ap

/-- `Koxy` (403-410). -/
noncomputable def Koxy (L : ℝ) (k : Stiff) (K : Matrix (Fin 2) (Fin 2) ℝ) : Matrix (Fin 4) (Fin 4) ℝ :=
  let Toxy : Matrix (Fin 4) (Fin 2) ℝ := !![-1, 0; L, -1; 1, 0; 0, 1]
  Toxy * !![K 0 0, k.Kele 0 3; k.Kele 3 0, k.Kele 3 3] * Toxyᵀ

/-- `Koyz` (412-419). -/
noncomputable def Koyz (L : ℝ) (k : Stiff) (K : Matrix (Fin 2) (Fin 2) ℝ) : Matrix (Fin 4) (Fin 4) ℝ :=
  let Toyz : Matrix (Fin 4) (Fin 2) ℝ := !![-1, 0; -L, -1; 1, 0; 0, 1]
  Toyz * !![K 1 1, k.Kele 1 2; k.Kele 2 1, k.Kele 2 2] * Toyzᵀ

/-- `KK_crack` (422-433). -/
def KK_crack (X Y : Matrix (Fin 4) (Fin 4) ℝ) : Matrix (Fin 12) (Fin 12) ℝ :=
  !![X 0 0, 0, 0, 0, X 0 1, 0, X 0 2, 0, 0, 0, X 0 3, 0;
     0, Y 0 0, 0, Y 0 1, 0, 0, 0, Y 0 2, 0, Y 0 3, 0, 0;
     0, 0, 0, 0, 0, 0, 0, 0, 0, 0, 0, 0;
     0, Y 1 0, 0, Y 1 1, 0, 0, 0, Y 1 2, 0, Y 1 3, 0, 0;
     X 1 0, 0, 0, 0, X 1 1, 0, X 1 2, 0, 0, 0, X 1 3, 0;
     0, 0, 0, 0, 0, 0, 0, 0, 0, 0, 0, 0;
     X 2 0, 0, 0, 0, X 2 1, 0, X 2 2, 0, 0, 0, X 2 3, 0;
     0, Y 2 0, 0, Y 2 1, 0, 0, 0, Y 2 2, 0, Y 2 3, 0, 0;
     0, 0, 0, 0, 0, 0, 0, 0, 0, 0, 0, 0;
     0, Y 3 0, 0, Y 3 1, 0, 0, 0, Y 3 2, 0, Y 3 3, 0, 0;
     X 3 0, 0, 0, 0, X 3 1, 0, X 3 2, 0, 0, 0, X 3 3, 0;
     0, 0, 0, 0, 0, 0, 0, 0, 0, 0, 0, 0]

/-- The stiffness matrix of the cracked element at the angular position `ap` (`_crack`, 385-433). -/
noncomputable def cracked (b : Breathing) (s : ShaftElement) (k : Stiff) (ap : ℝ) :
    Matrix (Fin 12) (Fin 12) ℝ :=
  KK_crack (Koxy s.L k (breathe b k ap)) (Koyz s.L k (breathe b k ap))

/-- The force of the crack (`_crack`, 435-442): `KK` is the stiffness matrix of the element without a
crack. -/
noncomputable def force {N : ℕ} (b : Breathing) (s : ShaftElement) (k : Stiff) (y : Fin N → ℝ) (ap : ℝ) :
    Fin N → ℝ :=
  let FF := (s.K₆ - cracked b s k ap) *ᵥ fun (j : Fin 12) => comp y (c.n_crack * 6 + j)
  fun i => if h : c.n_crack * 6 ≤ i.val ∧ i.val < c.n_crack * 6 + 12 then
    FF ⟨i.val - c.n_crack * 6, by omega⟩ else 0

/-- The element whose number is `n_crack` (130-152); only shaft elements have the attributes that are read,
and only those with twelve degrees of freedom have a matrix of the right size. -/
def element (r : Rotor) : Res ShaftElement :=
  match r.elements[c.n_crack]? with
  | none => .error .indexError
  | some (.shaft ⟨true, s⟩) => .ok s
  | some (.shaft ⟨false, _⟩) => .error .valueError
  | some _ => .error .attributeError

/-- `run_crack` (`rotor_assembly.py` 2977-2979): the constructor and `run` (122-332).  An element beyond the
last node raises `IndexError`, in the model before the first step is made. -/
noncomputable def run (tab : CrackTable) (ei : Eigh) (r : Rotor) : Res (Result r.ndof) := do
  let b ← c.kind
  c.args.check
  checkDisks r c.args
  let s ← c.element r
  let k ← c.stiff tab s
  let res ← Fault.run ei r c.args .rk45 (if r.ndof < c.n_crack * 6 + 12 then .error .indexError
    else .ok ((), fun y _ i => pure (c.force b s k y (c.args.angular_position (c.args.time i)))))
  pure res.1

end Crack

end Ross
