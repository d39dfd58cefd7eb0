import Mathlib.Analysis.Complex.Basic
import Mathlib.Analysis.SpecialFunctions.Complex.Circle
import Mathlib.Analysis.SpecialFunctions.Pow.Real
import Mathlib.LinearAlgebra.Matrix.Charpoly.Basic
import Mathlib.Logic.Equiv.Fin.Basic
import Mathlib.Data.Matrix.ColumnRowPartitioned
import Mathlib.Data.List.Sort
import Verif.Model.Assembly

/-!
# Modal analysis and frequency response (`rotor_assembly.py` 614-699, 1196-1463, 1526-2020)

Floating-point numbers are exact reals. `scipy.linalg.eig` and `scipy.sparse.linalg.eigs` are
parameters (`Lapack`); what is assumed about them is stated in `Verif.Spec.Dynamics`.
-/

namespace Ross

open Matrix

/-- One element of `evalues` with the column of `evectors` that belongs to it; the rows are split as
displacement and velocity, like those of `Rotor.A`. -/
abbrev Pair (N : ℕ) := ℂ × (Fin N ⊕ Fin N → ℂ)

/-- The eigenvalue solvers of scipy: `eig` is `scipy.linalg.eig`, `eigs A k` is
`scipy.sparse.linalg.eigs(A, k=k, sigma=1, ncv=2*k, which="LM", v0=...)`, which raises `ArpackError`
(here `none`). The start vector `v0`, which the code carries from call to call, only affects which
approximation ARPACK finds and is not modelled. -/
structure Lapack where
  eig : ∀ {N : ℕ}, Matrix (Fin N ⊕ Fin N) (Fin N ⊕ Fin N) ℝ → List (Pair N)
  eigs : ∀ {N : ℕ}, Matrix (Fin N ⊕ Fin N) (Fin N ⊕ Fin N) ℝ → ℕ → Option (List (Pair N))

/-- `np.rint`: the nearest integer, the even one of two. -/
noncomputable def rint (x : ℝ) : ℤ :=
  if x - ⌊x⌋ < 1 / 2 then ⌊x⌋
  else if 1 / 2 < x - ⌊x⌋ then ⌊x⌋ + 1
  else if Even ⌊x⌋ then ⌊x⌋ else ⌊x⌋ + 1

/-- `np.around(x, decimals=10)`. -/
noncomputable def around10 (x : ℝ) : ℝ := rint (x * 10 ^ 10) / 10 ^ 10

/-- `np.around` of a complex number rounds both parts. -/
noncomputable def caround10 (z : ℂ) : ℂ := ⟨around10 z.re, around10 z.im⟩

namespace Rotor

open Classical in
/-- The order of `np.lexsort((b, a))` in `Rotor._index` (`rotor_assembly.py` 1296-1299): by imaginary
part, then by absolute value, of the rounded eigenvalues. -/
noncomputable def lexLe (z w : ℂ) : Bool :=
  decide ((caround10 z).im < (caround10 w).im ∨
    (caround10 z).im = (caround10 w).im ∧ ‖caround10 z‖ ≤ ‖caround10 w‖)

/-- `ind = np.lexsort((b, a))`, a stable sort of the indices. -/
noncomputable def lexsort (evalues : List ℂ) : List ℕ :=
  (List.range evalues.length).mergeSort fun i j => lexLe (evalues.getD i 0) (evalues.getD j 0)

/-- `Rotor._index` (`rotor_assembly.py` 1267-1306). With an odd number of eigenvalues the two lists
differ in length and `np.array([positive, negative])` raises `ValueError`. -/
noncomputable def index (evalues : List ℂ) : Res (List ℕ) :=
  let ind := lexsort evalues
  let positive := ind.drop (evalues.length / 2)
  let negative := ind.take (evalues.length / 2)
  if positive.length = negative.length then .ok (positive ++ negative) else .error .valueError

/-- `idx = self._index(evalues); return evalues[idx], evectors[:, idx]` (`rotor_assembly.py`
1404-1406). For no eigenvalues `idx` is an empty array of floats, which numpy refuses as an index. -/
noncomputable def sorted {N : ℕ} (l : List (Pair N)) : Res (List (Pair N)) := do
  let idx ← index (l.map Prod.fst)
  if l = [] then .error .indexError else .ok (idx.map fun i => l.getD i (0, 0))

variable (r : Rotor)

open Classical in
/-- `Rotor._eigen` (`rotor_assembly.py` 1308-1406), with the argument `A` omitted. -/
noncomputable def eigen (la : Lapack) (speed : ℝ) (num_modes : ℕ := 12) (frequency : Option ℝ := none)
    (sorted_ : Bool := true) (sparse : Bool := true) (synchronous : Bool := false) :
    Res (List (Pair r.ndof)) := do
  let A ← r.A speed frequency synchronous
  let l :=
    if synchronous then
      ((la.eig A).filter fun p => decide (p.1.im ≠ 0)).filter fun p => decide (|p.1.re / p.1.im| < 1000)
    else if sparse then
      match la.eigs A (2 * num_modes) with
      | some l => l.filter fun p => decide (0.1 < ‖p.1‖)
      | none => la.eig A
    else la.eig A
  if sorted_ then sorted l else pure l

/-- The attributes of `ModalResults` that `run_modal` computes. -/
structure Modal (N : ℕ) where
  evalues : List ℂ
  evectors : List (Fin N ⊕ Fin N → ℂ)
  wn : List ℝ
  wd : List ℝ
  damping_ratio : List ℝ
  log_dec : List ℝ

/-- `Rotor.run_modal` (`rotor_assembly.py` 614-699). A division by zero, which numpy turns into `nan`
or `inf` with a warning, gives 0 here. -/
noncomputable def run_modal (la : Lapack) (speed : ℝ) (num_modes : ℕ := 12) (sparse : Bool := true)
    (synchronous : Bool := false) : Res (Modal r.ndof) := do
  let l ← r.eigen la speed num_modes none true sparse synchronous
  let evalues := l.map Prod.fst
  let wn_len := num_modes / 2
  let wn := (evalues.map fun z => ‖z‖).take wn_len
  let wd := (evalues.map Complex.im).take wn_len
  let damping_ratio := (evalues.map fun z => -z.re / ‖z‖).take wn_len
  let log_dec := damping_ratio.map fun z => 2 * Real.pi * z / Real.sqrt (1 - z ^ 2)
  pure ⟨evalues, l.map Prod.snd, wn, wd, damping_ratio, log_dec⟩

/-- The matrices `B`, `C`, `D` of `signal.lti(A, B, C, D)`. -/
structure Lti (N : ℕ) where
  A : Matrix (Fin N ⊕ Fin N) (Fin N ⊕ Fin N) ℝ
  B : Matrix (Fin N ⊕ Fin N) (Fin N) ℝ
  C : Matrix (Fin N) (Fin N ⊕ Fin N) ℝ
  D : Matrix (Fin N) (Fin N) ℝ

/-- `Rotor._lti` (`rotor_assembly.py` 1408-1463). -/
noncomputable def lti (speed : ℝ) (frequency : Option ℝ := none) : Res (Lti r.ndof) := do
  let Z : Matrix (Fin r.ndof) (Fin r.ndof) ℝ := 0
  let frequency := frequency.getD speed
  let A ← r.A speed (some frequency)
  let M ← r.M (some frequency)
  let B2 ← laSolve M 1
  let Cd : Matrix (Fin r.ndof) (Fin r.ndof) ℝ := 1
  let Cv := Z
  let Ca := Z
  let K ← r.K frequency
  let MK ← laSolve M K
  let C ← r.C frequency
  let MC ← laSolve M C
  pure ⟨A, fromRows Z B2, fromCols (Cd - Ca * MK) (Cv - Ca * MC), Ca * B2⟩

/-- An index in an array of length `n`: negative numbers count from the end; outside
`-n, …, n-1` numpy raises `IndexError`. -/
def wrap (n : ℕ) (k : ℤ) : Res ℕ :=
  if 0 ≤ k ∧ k < n then .ok k.toNat
  else if -n ≤ k ∧ k < 0 then .ok (k + n).toNat
  else .error .indexError

/-- The positions of the eigenvalues that `transfer_matrix` uses (`rotor_assembly.py` 1562-1568). With no
mode, or more than there are eigenvalues, `range(2 * n)[-m:]` does not fit into `idx[m:]`. -/
def modeIdx (n : ℕ) : Option (List ℤ) → Res (List ℕ)
  | none => .ok (List.range (2 * n))
  | some modes => do
    let m := modes.length
    if m = 0 ∨ 2 * n < m then .error .valueError
    else
      let sel ← modes.mapM (wrap (2 * n))
      .ok (sel ++ (List.range (2 * n)).drop (2 * n - m))

/-- A list of eigenvectors as the matrix with these columns; the columns are numbered by
`Fin N ⊕ Fin N` through the usual order. -/
def columns {N : ℕ} (l : List (Pair N)) : Matrix (Fin N ⊕ Fin N) (Fin N ⊕ Fin N) ℂ :=
  fun i k => (l.getD (finSumFinEquiv k) (0, 0)).2 i

/-- Entry `k` of an array of length `2 * N`, on `Fin N ⊕ Fin N`. -/
def ofIdx {N : ℕ} {α : Type} [Zero α] (f : Fin N ⊕ Fin N → α) (k : ℕ) : α :=
  if h : k < N + N then f (finSumFinEquiv.symm ⟨k, h⟩) else 0

open Classical in
/-- `scipy.linalg.inv`: raises `LinAlgError` for a singular matrix. -/
noncomputable def laInv {n : Type} [Fintype n] [DecidableEq n] (A : Matrix n n ℂ) : Res (Matrix n n ℂ) :=
  if A.det = 0 then .error .linAlgError else .ok A⁻¹

/-- The complex matrix of a real one. -/
def toC {m n : Type} (A : Matrix m n ℝ) : Matrix m n ℂ := A.map fun x => (x : ℂ)

/-- `H` in `transfer_matrix` (`rotor_assembly.py` 1560-1575), from the matrices `B`, `C`, `D` and the
sorted eigenvalues and eigenvectors. `la.inv` needs as many columns as rows. Division by
`1j * speed - lam = 0`, which gives `inf` or `nan` in numpy, gives 0 here. -/
noncomputable def modalSum {N : ℕ} (s : Lti N) (speed : ℝ) (l : List (Pair N)) (modes : Option (List ℤ)) :
    Res (Matrix (Fin N) (Fin N) ℂ) := do
  if l.length ≠ N + N then .error .valueError
  else
    let psi := columns l
    let psi_inv ← laInv psi
    let idx ← modeIdx N modes
    let evals : Fin idx.length → ℂ := fun k => (l.getD idx[k] (0, 0)).1
    let psi : Matrix (Fin N ⊕ Fin N) (Fin idx.length) ℂ := fun i k => ofIdx (psi i) idx[k]
    let psi_inv : Matrix (Fin idx.length) (Fin N ⊕ Fin N) ℂ := fun k j => ofIdx (fun i => psi_inv i j) idx[k]
    let diag := diagonal fun k => 1 / (Complex.I * speed - evals k)
    pure (toC s.C * psi * diag * psi_inv * toC s.B + toC s.D)

/-- `Rotor.transfer_matrix` (`rotor_assembly.py` 1526-1577). -/
noncomputable def transfer_matrix (la : Lapack) (speed : ℝ) (frequency : Option ℝ := none)
    (modes : Option (List ℤ) := none) : Res (Matrix (Fin r.ndof) (Fin r.ndof) ℂ) := do
  let s ← r.lti speed
  let l ← r.eigen la speed 12 frequency true false
  modalSum s speed l modes

/-- Column `i` of the arrays of `FrequencyResponseResults`. -/
structure FreqResp (N : ℕ) where
  freq_resp : Matrix (Fin N) (Fin N) ℂ
  velc_resp : Matrix (Fin N) (Fin N) ℂ
  accl_resp : Matrix (Fin N) (Fin N) ℂ

/-- `Rotor.run_freq_response` (`rotor_assembly.py` 1685-1705) for a given `speed_range`;
`_check_frequency_array` only warns and is omitted. -/
noncomputable def run_freq_response (la : Lapack) (speed_range : List ℝ) (modes : Option (List ℤ) := none) :
    Res (List (FreqResp r.ndof)) :=
  speed_range.mapM fun (speed : ℝ) => do
    let H ← r.transfer_matrix la speed none modes
    pure ⟨H, (Complex.I * speed) • H, (-(speed : ℂ) ^ 2) • H⟩

/-- Column `i` of the arrays of `ForcedResponseResults`. -/
structure ForcedResp (N : ℕ) where
  forced_resp : Fin N → ℂ
  velc_resp : Fin N → ℂ
  accl_resp : Fin N → ℂ

/-- `Rotor.run_forced_response` (`rotor_assembly.py` 1801-1823) for a given `speed_range`; `force` is the
list of the columns `force[..., i]`. -/
noncomputable def run_forced_response (la : Lapack) (force : List (Fin r.ndof → ℂ)) (speed_range : List ℝ)
    (modes : Option (List ℤ) := none) : Res (List (ForcedResp r.ndof)) := do
  let freq ← r.run_freq_response la speed_range modes
  freq.zipIdx.mapM fun x =>
    match force[x.2]? with
    | none => .error .indexError
    | some f => .ok ⟨x.1.freq_resp *ᵥ f, x.1.velc_resp *ᵥ f, x.1.accl_resp *ᵥ f⟩

/-- `Rotor._unbalance_force` (`rotor_assembly.py` 1825-1867): the list of the columns of `F0`. When the
slice `n0:n1` goes beyond the last row numpy cannot add `b0` to it. -/
noncomputable def unbalance_force (node : ℕ) (magnitude phase : ℝ) (omega : List ℝ) :
    Res (List (Fin r.ndof → ℂ)) :=
  let b0 : ℕ → ℂ := fun k =>
    if k = 0 then magnitude * Complex.exp (Complex.I * phase)
    else if k = 1 then -Complex.I * magnitude * Complex.exp (Complex.I * phase)
    else 0
  let n0 := r.number_dof * node
  let n1 := n0 + r.number_dof
  omega.mapM fun (w : ℝ) =>
    if r.ndof < n1 then .error .valueError
    else .ok fun i => if n0 ≤ i.val ∧ i.val < n1 then (w : ℂ) ^ 2 * b0 (i.val - n0) else 0

/-- The loop `force += self._unbalance_force(n, m, p, frequency)` (`rotor_assembly.py` 2003-2007). -/
noncomputable def sumForces (frequency : List ℝ) (unb : List (ℕ × ℝ × ℝ)) :
    Res (List (Fin r.ndof → ℂ)) :=
  unb.foldlM (fun force u => do
    let F ← r.unbalance_force u.1 u.2.1 u.2.2 frequency
    pure (List.zipWith (· + ·) force F)) (frequency.map fun _ => 0)

/-- `Rotor.run_unbalance_response` (`rotor_assembly.py` 1869-2020) for lists of nodes, magnitudes and
phases and a given `frequency`. `np.vstack` refuses lists of different lengths. -/
noncomputable def run_unbalance_response (la : Lapack) (node : List ℕ) (magnitude phase : List ℝ)
    (frequency : List ℝ) (modes : Option (List ℤ) := none) : Res (List (ForcedResp r.ndof)) := do
  let force ← r.sumForces frequency (node.zip (magnitude.zip phase))
  if node.length ≠ magnitude.length ∨ node.length ≠ phase.length then .error .valueError
  else r.run_forced_response la force frequency modes

/-- The same for numbers: iterating over them raises the `TypeError` that the code catches. -/
noncomputable def run_unbalance_response₁ (la : Lapack) (node : ℕ) (magnitude phase : ℝ)
    (frequency : List ℝ) (modes : Option (List ℤ) := none) : Res (List (ForcedResp r.ndof)) := do
  let force ← r.unbalance_force node magnitude phase frequency
  r.run_forced_response la force frequency modes

/-- `x = x[modes]` unless `modes` is `None` (`rotor_assembly.py` 1251-1253). -/
def pick (modes : Option (List ℤ)) (x : List ℝ) : Res (List ℝ) :=
  match modes with
  | none => .ok x
  | some ms => do
    let idx ← ms.mapM (wrap x.length)
    .ok (idx.map fun i => x.getD i 0)

open Classical in
/-- `Rotor._clustering_points` (`rotor_assembly.py` 1244-1265) from the natural frequencies and damping
ratios that `run_critical_speed` returns; an index in `modes` outside of them raises `IndexError`. -/
noncomputable def clustering_points (omega damping : List ℝ) (num_points : ℤ := 10)
    (modes : Option (List ℤ) := none) : Res (List ℝ) := do
  let damping := damping.map fun d => if 0.005 ≤ d then d else 0.005
  let num_points : ℤ := if 12 < num_points then 10 else if num_points < 2 then 4 else num_points
  let omega ← pick modes omega
  let damping ← pick modes damping
  let a : ℕ → ℕ → ℝ := fun i j =>
    1 + (damping.getD i 0) ^ (2 * ((num_points : ℝ) - j + 1) / (num_points - 1))
  let grid (f : ℝ → ℝ → ℝ) : List ℝ :=
    omega.zipIdx.flatMap fun x => (List.range num_points.toNat).map fun j => f x.1 (a x.2 j)
  let speed_range := (grid (· / ·) ++ grid (· * ·)).mergeSort fun x y => decide (x ≤ y)
  pure (0 :: speed_range)

end Rotor

end Ross
