import Verif.Model.Orbit

/-!
# Model of mode shapes and deflected shapes (`results.py` 385-536, 862-1069)

Arrays that are filled by slices are functions of the index together with their length.
-/

namespace Ross

/-- The strings "Lateral", "Axial" and "Torsional". -/
inductive ModeType
  | lateral
  | axial
  | torsional
  deriving DecidableEq

/-- A `Shape` object.  The arrays from `xn` on have `5 * (len(nodes) - 1)` entries. -/
structure Shape where
  vector : List ℂ
  nodes : List ℕ
  nodes_pos : List ℝ
  shaft_elements_length : List ℝ
  normalize : Bool
  number_dof : ℕ
  evec : List ℂ
  mode_type : ModeType
  orbits : List Orbit
  whirl : Whirl
  xn : ℕ → ℝ
  yn : ℕ → ℝ
  zn : ℕ → ℝ
  major_axis : ℕ → ℝ
  major_x : ℕ → ℝ
  major_y : ℕ → ℝ
  major_angle : ℕ → ℝ

namespace Shape

/-- `v[i::n]`. -/
def every (n i : ℕ) (v : List ℂ) : List ℂ :=
  (v.zipIdx.filter fun p => decide (i ≤ p.2 ∧ (p.2 - i) % n = 0)).map Prod.fst

/-- `abs(v).argmax()` and the largest modulus; `max` of an empty sequence is a `ValueError`. -/
noncomputable def largest (v : List ℂ) : Res ℂ :=
  if v = [] then .error .valueError
  else .ok (v.getD (argmax (fun i => ‖v.getD i 0‖) v.length) 0)

/-- The normalization in `Shape.__init__` (`results.py` 396-407).  A slice with step zero is a
`ValueError`.  Division by zero gives `nan` or `inf`, which `scipy.linalg.eig` refuses with a `ValueError`
as soon as the orbit of the first node is built; the model raises it at once. -/
noncomputable def normalized (number_dof : ℕ) (vector : List ℂ) : Res (List ℂ) :=
  if number_dof = 0 then .error .valueError
  else do
    let x ← largest (every number_dof 0 vector)
    let y ← largest (every number_dof 1 vector)
    let p := if ‖x‖ < ‖y‖ then y else x
    if p = 0 then .error .valueError
    else .ok (vector.map fun z => z / p)

/-- `np.nonzero(np.abs(self.vector).round(6))[0]` (`results.py` 434). -/
noncomputable def nonzeroDofs (vector : List ℂ) : List ℕ :=
  (vector.zipIdx.filter fun p => decide (rint (‖p.1‖ * 10 ^ 6) ≠ 0)).map Prod.snd

/-- `Shape._classify` (`results.py` 425-439). -/
noncomputable def classify (number_dof : ℕ) (vector : List ℂ) : ModeType :=
  if number_dof = 6 then
    -- 431-432: `np.arange(2, size, 6)` and `np.arange(5, size, 6)`
    if ∀ k ∈ nonzeroDofs vector, k % 6 = 2 then .axial
    else if ∀ k ∈ nonzeroDofs vector, k % 6 = 5 then .torsional
    else .lateral
  else .lateral

/-- The orbit of a node (`results.py` 444-446); a slice with less than two entries cannot be unpacked. -/
noncomputable def nodeOrbit (la : Lapack) (number_dof : ℕ) (evec : List ℂ) (node : ℕ) (pos : ℝ) : Res Orbit :=
  match evec[number_dof * node]?, evec[number_dof * node + 1]? with
  | some ru_e, some rv_e => .ok (Orbit.init la node pos ru_e rv_e)
  | _, _ => .error .valueError

/-- The whirl of a shape (`results.py` 451-459). -/
def whirlOf (whirl : List Whirl) : Whirl :=
  if ∀ w ∈ whirl, w = .forward then .forward
  else if ∀ w ∈ whirl, w = .backward then .backward
  else .mixed

/-- `zeta` (`results.py` 473-474): the five points of an element. -/
noncomputable def zeta (k : ℕ) : ℝ := k / 4

/-- The rows of `N1`, `Le * N2`, `N3`, `Le * N4` times nodal values (`results.py` 490-498). -/
noncomputable def interp (L ζ : ℝ) (v : Fin 4 → ℂ) : ℂ :=
  ((1 - 3 * ζ ^ 2 + 2 * ζ ^ 3 : ℝ) : ℂ) * v 0 + ((L * (ζ - 2 * ζ ^ 2 + ζ ^ 3) : ℝ) : ℂ) * v 1
    + ((3 * ζ ^ 2 - 2 * ζ ^ 3 : ℝ) : ℂ) * v 2 + ((L * (-(ζ ^ 2) + ζ ^ 3) : ℝ) : ℂ) * v 3

/-- `evec[idx]` for a list of four indices. -/
def pick4 (evec : List ℂ) (i j k l : ℕ) : Res (Fin 4 → ℂ) :=
  match evec[i]?, evec[j]?, evec[k]?, evec[l]? with
  | some a, some b, some c, some d => .ok ![a, b, c, d]
  | _, _, _, _ => .error .indexError

/-- The interpolated amplitudes of an element and its position (`results.py` 495-525). -/
structure Piece where
  n : ℕ
  pos : ℝ
  L : ℝ
  x : Fin 4 → ℂ
  y : Fin 4 → ℂ

/-- One turn of the loop (`results.py` 495-525), for the element of length `Le` after node `n`.
`nodes_pos[n]` out of range is an `IndexError`; five values do not fit into a shorter slice. -/
def piece (number_dof nodes_len : ℕ) (evec : List ℂ) (nodes_pos : List ℝ) (Le : ℝ) (n : ℕ) :
    Res Piece :=
  match nodes_pos[n]? with
  | none => .error .indexError
  | some pos => do
    let ind := number_dof * n
    let x ← pick4 evec ind (ind + number_dof / 2 + 1) (ind + number_dof) (ind + 3 * number_dof / 2 + 1)
    let y ← pick4 evec (ind + 1) (ind + number_dof / 2) (ind + number_dof + 1) (ind + 3 * number_dof / 2)
    if nodes_len - 1 < n + 1 then .error .valueError
    else .ok ⟨n, pos, Le, x, y⟩

/-- The complex amplitudes at point `k` of a piece: `Nx @ evec[xx]` and `Ny @ evec[yy]`
(`results.py` 496-497, 518-519). -/
noncomputable def Piece.amp (p : Piece) (k : ℕ) : ℂ × ℂ :=
  (interp p.L (zeta k) p.x, interp (-p.L) (zeta k) p.y)

/-- An array after all slices `[5 n : 5 (n + 1)]` have been assigned, later ones over earlier ones. -/
noncomputable def filled (l : List Piece) (f : Piece → ℕ → ℝ) (i : ℕ) : ℝ :=
  match l.reverse.find? fun p => p.n = i / 5 with
  | some p => f p (i % 5)
  | none => 0

/-- The vector that is drawn (`results.py` 394-409). -/
noncomputable def drawn (normalize : Bool) (number_dof : ℕ) (vector : List ℂ) : Res (List ℂ) :=
  if normalize then normalized number_dof vector else .ok vector

open Classical in
/-- `Shape.__init__` (`results.py` 385-423) with `_classify`, `_calculate_orbits` and `_calculate`
(`results.py` 425-536), without the color. -/
noncomputable def init (la : Lapack) (vector : List ℂ) (nodes : List ℕ) (nodes_pos : List ℝ)
    (shaft_elements_length : List ℝ) (number_dof : ℕ) (normalize : Bool := false) : Res Shape := do
  let evec ← drawn normalize number_dof vector
  let orbits ← (nodes.zip nodes_pos).mapM fun p => nodeOrbit la number_dof evec p.1 p.2
  let l ← (shaft_elements_length.zip nodes).mapM fun p =>
    piece number_dof nodes.length evec nodes_pos p.1 p.2
  let orb := fun (p : Piece) k => Orbit.init la 0 0 (p.amp k).1 (p.amp k).2
  pure
    { vector := vector, nodes := nodes, nodes_pos := nodes_pos
      shaft_elements_length := shaft_elements_length, normalize := normalize, number_dof := number_dof
      evec := evec, mode_type := classify number_dof vector
      orbits := orbits, whirl := whirlOf (orbits.map Orbit.whirl)
      xn := filled l fun p k => (p.amp k).1.re
      yn := filled l fun p k => (p.amp k).2.re
      zn := filled l fun p k => p.pos + p.L * zeta k
      major_axis := filled l fun p k => (orb p k).major_axis
      major_x := filled l fun p k => (orb p k).major_x
      major_y := filled l fun p k => (orb p k).major_y
      major_angle := filled l fun p k => (orb p k).major_angle }

end Shape

namespace ModalResults

/-- `ModalResults.whirl` (`results.py` 915-942). -/
noncomputable def whirl (kappa_mode : List ℝ) : Whirl :=
  if ∀ k ∈ kappa_mode, k ≥ -1e-3 then .forward
  else if ∀ k ∈ kappa_mode, k ≤ 1e-3 then .backward
  else .mixed

/-- `ModalResults.whirl_to_cmap` (`results.py` 944-969). -/
noncomputable def whirl_to_cmap : Whirl → ℝ
  | .forward => 0
  | .backward => 1
  | .mixed => 1 / 2

/-- `ModalResults.kappa_mode` (`results.py` 1021-1042) for a shape. -/
def kappa_mode (s : Shape) : List ℝ := s.orbits.map Orbit.kappa

/-- The shapes that `ModalResults.__init__` builds (`results.py` 894-906): one per natural frequency, of the
upper half of each eigenvector. -/
noncomputable def shapes (la : Lapack) {N : ℕ} (m : Rotor.Modal N) (nodes : List ℕ) (nodes_pos : List ℝ)
    (shaft_elements_length : List ℝ) (number_dof : ℕ) : Res (List Shape) :=
  (List.range m.wn.length).mapM fun mode =>
    match m.evectors[mode]? with
    | none => .error .indexError
    | some v => Shape.init la (List.ofFn fun i => v (.inl i)) nodes nodes_pos shaft_elements_length
        number_dof true

/-- `ModalResults.whirl_direction` (`results.py` 1044-1057). -/
noncomputable def whirl_direction (l : List Shape) : List Whirl := l.map fun s => whirl (kappa_mode s)

/-- `ModalResults.whirl_values` (`results.py` 1059-1069). -/
noncomputable def whirl_values (l : List Shape) : List ℝ := (whirl_direction l).map whirl_to_cmap

end ModalResults

end Ross
