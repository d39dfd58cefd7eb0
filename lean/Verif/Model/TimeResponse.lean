import Verif.Model.Assembly
import Verif.Model.Newmark

/-!
# Time response (`rotor_assembly.py` 1465-1524, 2022-2236; `utils.py` 754-812)

Floating-point numbers are exact reals. `scipy.linalg.eigh` is a parameter. `signal.lsim`, which
`time_response` calls for a constant speed when the Newmark method is not asked for, is not modelled.
-/

namespace Ross

open Matrix

/-- `np.gradient(f, x)` of two one-dimensional arrays: second order in the interior, first order at the
ends. Arrays of different lengths or with fewer than two elements raise `ValueError`. -/
noncomputable def npGradient (f x : List ℝ) : Res (List ℝ) :=
  if f.length ≠ x.length ∨ f.length < 2 then .error .valueError
  else
    let n := f.length
    let F := fun (i : ℕ) => f.getD i 0
    let h := fun (i : ℕ) => x.getD (i + 1) 0 - x.getD i 0
    .ok ((List.range n).map fun (i : ℕ) =>
      if i = 0 then (F 1 - F 0) / h 0
      else if i + 1 = n then (F i - F (i - 1)) / h (i - 1)
      else
        let hs := h (i - 1)
        let hd := h i;
        (-hd) / (hs * (hd + hs)) * F (i - 1) + (hd - hs) / (hd * hs) * F i +
          hs / (hd * (hd + hs)) * F (i + 1))

/-- `elm.C(*args)` for `args = (ω,)` or `args = ()`: only bearings take an argument, and they need
it; otherwise Python raises `TypeError`. The same holds for `elm.K(*args)`. -/
def Elm.call (mat : ℝ → Elm → Res LMat) (arg : Option ℝ) (e : Elm) : Res LMat :=
  match e, arg with
  | .brg b, some ω => mat ω (.brg b)
  | .brg _, none => .error .typeError
  | _, some _ => .error .typeError
  | e, none => mat 0 e

/-- `try: A[np.ix_(dofs, dofs)] += elm.X(*args)`, `except: A[np.ix_(dofs, dofs)] += elm.X()`
(`utils.py` 803-810). -/
def tryAdd {N : ℕ} (mat : ℝ → Elm → Res LMat) (arg : Option ℝ) (A : Matrix (Fin N) (Fin N) ℝ)
    (x : Elm × Dict DofKey ℕ) : Res (Matrix (Fin N) (Fin N) ℝ) :=
  match x.1.call mat arg >>= ixAdd A x.2.values with
  | .ok B => .ok B
  | .error _ => x.1.call mat none >>= ixAdd A x.2.values

/-- `assemble_C_K_matrices(elements, C0, K0, *args)` (`utils.py` 754-812). -/
noncomputable def assembleCK {N : ℕ} (elements : List (Elm × Dict DofKey ℕ))
    (C0 K0 : Matrix (Fin N) (Fin N) ℝ) (arg : Option ℝ) :
    Res (Matrix (Fin N) (Fin N) ℝ × Matrix (Fin N) (Fin N) ℝ) :=
  elements.foldlM (fun A x => do
    let C ← tryAdd Elm.C arg A.1 x
    let K ← tryAdd Elm.K arg A.2 x
    pure (C, K)) (C0, K0)

/-- `scipy.linalg.eigh(A, B)`: eigenvalues and the matrix of eigenvectors, or `none` when it raises
`LinAlgError`. -/
structure Eigh where
  eigh : ∀ {N : ℕ}, Matrix (Fin N) (Fin N) ℝ → Matrix (Fin N) (Fin N) ℝ →
    Option ((Fin N → ℝ) × Matrix (Fin N) (Fin N) ℝ)

/-- The three callables `get_array` (`rotor_assembly.py` 2088-2094): from the full model with `N` to a
model with `m` unknowns. -/
structure Reduction (N m : ℕ) where
  matrix : Matrix (Fin N) (Fin N) ℝ → Matrix (Fin m) (Fin m) ℝ
  vector : (Fin N → ℝ) → (Fin m → ℝ)
  back : (Fin m → ℝ) → (Fin N → ℝ)

/-- `return_array` (`rotor_assembly.py` 2093-2094). -/
def Reduction.direct (N : ℕ) : Reduction N N := ⟨id, id, id⟩

/-- The callables returned by `_pseudo_modal` (`rotor_assembly.py` 1520-1522). -/
def Reduction.modal {N m : ℕ} (Φ : Matrix (Fin N) (Fin m) ℝ) : Reduction N m :=
  ⟨fun A => Φᵀ * A * Φ, fun v => Φᵀ *ᵥ v, fun v => Φ *ᵥ v⟩

/-- The argument `speed`: a number or an array. -/
inductive SpeedArg
  | scalar (s : ℝ)
  | array (l : List ℝ)

namespace SpeedArg

/-- `speed_is_array` (`rotor_assembly.py` 2078-2083). -/
noncomputable def isArray : SpeedArg → Bool
  | scalar _ => false
  | array l => 1 < l.dedup.length

/-- `speed_ref` (`rotor_assembly.py` 2080, 2083); the mean of an empty array, which is not a number, is
not modelled. -/
noncomputable def ref : SpeedArg → ℝ
  | scalar s => s
  | array l => l.sum / l.length

/-- `speed[step]`. -/
noncomputable def at' : SpeedArg → ℕ → Res ℝ
  | scalar _, _ => .error .typeError
  | array l, k => match l[k]? with
    | some s => .ok s
    | none => .error .indexError

/-- `list(speed)`. -/
def list : SpeedArg → List ℝ
  | scalar _ => []
  | array l => l

end SpeedArg

/-- The keyword arguments of `integrate_system` that are read in it (`rotor_assembly.py` 2086-2105). -/
structure IntegrateArgs (N : ℕ) where
  num_modes : Option ℕ := none
  M : Option (Matrix (Fin N) (Fin N) ℝ) := none
  C : Option (Matrix (Fin N) (Fin N) ℝ) := none
  K : Option (Matrix (Fin N) (Fin N) ℝ) := none
  G : Option (Matrix (Fin N) (Fin N) ℝ) := none
  Ksdt : Option (Matrix (Fin N) (Fin N) ℝ) := none
  /-- step, `dt` and the state of the previous step give the extra force -/
  add_to_RHS : Option (ℕ → ℝ → Newmark.State N → (Fin N → ℝ)) := none
  options : Newmark.Options := {}

namespace Rotor

variable (r : Rotor)

/-- `rmv_cross_coeffs` (`rotor_assembly.py` 1506-1508): the entries that are kept are those of the
cross-coupling. -/
def crossOnly (number_dof : ℕ) (E : LMat) : Res LMat :=
  let k := if number_dof = 6 then 3 else 2
  if E.1 ≠ k then .error .valueError
  else .ok ⟨E.1, fun i j => if i.val = 0 ∧ j.val = 1 ∨ i.val = 1 ∧ j.val = 0 then E.2 i j else 0⟩

/-- `self.bearing_elements` with their `dof_global_index`. -/
def placedBearings : List (Elm × Dict DofKey ℕ) :=
  r.placed.filter fun x => match x.1 with
    | .brg _ => true
    | _ => false

/-- The stiffness matrix without the cross-coupling of the bearings (`rotor_assembly.py` 1502-1512). -/
noncomputable def uncoupledK (speed : ℝ) : Res (Matrix (Fin r.ndof) (Fin r.ndof) ℝ) := do
  let K ← r.K speed
  r.placedBearings.foldlM (fun A x => do
    let E ← x.1.K speed
    let X ← crossOnly r.number_dof E
    ixAdd A x.2.values ⟨X.1, -X.2⟩) K

/-- The modal matrix of `_pseudo_modal` (`rotor_assembly.py` 1501-1515): the first `num_modes`
eigenvectors, as many as there are. -/
noncomputable def pseudoModal (ei : Eigh) (speed : ℝ) (num_modes : ℕ) :
    Res (Matrix (Fin r.ndof) (Fin (min num_modes r.ndof)) ℝ) := do
  let M ← r.M (some speed)
  let K_aux ← r.uncoupledK speed
  match ei.eigh K_aux M with
  | none => .error .linAlgError
  | some (_, V) => .ok (Matrix.of fun i j => V i ⟨j.val, by omega⟩)

/-- `brgs_with_var_coeffs` (`rotor_assembly.py` 2126-2128). -/
def varying : List (Elm × Dict DofKey ℕ) :=
  r.placed.filter fun x => match x.1 with
    | .brg b => b.base.frequency.isSome
    | _ => false

/-- `forces(step, **curr_state)` (`rotor_assembly.py` 2107-2119); `F[step, :]` beyond the rows of `F`
raises `IndexError`. -/
def forces {m : ℕ} (red : Reduction r.ndof m) (F : List (Fin r.ndof → ℝ)) (kw : IntegrateArgs r.ndof)
    (step : ℕ) (dt : ℝ) (q : Newmark.State m) : Res (Fin m → ℝ) :=
  match F[step]? with
  | none => .error .indexError
  | some f =>
    match kw.add_to_RHS with
    | none => .ok (red.vector f)
    | some g => .ok (red.vector f + red.vector (g step dt
        ⟨red.back q.y, red.back q.ydot, red.back q.y2dot⟩))

/-- `rotor_system(step, **current_state)` in its three options (`rotor_assembly.py` 2123-2174), after
the matrices that do not depend on the step have been computed. A given `C` or `K` is tested for its
truth value (2131), which raises `ValueError` for an array. -/
noncomputable def system {m : ℕ} (red : Reduction r.ndof m) (speed : SpeedArg)
    (F : List (Fin r.ndof → ℝ)) (t : List ℝ) (kw : IntegrateArgs r.ndof) :
    Res (ℕ → ℝ → Newmark.State m → Res (Newmark.Sys m)) := do
  let M0 ← r.M
  let G0 ← r.G
  let S0 ← r.Ksdt
  let M := red.matrix (kw.M.getD M0)
  let C2 := red.matrix (kw.G.getD G0)
  let K2 := red.matrix (kw.Ksdt.getD S0)
  if speed.isArray then do
    let accel ← npGradient speed.list t
    if r.varying ≠ [] then
      if kw.C.isSome ∨ kw.K.isSome then .error .valueError
      else do
        let C0 ← r.C speed.ref (r.varying.map fun x => x.1.tag)
        let K0 ← r.K speed.ref (r.varying.map fun x => x.1.tag)
        pure fun step dt q => do
          let s ← speed.at' step
          let CK ← assembleCK r.varying C0 K0 (some s)
          let f ← r.forces red F kw step dt q
          pure ⟨M, red.matrix CK.1 + s • C2, red.matrix CK.2 + (accel.getD step 0) • K2, f⟩
    else do
      let C0 ← r.C speed.ref
      let K0 ← r.K speed.ref
      let C1 := red.matrix (kw.C.getD C0)
      let K1 := red.matrix (kw.K.getD K0)
      pure fun step dt q => do
        let s ← speed.at' step
        let f ← r.forces red F kw step dt q
        pure ⟨M, C1 + s • C2, K1 + (accel.getD step 0) • K2, f⟩
  else do
    let C0 ← r.C speed.ref
    let K0 ← r.K speed.ref
    let C1 := red.matrix (kw.C.getD C0)
    let K1 := red.matrix (kw.K.getD K0)
    pure fun step dt q => do
      let f ← r.forces red F kw step dt q
      pure ⟨M, C1 + speed.ref • C2, K1, f⟩

/-- The displacements of all time steps with a given reduction (`rotor_assembly.py` 2096-2179). -/
noncomputable def integrateWith {m : ℕ} (red : Reduction r.ndof m) (speed : SpeedArg)
    (F : List (Fin r.ndof → ℝ)) (t : List ℝ) (kw : IntegrateArgs r.ndof) (intTime : Bool) :
    Res (List (Fin r.ndof → ℝ)) := do
  let func ← r.system red speed F t kw
  let response ← Newmark.newmark func t kw.options intTime
  pure (response.map red.back)

/-- `Rotor.integrate_system` (`rotor_assembly.py` 2022-2180); the time array is returned unchanged. -/
noncomputable def integrate_system (ei : Eigh) (speed : SpeedArg) (F : List (Fin r.ndof → ℝ))
    (t : List ℝ) (kw : IntegrateArgs r.ndof := {}) (intTime : Bool := false) :
    Res (List ℝ × List (Fin r.ndof → ℝ)) := do
  match kw.num_modes with
  | some (k + 1) =>
    let Φ ← r.pseudoModal ei speed.ref (k + 1)
    let y ← r.integrateWith (.modal Φ) speed F t kw intTime
    pure (t, y)
  | _ =>
    let y ← r.integrateWith (.direct r.ndof) speed F t kw intTime
    pure (t, y)

end Rotor

end Ross
