import Verif.Model.Dynamics

/-! # Model of `Rotor.convergence` (`ross/rotor_assembly.py` 803-922) -/

namespace Ross

/-- The variables `idl`, `odl`, `idr`, `odr` of the loop that splits a shaft element
(`rotor_assembly.py` 872-876). -/
structure Ends where
  idl : ℝ
  odl : ℝ
  idr : ℝ
  odr : ℝ

/-- Their new values in pass `j` (`rotor_assembly.py` 879-882).  Each assignment uses the values
of the pass before, and those of `odl`, `idl` the new right diameters. -/
noncomputable def Ends.step (nel_r j : ℕ) (e : Ends) : Ends :=
  let odr := (((nel_r : ℝ) - j - 1) * e.odl + (j + 1) * e.odr) / nel_r
  let idr := (((nel_r : ℝ) - j - 1) * e.idl + (j + 1) * e.idr) / nel_r
  let odl := (((nel_r : ℝ) - j) * e.odl + j * odr) / nel_r
  let idl := (((nel_r : ℝ) - j) * e.idl + j * idr) / nel_r
  ⟨idl, odl, idr, odr⟩

/-- The passes `j, j + 1, …` of that loop, `k` of them (`rotor_assembly.py` 878-895): the constructor
defaults apply to `n`, `axial_force`, `torque`, `shear_method_calc`, `tag`, `alpha` and `beta`. -/
noncomputable def splitFrom (s : ShaftElement) (nel_r : ℕ) (le : ℝ) :
    ℕ → ℕ → Ends → Res (List ShaftElement)
  | 0, _, _ => .ok []
  | k + 1, j, e => do
    let e := e.step nel_r j
    let x ← ShaftElement.init le e.idl e.odl (some e.idr) (some e.odr) (some s.material) none 0 0
      s.shear_effects s.rotary_inertia s.gyroscopic "cowper" none 0 0
    let t ← splitFrom s nel_r le k (j + 1) e
    pure (x :: t)

/-- The pieces of one shaft element (`rotor_assembly.py` 870-895). -/
noncomputable def splitElem (nel_r : ℕ) (e : ShaftEl) : Res (List ShaftElement) :=
  splitFrom e.s nel_r (e.s.L / nel_r) nel_r 0 ⟨e.s.idl, e.s.odl, e.s.idr, e.s.odr⟩

/-- `aux_DiskEl` (`rotor_assembly.py` 897-900).  `n_l` and `n_r`, which keep the old node there and are
not read by the analyses, are not part of the model. -/
def scaleDisk (nel_r : ℕ) (e : DiskEl) : DiskEl := ⟨e.six, { e.d with n := nel_r * e.d.n }⟩

/-- `aux_Brg_SealEl` (`rotor_assembly.py` 902-905); `n_link` stays. -/
def scaleBrg (nel_r : ℕ) : BrgEl → BrgEl
  | .brg sl b => .brg sl { b with n := nel_r * b.n }
  | .brg6 b => .brg6 { b with base := { b.base with n := nel_r * b.base.n } }

namespace Rotor

/-- The arguments of `Rotor(shaft_elem, disk_elem, brgs_elem)` (`rotor_assembly.py` 865-907).  The new
shaft elements are of class `ShaftElement`, also for 6-dof rotors. -/
noncomputable def refine (r : Rotor) (nel_r : ℕ) : Res RotorArgs := do
  let l ← r.shaft.mapM (splitElem nel_r)
  pure {
    shaft := l.flatten.map fun s => Nest.el ⟨false, s⟩
    disks := r.disks.map (scaleDisk nel_r)
    bearings := r.bearings.map (scaleBrg nel_r) }

/-- `modal.wn[n_eigval]` (`rotor_assembly.py` 857-858, 908-910). -/
noncomputable def wnAt (la : Lapack) (r : Rotor) (n_eigval : ℤ) : Res ℝ := do
  let modal ← r.run_modal la 0
  let i ← wrap modal.wn.length n_eigval
  pure (modal.wn.getD i 0)

/-- `el_num`, `eigv_arr` and `error_arr` (`rotor_assembly.py` 853-858). -/
structure ConvArrays where
  el_num : List ℕ
  eigv_arr : List ℝ
  error_arr : List ℝ

/-- The loop `while error > err_max` (`rotor_assembly.py` 861-916), one pass per unit of `fuel`; `last`
is `eigv_arr[-1]` and `aux_rotor` the rotor of the last pass.  A vanishing `eigv_arr[-2]`, for which
numpy gives `nan` or `inf`, gives the error 1 here. -/
noncomputable def convLoop (pd : Pandas) (la : Lapack) (initFuel : ℕ) (r : Rotor) (n_eigval : ℤ) (err_max : ℝ) :
    ℕ → ConvArrays → ℝ → ℕ → Option (Res (Rotor × ConvArrays))
  | 0, _, _, _ => none
  | fuel + 1, arr, last, nel_r =>
    match r.refine nel_r with
    | .error e => some (.error e)
    | .ok a =>
      match init pd initFuel a with
      | none => none
      | some (.error e) => some (.error e)
      | some (.ok aux_rotor) =>
        match wnAt la aux_rotor n_eigval with
        | .error e => some (.error e)
        | .ok w =>
          let error := |1 - w / last|
          let arr : ConvArrays := ⟨arr.el_num ++ [a.shaft.length], arr.eigv_arr ++ [w],
            arr.error_arr ++ [100 * error]⟩
          if err_max < error then convLoop pd la initFuel r n_eigval err_max fuel arr w (nel_r * 2)
          else some (.ok (aux_rotor, arr))

/-- `Rotor.convergence` (`rotor_assembly.py` 803-922): the rotor that replaces `self` and the arrays
of the result.  The first test `1.0e10 > err_max` is that of the `while`; if it fails, `aux_rotor` is
not bound and line 918 raises `NameError` (`UnboundLocalError`). -/
noncomputable def convergence (pd : Pandas) (la : Lapack) (initFuel fuel : ℕ) (r : Rotor)
    (n_eigval : ℤ) (err_max : ℝ) : Option (Res (Rotor × ConvArrays)) :=
  match wnAt la r n_eigval with
  | .error e => some (.error e)
  | .ok w =>
    if err_max < 1e10 then
      match convLoop pd la initFuel r n_eigval err_max fuel ⟨[r.shaft.length], [w], [0]⟩ w 2 with
      | none => none
      | some (.error e) => some (.error e)
      | some (.ok (aux, arr)) =>
        -- 918-922
        some (.ok (aux, ⟨arr.el_num.tail, arr.eigv_arr.tail, arr.error_arr.tail⟩))
    else some (.error .nameError)

end Rotor

end Ross
