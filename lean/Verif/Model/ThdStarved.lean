import Verif.Model.Thd

/-!
# Model of starved bearings (`THDCylindrical._starvation` and `_forces` in `ross/fluid_flow/cylindrical.py`)

Arrays are functions of their indices.  Loops that need not end take an amount of fuel, and give `none` when it does not
suffice.  Divisions of arrays by 0, which give NaN or infinity, are not modelled.
-/

namespace Ross.Thd

open Real Ross.Fluid.FluidFlow

/-- What the loop of cylindrical.py 609-1037 changes: `p`, `theta_vol` and `erro`. -/
structure Starving where
  p : ℕ → ℝ
  theta_vol : ℕ → ℝ
  erro : ℝ

namespace THD

variable (B : THD)

/-- `KP`, cylindrical.py 780-784. -/
noncomputable def KP (J : Journal) (n_p kj : ℕ) : ℝ :=
  let KP1 := -(B.dZ / (2 * B.betha_s)) * B.film J n_p (B.jj n_p kj + 0.5 * B.dtheta)
  let KP2 := -hpt J (B.jj n_p kj) * B.dY * B.dZ
  KP1 + KP2

/-- `KW`, cylindrical.py 786. -/
noncomputable def KW (J : Journal) (n_p kj : ℕ) : ℝ :=
  (B.dZ / (2 * B.betha_s)) * B.film J n_p (B.jj n_p kj - 0.5 * B.dtheta)

/-- `B[k]`, cylindrical.py 802, 827, 853-854, 879-883, 911, 933-937, 961, 985-989, 1014; `t` is `theta_vol`, `g` is
`theta_vol_groove[n_p]` and `inj` is `injection_pressure`. -/
noncomputable def starved_B (inj g : ℝ) (J : Journal) (n_p : ℕ) (mu : ℕ → ℕ → ℝ) (t : ℕ → ℝ) (k : ℕ) : ℝ :=
  let ki := k / B.elements_circumferential
  let kj := k % B.elements_circumferential
  if kj = 0 then -B.KP J n_p kj * t k - g * B.KW J n_p kj - 2 * B.CW J n_p mu ki kj * inj
  else -B.KP J n_p kj * t k - B.KW J n_p kj * t (k - 1)

/-- The new entry `theta_vol[k]` of a cell without pressure, cylindrical.py 811-815, 836-840, 863-867, 892-896, 920-924,
946-950, 970-974, 998-1002, 1023-1027; `p` has 0 in `k` already. -/
noncomputable def starved_theta (g : ℝ) (J : Journal) (n_p : ℕ) (mu : ℕ → ℕ → ℝ) (p t : ℕ → ℝ) (k : ℕ) : ℝ :=
  let kj := k % B.elements_circumferential
  let B_theta :=
    -∑ c ∈ Finset.range (B.elements_axial * B.elements_circumferential), B.Mat_coef J n_p mu k c * p c
  if kj = 0 then (B_theta - g * B.KW J n_p kj * 1) / B.KP J n_p kj
  else (B_theta - B.KW J n_p kj * t (k - 1)) / B.KP J n_p kj

open Classical in
/-- What the loops over the cells do with cell `k`, cylindrical.py 788-1027.  The rows of `Mat_coef_st`, 794-798 and the
like, are those of `Mat_coef`, 473-538: each is written before it is used. -/
noncomputable def starved_cell (inj g : ℝ) (J : Journal) (n_p : ℕ) (mu : ℕ → ℕ → ℝ) (s : (ℕ → ℝ) × (ℕ → ℝ)) (k : ℕ) :
    (ℕ → ℝ) × (ℕ → ℝ) :=
  if 0 < s.1 k then
    let t := Function.update s.2 k 1
    (Function.update s.1 k ((B.starved_B inj g J n_p mu t k -
      ∑ c ∈ (Finset.range (B.elements_axial * B.elements_circumferential)).erase k, B.Mat_coef J n_p mu k c * s.1 c) /
        B.Mat_coef J n_p mu k k), t)
  else
    let p := Function.update s.1 k 0
    (p, Function.update s.2 k (B.starved_theta g J n_p mu p s.2 k))

/-- The loops over the cells, cylindrical.py 614-1033. -/
noncomputable def starved_sweep (inj g : ℝ) (J : Journal) (n_p : ℕ) (mu : ℕ → ℕ → ℝ) (s : (ℕ → ℝ) × (ℕ → ℝ)) :
    (ℕ → ℝ) × (ℕ → ℝ) :=
  (List.range (B.elements_axial * B.elements_circumferential)).foldl (B.starved_cell inj g J n_p mu) s

/-- `np.linalg.norm` of an array over the cells. -/
noncomputable def cells_norm (x : ℕ → ℝ) : ℝ :=
  √(∑ k ∈ Finset.range (B.elements_axial * B.elements_circumferential), x k ^ 2)

/-- The body of the loop, cylindrical.py 610-1037. -/
noncomputable def starved_step (inj g : ℝ) (J : Journal) (n_p : ℕ) (mu : ℕ → ℕ → ℝ) (s : Starving) : Starving :=
  let r := B.starved_sweep inj g J n_p mu (s.p, s.theta_vol)
  ⟨r.1, r.2, B.cells_norm (fun k => r.1 k - s.p k) + B.cells_norm (fun k => r.2 k - s.theta_vol k)⟩

/-- `_starvation`, cylindrical.py 566-1058, with the arrays of 1217-1231: the pressure of pad `n_p`, without dimension, and
how far its cells are filled.  The tolerance of the code is 0.01.  With fewer than two cells in a direction `mu[ki, kj + 1]`
or `mu[ki + 1, kj]` is out of range, and `2 * CW * None` fails in the first cell. -/
noncomputable def starved_pad (tol : ℝ) (fuel : ℕ) (J : Journal) (n_p : ℕ) (g : ℝ) (mu : ℕ → ℕ → ℝ) :
    Option (Res ((ℕ → ℕ → ℝ) × (ℕ → ℕ → ℝ))) :=
  match B.film_check n_p with
  | .error e => some (.error e)
  | .ok () =>
    if B.elements_circumferential < 2 ∨ B.elements_axial < 2 then some (.error .indexError)
    else
      match B.injection_pressure with
      | none => some (.error .typeError)
      | some inj =>
        match whileLoop (fun s : Starving => tol ≤ s.erro) (fun s => some (.ok (B.starved_step inj g J n_p mu s))) fuel
            ⟨fun _ => 1, fun _ => 0, 1⟩ with
        | none => none
        | some (.error e) => some (.error e)
        | some (.ok s) =>
          some (.ok (fun i j =>
              if s.p (i * B.elements_circumferential + j) < 0 then 0 else s.p (i * B.elements_circumferential + j),
            fun i j => s.theta_vol (i * B.elements_circumferential + j)))

/-- The new entry of `mu_turb` of a starved bearing, cylindrical.py 1391-1401, 1412-1442. -/
noncomputable def starved_mi_t (th HP dPdy dPdz mu_p mt : ℝ) : ℝ :=
  let Reyn := th * B.rho * B.speed * B.journal_radius * (HP / B.axial_length) * B.radial_clearance /
    (B.reference_viscosity * mu_p)
  mu_p * (1 + delta_turb Reyn * B.emv HP dPdy dPdz mt)

/-- `U`, cylindrical.py 1446-1451. -/
noncomputable def U_cell (HP dPdy mi_t : ℝ) : ℝ := -HP ^ 2 / (12 * mi_t * B.betha_s) * dPdy + 1 / 2

/-- The arrays that the loops of `_forces` change for a starved bearing; `T_mist` and `theta_vol_groove` are changed after
them. -/
structure StarvedFields where
  P : ℕ → ℕ → ℕ → ℝ
  Theta_vol : ℕ → ℕ → ℕ → ℝ
  T : ℕ → ℕ → ℕ → ℝ
  T_new : ℕ → ℕ → ℕ → ℝ
  mu_new : ℕ → ℕ → ℕ → ℝ
  mu_turb : ℕ → ℕ → ℕ → ℝ
  U : ℕ → ℕ → ℕ → ℝ
  H : ℕ → ℕ → ℝ
  T_end : ℕ → ℝ

/-- The condition of the loop over the temperatures of a pad, cylindrical.py 1204-1208. -/
def starved_cond (n_p : ℕ) (s : StarvedFields) : Prop :=
  0.01 ≤ B.norm (fun i j => s.T_new i j n_p - s.T i j n_p) / B.norm (pad s.T n_p)

/-- The body of this loop, cylindrical.py 1209-1722, for a starved bearing. -/
noncomputable def starved_pass (solve : Solver) (J : Journal) (fuel : ℕ) (T_mist groove : ℕ → ℝ) (n_p : ℕ)
    (s : StarvedFields) : Option (Res StarvedFields) :=
  let nc := B.elements_circumferential
  let mu := pad s.mu_new n_p
  match B.starved_pad 0.01 fuel J n_p (groove n_p) mu with
  | none => none
  | some (.error e) => some (.error e)
  | some (.ok r) =>
    let P := r.1
    let mt : ℕ → ℕ → ℝ := fun ki kj =>
      B.starved_mi_t (r.2 ki kj) (B.HP J n_p kj) (B.dPdy P ki kj) (B.dPdz P ki kj) (mu ki kj) (pad s.mu_turb n_p ki kj)
    let t := solve (B.elements_axial * nc) (B.Mat_coef_T J n_p P mt) (B.b_T J n_p P mt (T_mist n_p))
    let T_new : ℕ → ℕ → ℝ := fun i j => t (i * nc + j)
    some (.ok
      { P := setPad s.P n_p P
        Theta_vol := setPad s.Theta_vol n_p r.2
        T := setPad s.T n_p (pad s.T_new n_p)
        T_new := setPad s.T_new n_p T_new
        mu_new := setPad s.mu_new n_p
          (fun i j => (B.a * (T_new i j * B.reference_temperature) ^ B.b) / B.reference_viscosity)
        mu_turb := setPad s.mu_turb n_p mt
        U := setPad s.U n_p (fun ki kj => B.U_cell (B.HP J n_p kj) (B.dPdy P ki kj) (mt ki kj))
        H := fun kj p => if p = n_p then B.HP J n_p kj else s.H kj p
        T_end := Function.update s.T_end n_p
          ((∑ i ∈ Finset.range B.elements_axial, T_new i (nc - 1) * B.reference_temperature) / B.elements_axial) })

/-- The loop over the pads, cylindrical.py 1201-1722: the pads of the list in order. -/
noncomputable def starved_pads (solve : Solver) (J : Journal) (fuel : ℕ) (T_mist groove : ℕ → ℝ) :
    List ℕ → StarvedFields → Option (Res StarvedFields)
  | [], s => some (.ok s)
  | n_p :: rest, s =>
    match whileLoop (B.starved_cond n_p) (B.starved_pass solve J fuel T_mist groove n_p) fuel s with
    | none => none
    | some (.error e) => some (.error e)
    | some (.ok s') => starved_pads solve J fuel T_mist groove rest s'

/-- The arrays at the start of a pass of the loop over the mixing temperatures, cylindrical.py 1143-1199. -/
noncomputable def starved_fresh (T_end : ℕ → ℝ) : StarvedFields where
  P := fun _ _ _ => 0
  Theta_vol := fun _ _ _ => 0
  T := fun _ _ _ => 1
  T_new := fun _ _ _ => 1.2
  mu_new := fun _ _ _ => 1.1
  mu_turb := fun _ _ _ => 1.3
  U := fun _ _ _ => 0.5
  H := fun _ _ => 1
  T_end := T_end

/-- `Qedim[n_p]` for `j = 0` and `Qsdim[n_p]` for `j = elements_circumferential - 1`, cylindrical.py 1726-1744. -/
noncomputable def Q_dim (s : StarvedFields) (j n_p : ℕ) : ℝ :=
  B.radial_clearance * s.H j n_p * B.speed * B.journal_radius * B.axial_length * s.Theta_vol 0 j n_p *
    ((∑ i ∈ Finset.range B.elements_axial, s.U i j n_p) / B.elements_axial)

/-- `geometry_factor[n_p]`, cylindrical.py 1746-1751. -/
noncomputable def geometry_factor (Qe Qs : ℕ → ℝ) (n_p : ℕ) : ℝ :=
  (Qe n_p + Qs (B.before n_p)) / (∑ p ∈ Finset.range B.n_pad, Qe p + ∑ p ∈ Finset.range B.n_pad, Qs p)

/-- `T_mist[n_p]`, cylindrical.py 1754-1761. -/
noncomputable def starved_T_mist (Qe Qs T_end : ℕ → ℝ) (n_p : ℕ) : ℝ :=
  (Qs (B.before n_p) * T_end (B.before n_p) +
      B.reference_temperature * B.geometry_factor Qe Qs n_p * B.oil_flow) /
    (B.geometry_factor Qe Qs n_p * B.oil_flow + Qs (B.before n_p))

/-- `theta_vol_groove[n_p]`, cylindrical.py 1763-1770. -/
noncomputable def starved_groove (Qe Qs : ℕ → ℝ) (n_p : ℕ) : ℝ :=
  let g := 0.8 * (B.geometry_factor Qe Qs n_p * B.oil_flow + Qs (B.before n_p)) / Qe n_p
  if g > 1 then 1 else g

/-- What the passes of the loop over the mixing temperatures hand on. -/
structure StarvedMixing where
  T_conv : ℝ
  T_end : ℕ → ℝ
  T_mist : ℕ → ℝ
  groove : ℕ → ℝ
  film : Option StarvedFields

/-- The body of the loop over the mixing temperatures, cylindrical.py 1142-1770, for a starved bearing. -/
noncomputable def starved_mixing (solve : Solver) (J : Journal) (fuel : ℕ) (m : StarvedMixing) :
    Option (Res StarvedMixing) :=
  match B.starved_pads solve J fuel m.T_mist m.groove (List.range B.n_pad) (starved_fresh m.T_end) with
  | none => none
  | some (.error e) => some (.error e)
  | some (.ok s) =>
    let Qe := B.Q_dim s 0
    let Qs := B.Q_dim s (B.elements_circumferential - 1)
    some (.ok ⟨m.T_mist 0, s.T_end, B.starved_T_mist Qe Qs s.T_end, B.starved_groove Qe Qs, some s⟩)

/-- What `_forces` leaves behind for a starved bearing, cylindrical.py 1111-1770: the arrays and `theta_vol_groove`. -/
noncomputable def film_starved (solve : Solver) (fuel : ℕ) (J : Journal) :
    Option (Res (StarvedFields × (ℕ → ℝ))) :=
  match B.pad_ct with
  | .error e => some (.error e)
  | .ok ct =>
    match whileLoop (fun m : StarvedMixing => 0.5 ≤ m.T_mist 0 - m.T_conv) (B.starved_mixing solve J fuel) fuel
        ⟨0.8 * B.reference_temperature, fun _ => 1, fun _ => B.reference_temperature, fun _ => 0.8, none⟩ with
    | none => none
    | some (.error e) => some (.error e)
    | some (.ok m) =>
      match m.film with
      | none => some (.error .attributeError)
      | some s => if ct.length ≠ B.n_pad then some (.error .valueError) else some (.ok (s, m.groove))

/-- `_forces`, cylindrical.py 1111-1806, for a starved bearing. -/
noncomputable def forces_starved (solve : Solver) (fuel : ℕ) (J : Journal) : Option (Res (ℝ × ℝ)) :=
  match B.film_starved solve fuel J with
  | none => none
  | some (.error e) => some (.error e)
  | some (.ok s) => some (.ok (B.resultant s.1.P))

end THD

end Ross.Thd
