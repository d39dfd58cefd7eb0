import Mathlib.Analysis.SpecialFunctions.Pow.Real
import Mathlib.Analysis.SpecialFunctions.Trigonometric.Basic
import Verif.Model.Bearing
import Verif.Model.FluidFlow

/-!
# Model of `THDCylindrical` (`ross/fluid_flow/cylindrical.py`)

Arrays are functions of their indices.  The bearing is modelled for `operating_type = "flooded"` and
`method = "perturbation"`; what `_forces` gives for `"starvation"` and what `_lund_method` gives are parameters (they are
modelled in `Verif.Model.ThdStarved` and `Verif.Model.ThdLund`).  Loops that need not end take an
amount of fuel, and give `none` when it does not suffice.  What is printed is left out.
-/

namespace Ross.Thd

open Real Ross.Fluid.FluidFlow

/-- An entry of `lubricant_dict`, lubricants.py 5-43. -/
structure Lubricant where
  viscosity1 : ℝ
  temp1 : ℝ
  viscosity2 : ℝ
  temp2 : ℝ
  lube_density : ℝ
  lube_cp : ℝ
  lube_conduct : ℝ

/-- One reyn in Pa s. -/
noncomputable def reyn : ℝ := 6894.757293168361

/-- `lubricant_dict`, lubricants.py 5-43.  The units are those of pint, so that temperatures are in kelvin. -/
noncomputable def lubricant_dict : List (String × Lubricant) :=
  [("ISOVG32", ⟨4.05640e-06 * reyn, 40 + 273.15, 6.76911e-07 * reyn, 100 + 273.15, 873.99629, 1948.7995685758851,
      0.13126⟩),
   ("ISOVG46", ⟨5.757040938820288e-06 * reyn, 40 + 273.15, 8.810775697672788e-07 * reyn, 100 + 273.15, 862.9, 1950,
      0.15⟩),
   ("TEST", ⟨0.04, 40 + 273.15, 0.01, 100 + 273.15, 863.61302696, 1951.88616, 0.15⟩),
   ("ISOVG68", ⟨0.0570722, 40 + 273.15, 0.00766498, 100 + 273.15, 867, 1951, 0.15⟩)]

/-- The attributes of a `THDCylindrical` object that are set in `__init__` (cylindrical.py 172-249) and take part in the
calculations; `speed` is the one of the current pass of the loop in `__init__`. -/
structure THD where
  axial_length : ℝ
  journal_radius : ℝ
  radial_clearance : ℝ
  elements_circumferential : ℕ
  elements_axial : ℕ
  n_pad : ℕ
  betha_s_dg : ℝ
  preload : ℝ
  geometry : String
  reference_temperature : ℝ
  load_x_direction : ℝ
  load_y_direction : ℝ
  fat_mixt : Coef
  sommerfeld_type : ℤ
  method : String
  operating_type : String
  injection_pressure : Option ℝ := none
  /-- In m³/s: `oil_flow / 60000`. -/
  oil_flow : ℝ := 0
  rho : ℝ
  Cp : ℝ
  k_t : ℝ
  a : ℝ
  b : ℝ
  speed : ℝ

/-- Where the centre of the journal is and how it moves: `X`, `Y`, `Xpt`, `Ypt`. -/
structure Journal where
  X : ℝ
  Y : ℝ
  Xpt : ℝ
  Ypt : ℝ

open Classical in
/-- `while cond: body`. -/
noncomputable def whileLoop {σ : Type} (test : σ → Prop) (body : σ → Option (Res σ)) : ℕ → σ → Option (Res σ)
  | 0, _ => none
  | fuel + 1, s =>
    if test s then
      match body s with
      | none => none
      | some (.error e) => some (.error e)
      | some (.ok s') => whileLoop test body fuel s'
    else some (.ok s)

/-- `np.trapz(y, x)` for `m` points. -/
noncomputable def trapz (m : ℕ) (y x : ℕ → ℝ) : ℝ :=
  ∑ q ∈ Finset.range (m - 1), (x (q + 1) - x q) * (y q + y (q + 1)) / 2

namespace THD

variable (B : THD)

/-- `betha_s`, cylindrical.py 199. -/
noncomputable def betha_s : ℝ := B.betha_s_dg * π / 180

/-- `dtheta`, cylindrical.py 201-203. -/
noncomputable def dtheta : ℝ := (B.betha_s - 0) / B.elements_circumferential

/-- `dY`, cylindrical.py 208. -/
noncomputable def dY : ℝ := 1 / B.elements_circumferential

/-- `dZ`, cylindrical.py 209. -/
noncomputable def dZ : ℝ := 1 / B.elements_axial

/-- `Z[i + 1]`, the middle of cell `i`, cylindrical.py 219-221. -/
noncomputable def Z (i : ℕ) : ℝ := 0.5 * B.dZ + i * B.dZ

/-- `reference_viscosity`, cylindrical.py 246. -/
noncomputable def reference_viscosity : ℝ := B.a * B.reference_temperature ^ B.b

/-- `pad_ct`, cylindrical.py 1119. -/
def pad_ct : Res (List ℕ) :=
  if B.n_pad = 0 then .error .zeroDivisionError
  else if 360 / B.n_pad = 0 then .error .valueError
  else .ok ((List.range ((360 + 360 / B.n_pad - 1) / (360 / B.n_pad))).map (fun p => p * (360 / B.n_pad)))

/-- `thetaI[p]`, cylindrical.py 1121-1123, where there is such a pad. -/
noncomputable def thetaI (p : ℕ) : ℝ :=
  ((p * (360 / B.n_pad) : ℕ) + 180 / (B.n_pad : ℝ) - B.betha_s_dg / 2) * π / 180

/-- `thetaF[p]`, cylindrical.py 1125-1127, where there is such a pad. -/
noncomputable def thetaF (p : ℕ) : ℝ :=
  ((p * (360 / B.n_pad) : ℕ) + 180 / (B.n_pad : ℝ) + B.betha_s_dg / 2) * π / 180

/-- `jj`, the angle of the middle of cell `kj` of pad `n_p`: `np.arange(thetaI + dtheta / 2, thetaF, dtheta)`,
cylindrical.py 312-316. -/
noncomputable def jj (n_p kj : ℕ) : ℝ := B.thetaI n_p + B.dtheta / 2 + kj * B.dtheta

/-- `Ytheta[p][j]`: `np.linspace(thetaI + dtheta / 2, thetaF - dtheta / 2, elements_circumferential)`,
cylindrical.py 1129-1136. -/
noncomputable def Ytheta (p j : ℕ) : ℝ :=
  B.thetaI p + B.dtheta / 2 +
    j * ((B.thetaF p - B.dtheta / 2 - (B.thetaI p + B.dtheta / 2)) / ((B.elements_circumferential : ℝ) - 1))

/-- `theta_pivot`, cylindrical.py 248-249, set for lobes only. -/
noncomputable def theta_pivot : List ℝ := [90 * π / 180, 270 * π / 180]

/-- The thickness of the film at angle `th` of pad `n_p`: `hP` for `jj`, `he` for `jj + 0.5 dtheta`, `hw` for
`jj - 0.5 dtheta`, cylindrical.py 317-384. -/
noncomputable def film (J : Journal) (n_p : ℕ) (th : ℝ) : ℝ :=
  if B.geometry = "circular" then 1 - J.X * cos th - J.Y * sin th
  else if B.geometry = "lobe" then
    1 / (1 - B.preload) - J.X * cos th - J.Y * sin th -
      B.preload / (1 - B.preload) * cos (th - theta_pivot.getD n_p 0)
  else 1 - J.X * cos th - J.Y * sin th + B.preload / (1 - B.preload) * cos th ^ 2

/-- What is raised by the code for `film`: for a lobe `theta_pivot` has two entries, and for any other name no thickness
is assigned.  (Divisions of numbers of Python by 0 raise.) -/
noncomputable def film_check (n_p : ℕ) : Res Unit :=
  if B.geometry = "circular" then .ok ()
  else if B.geometry = "lobe" then
    if B.preload = 1 then .error .zeroDivisionError
    else if theta_pivot.length ≤ n_p then .error .indexError else .ok ()
  else if B.geometry = "elliptical" then
    if B.preload = 1 then .error .zeroDivisionError else .ok ()
  else .error .nameError

/-- `MU_e`, the nine cases of cylindrical.py 386-454 together. -/
noncomputable def MU_e (mu : ℕ → ℕ → ℝ) (ki kj : ℕ) : ℝ :=
  if kj = B.elements_circumferential - 1 then mu ki kj else 0.5 * (mu ki kj + mu ki (kj + 1))

/-- `MU_w`, cylindrical.py 386-454. -/
noncomputable def MU_w (mu : ℕ → ℕ → ℝ) (ki kj : ℕ) : ℝ :=
  if kj = 0 then mu ki kj else 0.5 * (mu ki kj + mu ki (kj - 1))

/-- `MU_n`, cylindrical.py 386-454. -/
noncomputable def MU_n (mu : ℕ → ℕ → ℝ) (ki kj : ℕ) : ℝ :=
  if ki = B.elements_axial - 1 then mu ki kj else 0.5 * (mu ki kj + mu (ki + 1) kj)

/-- `MU_s`, cylindrical.py 386-454. -/
noncomputable def MU_s (mu : ℕ → ℕ → ℝ) (ki kj : ℕ) : ℝ :=
  if ki = 0 then mu ki kj else 0.5 * (mu ki kj + mu (ki - 1) kj)

/-- `CE`, cylindrical.py 456. -/
noncomputable def CE (J : Journal) (n_p : ℕ) (mu : ℕ → ℕ → ℝ) (ki kj : ℕ) : ℝ :=
  (B.dZ * B.film J n_p (B.jj n_p kj + 0.5 * B.dtheta) ^ 3) / (12 * B.MU_e mu ki kj * B.dY * B.betha_s ^ 2)

/-- `CW`, cylindrical.py 457. -/
noncomputable def CW (J : Journal) (n_p : ℕ) (mu : ℕ → ℕ → ℝ) (ki kj : ℕ) : ℝ :=
  (B.dZ * B.film J n_p (B.jj n_p kj - 0.5 * B.dtheta) ^ 3) / (12 * MU_w mu ki kj * B.dY * B.betha_s ^ 2)

/-- `CN`, cylindrical.py 458-460. -/
noncomputable def CN (J : Journal) (n_p : ℕ) (mu : ℕ → ℕ → ℝ) (ki kj : ℕ) : ℝ :=
  (B.dY * B.journal_radius ^ 2 * B.film J n_p (B.jj n_p kj) ^ 3) /
    (12 * B.MU_n mu ki kj * B.dZ * B.axial_length ^ 2)

/-- `CS`, cylindrical.py 461-463. -/
noncomputable def CS (J : Journal) (n_p : ℕ) (mu : ℕ → ℕ → ℝ) (ki kj : ℕ) : ℝ :=
  (B.dY * B.journal_radius ^ 2 * B.film J n_p (B.jj n_p kj) ^ 3) /
    (12 * MU_s mu ki kj * B.dZ * B.axial_length ^ 2)

/-- `B`, cylindrical.py 466-468. -/
noncomputable def source (J : Journal) (n_p kj : ℕ) : ℝ :=
  (B.dZ / (2 * B.betha_s)) *
      (B.film J n_p (B.jj n_p kj + 0.5 * B.dtheta) - B.film J n_p (B.jj n_p kj - 0.5 * B.dtheta)) -
    (J.Xpt * cos (B.jj n_p kj) + J.Ypt * sin (B.jj n_p kj)) * B.dY * B.dZ

/-- The row of `Mat_coef` for cell `ki`, `kj` as it is written by the nine cases of cylindrical.py 473-538: `r` is
`k - 1`, and `c` the column. -/
noncomputable def row_P (CP CE CW CN CS : ℝ) (ki kj r c : ℕ) : ℝ :=
  let nc := B.elements_circumferential
  let na := B.elements_axial
  if ki = 0 ∧ kj = 0 then
    if c = r then CP - CS - CW else if c = r + 1 then CE else if c = r + nc then CN else 0
  else if kj = 0 ∧ 0 < ki ∧ ki < na - 1 then
    if c = r then CP - CW else if c = r + 1 then CE else if c + nc = r then CS else if c = r + nc then CN else 0
  else if kj = 0 ∧ ki = na - 1 then
    if c = r then CP - CN - CW else if c = r + 1 then CE else if c + nc = r then CS else 0
  else if ki = 0 ∧ 0 < kj ∧ kj < nc - 1 then
    if c = r then CP - CS else if c = r + 1 then CE else if c + 1 = r then CW else if c = r + nc then CN else 0
  else if 0 < ki ∧ ki < na - 1 ∧ 0 < kj ∧ kj < nc - 1 then
    if c = r then CP else if c + 1 = r then CW else if c + nc = r then CS else if c = r + nc then CN
      else if c = r + 1 then CE else 0
  else if ki = na - 1 ∧ 0 < kj ∧ kj < nc - 1 then
    if c = r then CP - CN else if c = r + 1 then CE else if c + 1 = r then CW else if c + nc = r then CS else 0
  else if ki = 0 ∧ kj = nc - 1 then
    if c = r then CP - CE - CS else if c + 1 = r then CW else if c = r + nc then CN else 0
  else if kj = nc - 1 ∧ 0 < ki ∧ ki < na - 1 then
    if c = r then CP - CE else if c + 1 = r then CW else if c + nc = r then CS else if c = r + nc then CN else 0
  else if ki = na - 1 ∧ kj = nc - 1 then
    if c = r then CP - CE - CN else if c + 1 = r then CW else if c + nc = r then CS else 0
  else 0

/-- `Mat_coef`, cylindrical.py 307-543.  The loops pass every cell once and fill the rows in order; row `r` is for
`ki = r // elements_circumferential` and `kj = r % elements_circumferential`.  The matrix is made of zeros once for all
pads and passes, and the same entries are overwritten every time. -/
noncomputable def Mat_coef (J : Journal) (n_p : ℕ) (mu : ℕ → ℕ → ℝ) (r c : ℕ) : ℝ :=
  let ki := r / B.elements_circumferential
  let kj := r % B.elements_circumferential
  let CE := B.CE J n_p mu ki kj
  let CW := B.CW J n_p mu ki kj
  let CN := B.CN J n_p mu ki kj
  let CS := B.CS J n_p mu ki kj
  B.row_P (-(CE + CW + CN + CS)) CE CW CN CS ki kj r c

/-- `b_P`, cylindrical.py 471. -/
noncomputable def b_P (J : Journal) (n_p : ℕ) (r : ℕ) : ℝ := B.source J n_p (r % B.elements_circumferential)

/-- `_flooded`, cylindrical.py 286-564: the pressure of pad `n_p`, without dimension.  With fewer than two cells in a
direction `mu[ki, kj + 1]` or `mu[ki + 1, kj]` is out of range.  `np.linalg.solve` raises for singular matrices, which the
solver that stands for it does not. -/
noncomputable def flooded (solve : Solver) (J : Journal) (n_p : ℕ) (mu : ℕ → ℕ → ℝ) : Res (ℕ → ℕ → ℝ) := do
  B.film_check n_p
  if B.elements_circumferential < 2 ∨ B.elements_axial < 2 then .error .indexError
  else
    let p := solve (B.elements_axial * B.elements_circumferential) (B.Mat_coef J n_p mu) (B.b_P J n_p)
    .ok (fun i j =>
      if p (i * B.elements_circumferential + j) < 0 then 0 else p (i * B.elements_circumferential + j))

/-- `Pdim`, cylindrical.py 560-562. -/
noncomputable def Pdim (P : ℕ → ℕ → ℕ → ℝ) (i j n_p : ℕ) : ℝ :=
  (P i j n_p * B.reference_viscosity * B.speed * B.journal_radius ^ 2) / B.radial_clearance ^ 2

/-- `dPdy`, the nine cases of cylindrical.py 1266-1356 together. -/
noncomputable def dPdy (P : ℕ → ℕ → ℝ) (ki kj : ℕ) : ℝ :=
  ((if kj = B.elements_circumferential - 1 then 0 else P ki (kj + 1)) - (if kj = 0 then 0 else P ki (kj - 1))) /
    (2 * B.dY)

/-- `dPdz`, cylindrical.py 1266-1356. -/
noncomputable def dPdz (P : ℕ → ℕ → ℝ) (ki kj : ℕ) : ℝ :=
  ((if ki = B.elements_axial - 1 then 0 else P (ki + 1) kj) - (if ki = 0 then 0 else P (ki - 1) kj)) / (2 * B.dZ)

/-- `hpt`, cylindrical.py 1385. -/
noncomputable def hpt (J : Journal) (th : ℝ) : ℝ := -J.Xpt * cos th - J.Ypt * sin th

/-- `Reyn`, cylindrical.py 1403-1410. -/
noncomputable def Reyn (HP mu_p : ℝ) : ℝ :=
  B.rho * B.speed * B.journal_radius * (HP / B.axial_length) * B.radial_clearance / (B.reference_viscosity * mu_p)

/-- `delta_turb`, cylindrical.py 1412-1421. -/
noncomputable def delta_turb (Re : ℝ) : ℝ :=
  if Re ≤ 500 then 0 else if Re ≤ 1000 then 1 - ((1000 - Re) / 500) ^ (1 / 8 : ℝ) else 1

/-- `emv`, cylindrical.py 1423-1440, where `mt` is the entry of `mu_turb` before. -/
noncomputable def emv (HP dPdy dPdz mt : ℝ) : ℝ :=
  let dudy := (HP / mt) * dPdy - B.speed / HP
  let dwdy := (HP / mt) * dPdz
  let tal := mt * √(dudy ^ 2 + dwdy ^ 2)
  let x_wall := ((HP * B.radial_clearance * 2) / (B.reference_viscosity * mt / B.rho)) * √(|tal| / B.rho)
  0.4 * (x_wall - 10.7 * tanh (x_wall / 10.7))

/-- The new entry of `mu_turb`, cylindrical.py 1442. -/
noncomputable def mi_t (HP dPdy dPdz mu_p mt : ℝ) : ℝ :=
  mu_p * (1 + delta_turb (B.Reyn HP mu_p) * B.emv HP dPdy dPdz mt)

/-- `AE`, cylindrical.py 1453-1459. -/
noncomputable def AE (HP : ℝ) : ℝ :=
  -(B.k_t * HP * B.dZ) / (B.rho * B.Cp * B.speed * (B.betha_s * B.journal_radius) ^ 2 * B.dY)

/-- `AW`, cylindrical.py 1460-1476. -/
noncomputable def AW (HP dPdy mi_t : ℝ) : ℝ :=
  (HP ^ 3 * dPdy * B.dZ) / (12 * mi_t * B.betha_s ^ 2) - HP * B.dZ / (2 * B.betha_s) -
    (B.k_t * HP * B.dZ) / (B.rho * B.Cp * B.speed * (B.betha_s * B.journal_radius) ^ 2 * B.dY)

/-- `AN`, cylindrical.py 1478-1494. -/
noncomputable def AN (HP dPdz mi_t : ℝ) : ℝ :=
  -((B.journal_radius ^ 2 * HP ^ 3 * (dPdz * B.dY)) / (2 * 12 * B.axial_length ^ 2 * mi_t)) -
    (B.k_t * HP * B.dY) / (B.rho * B.Cp * B.speed * B.axial_length ^ 2 * B.dZ)

/-- `AS`, cylindrical.py 1496-1512. -/
noncomputable def AS (HP dPdz mi_t : ℝ) : ℝ :=
  (B.journal_radius ^ 2 * HP ^ 3 * (dPdz * B.dY)) / (2 * 12 * B.axial_length ^ 2 * mi_t) -
    (B.k_t * HP * B.dY) / (B.rho * B.Cp * B.speed * B.axial_length ^ 2 * B.dZ)

/-- `auxb_T`, cylindrical.py 1516-1521. -/
noncomputable def auxb_T : ℝ :=
  (B.speed * B.reference_viscosity) / (B.rho * B.Cp * B.reference_temperature * B.radial_clearance)

/-- `B_T`, cylindrical.py 1522-1585. -/
noncomputable def B_T (HP P hpt dPdy dPdz mi_t : ℝ) : ℝ :=
  let b_TG := (B.reference_viscosity * B.speed * B.journal_radius ^ 2 * B.dY * B.dZ * P * hpt) /
    (B.rho * B.Cp * B.reference_temperature * B.radial_clearance ^ 2)
  let b_TH := (B.speed * B.reference_viscosity * hpt ^ 2 * 4 * mi_t * B.dY * B.dZ) /
    (B.rho * B.Cp * B.reference_temperature * 3 * HP)
  let b_TI := B.auxb_T * (mi_t * B.journal_radius ^ 2 * B.dY * B.dZ) / (HP * B.radial_clearance)
  let b_TJ := B.auxb_T * (B.journal_radius ^ 2 * HP ^ 3 * dPdy ^ 2 * B.dY * B.dZ) /
    (12 * B.radial_clearance * B.betha_s ^ 2 * mi_t)
  let b_TK := B.auxb_T * (B.journal_radius ^ 4 * HP ^ 3 * dPdz ^ 2 * B.dY * B.dZ) /
    (12 * B.radial_clearance * B.axial_length ^ 2 * mi_t)
  b_TG + b_TH + b_TI + b_TJ + b_TK

/-- The row of `Mat_coef_T` for cell `ki`, `kj` as it is written by the nine cases of cylindrical.py 1591-1693. -/
noncomputable def row_T (AP AE AW AN AS : ℝ) (ki kj r c : ℕ) : ℝ :=
  let nc := B.elements_circumferential
  let na := B.elements_axial
  if ki = 0 ∧ kj = 0 then
    if c = r then AP + AS - AW else if c = r + 1 then AE else if c = r + nc then AN else 0
  else if kj = 0 ∧ 0 < ki ∧ ki < na - 1 then
    if c = r then AP - AW else if c = r + 1 then AE else if c + nc = r then AS else if c = r + nc then AN else 0
  else if kj = 0 ∧ ki = na - 1 then
    if c = r then AP + AN - AW else if c = r + 1 then AE else if c + nc = r then AS else 0
  else if ki = 0 ∧ 0 < kj ∧ kj < nc - 1 then
    if c = r then AP + AS else if c = r + 1 then AE else if c + 1 = r then AW else if c = r + nc then AN else 0
  else if 0 < ki ∧ ki < na - 1 ∧ 0 < kj ∧ kj < nc - 1 then
    if c = r then AP else if c + 1 = r then AW else if c + nc = r then AS else if c = r + nc then AN
      else if c = r + 1 then AE else 0
  else if ki = na - 1 ∧ 0 < kj ∧ kj < nc - 1 then
    if c = r then AP + AN else if c = r + 1 then AE else if c + 1 = r then AW else if c + nc = r then AS else 0
  else if ki = 0 ∧ kj = nc - 1 then
    if c = r then AP + AE + AS else if c + 1 = r then AW else if c = r + nc then AN else 0
  else if kj = nc - 1 ∧ 0 < ki ∧ ki < na - 1 then
    if c = r then AP + AE else if c + 1 = r then AW else if c + nc = r then AS else if c = r + nc then AN else 0
  else if ki = na - 1 ∧ kj = nc - 1 then
    if c = r then AP + AE + AN else if c + 1 = r then AW else if c + nc = r then AS else 0
  else 0

/-- `HP` of cell `kj`, cylindrical.py 1358-1380. -/
noncomputable def HP (J : Journal) (n_p kj : ℕ) : ℝ := B.film J n_p (B.jj n_p kj)

/-- The entries of `mu_turb` of pad `n_p` after the pass, where `mt` are those before it. -/
noncomputable def mu_turb (J : Journal) (n_p : ℕ) (P mu mt : ℕ → ℕ → ℝ) (ki kj : ℕ) : ℝ :=
  B.mi_t (B.HP J n_p kj) (B.dPdy P ki kj) (B.dPdz P ki kj) (mu ki kj) (mt ki kj)

/-- `Mat_coef_T`, cylindrical.py 1250-1698, where `mt` are the new entries of `mu_turb`. -/
noncomputable def Mat_coef_T (J : Journal) (n_p : ℕ) (P mt : ℕ → ℕ → ℝ) (r c : ℕ) : ℝ :=
  let ki := r / B.elements_circumferential
  let kj := r % B.elements_circumferential
  let AE := B.AE (B.HP J n_p kj)
  let AW := B.AW (B.HP J n_p kj) (B.dPdy P ki kj) (mt ki kj)
  let AN := B.AN (B.HP J n_p kj) (B.dPdz P ki kj) (mt ki kj)
  let AS := B.AS (B.HP J n_p kj) (B.dPdz P ki kj) (mt ki kj)
  B.row_T (-(AE + AW + AN + AS)) AE AW AN AS ki kj r c

/-- `b_T`, cylindrical.py 1589 and, in the first column, 1597-1599 and the like. -/
noncomputable def b_T (J : Journal) (n_p : ℕ) (P mt : ℕ → ℕ → ℝ) (T_ref : ℝ) (r : ℕ) : ℝ :=
  let ki := r / B.elements_circumferential
  let kj := r % B.elements_circumferential
  let B_T := B.B_T (B.HP J n_p kj) (P ki kj) (hpt J (B.jj n_p kj)) (B.dPdy P ki kj) (B.dPdz P ki kj) (mt ki kj)
  if kj = 0 then
    B_T - 2 * B.AW (B.HP J n_p kj) (B.dPdy P ki kj) (mt ki kj) * (T_ref / B.reference_temperature)
  else B_T

/-- The arrays that the loops of `_forces` change. -/
structure Fields where
  P : ℕ → ℕ → ℕ → ℝ
  T : ℕ → ℕ → ℕ → ℝ
  T_new : ℕ → ℕ → ℕ → ℝ
  mu_new : ℕ → ℕ → ℕ → ℝ
  mu_turb : ℕ → ℕ → ℕ → ℝ
  T_end : ℕ → ℝ
  T_mist : ℕ → ℝ

/-- `A[:, :, n_p] = v`. -/
def setPad (A : ℕ → ℕ → ℕ → ℝ) (n_p : ℕ) (v : ℕ → ℕ → ℝ) : ℕ → ℕ → ℕ → ℝ :=
  fun i j p => if p = n_p then v i j else A i j p

/-- `A[:, :, n_p]`. -/
def pad (A : ℕ → ℕ → ℕ → ℝ) (n_p : ℕ) : ℕ → ℕ → ℝ := fun i j => A i j n_p

/-- `n_p - 1`, where -1 is the last pad. -/
def before (n_p : ℕ) : ℕ := if n_p = 0 then B.n_pad - 1 else n_p - 1

/-- `self.fat_mixt[n_p]`; an array made of a number has no entries. -/
def fat (n_p : ℕ) : Res ℝ :=
  match B.fat_mixt with
  | .scalar _ => .error .indexError
  | .list l => match l[n_p]? with
    | some f => .ok f
    | none => .error .indexError

/-- `np.linalg.norm` of an array with a row for each cell along the axis. -/
noncomputable def norm (A : ℕ → ℕ → ℝ) : ℝ :=
  √(∑ i ∈ Finset.range B.elements_axial, ∑ j ∈ Finset.range B.elements_circumferential, A i j ^ 2)

/-- The condition of the loop over the temperatures of a pad, cylindrical.py 1204-1208. -/
def pad_cond (n_p : ℕ) (s : Fields) : Prop :=
  0.01 ≤ B.norm (fun i j => s.T_new i j n_p - s.T i j n_p) / B.norm (pad s.T n_p)

/-- The body of this loop, cylindrical.py 1209-1722, for a flooded bearing. -/
noncomputable def pad_step (solve : Solver) (J : Journal) (n_p : ℕ) (s : Fields) : Res Fields := do
  let nc := B.elements_circumferential
  let T_ref := s.T_mist n_p
  let mu := pad s.mu_new n_p
  let P ← B.flooded solve J n_p mu
  let mt := B.mu_turb J n_p P mu (pad s.mu_turb n_p)
  let t := solve (B.elements_axial * nc) (B.Mat_coef_T J n_p P mt) (B.b_T J n_p P mt T_ref)
  let T_new : ℕ → ℕ → ℝ := fun i j => t (i * nc + j)
  let T_end := (∑ i ∈ Finset.range B.elements_axial, T_new i (nc - 1) * B.reference_temperature) / B.elements_axial
  let f ← B.fat n_p
  .ok { P := setPad s.P n_p P
        T := setPad s.T n_p (pad s.T_new n_p)
        T_new := setPad s.T_new n_p T_new
        mu_new := setPad s.mu_new n_p
          (fun i j => (B.a * (T_new i j * B.reference_temperature) ^ B.b) / B.reference_viscosity)
        mu_turb := setPad s.mu_turb n_p mt
        T_end := Function.update s.T_end n_p T_end
        T_mist := Function.update s.T_mist (B.before n_p) (f * B.reference_temperature + (1 - f) * T_end) }

/-- The loop over the temperatures of pad `n_p`. -/
noncomputable def pad_loop (solve : Solver) (J : Journal) (fuel n_p : ℕ) (s : Fields) : Option (Res Fields) :=
  whileLoop (B.pad_cond n_p) (fun s => some (B.pad_step solve J n_p s)) fuel s

/-- The loop over the pads, cylindrical.py 1201-1722: the pads of the list in order. -/
noncomputable def pads_loop (solve : Solver) (J : Journal) (fuel : ℕ) : List ℕ → Fields → Option (Res Fields)
  | [], s => some (.ok s)
  | n_p :: rest, s =>
    match B.pad_loop solve J fuel n_p s with
    | none => none
    | some (.error e) => some (.error e)
    | some (.ok s') => pads_loop solve J fuel rest s'

/-- The arrays at the start of a pass of the loop over the mixing temperatures, cylindrical.py 1143-1199. -/
noncomputable def fresh (T_end T_mist : ℕ → ℝ) : Fields where
  P := fun _ _ _ => 0
  T := fun _ _ _ => 1
  T_new := fun _ _ _ => 1.2
  mu_new := fun _ _ _ => 1.1
  mu_turb := fun _ _ _ => 1.3
  T_end := T_end
  T_mist := T_mist

/-- What the passes of the loop over the mixing temperatures hand on: `T_conv` and the arrays.  `P` is `none` before the
first pass, when `Pdim` is not there; `mu_l` is the same array as `mu_new` (line 1213). -/
structure Mixing where
  T_conv : ℝ
  T_end : ℕ → ℝ
  T_mist : ℕ → ℝ
  P : Option (ℕ → ℕ → ℕ → ℝ)
  mu_l : ℕ → ℕ → ℕ → ℝ

/-- The body of the loop over the mixing temperatures, cylindrical.py 1142-1770, for a flooded bearing. -/
noncomputable def mixing_step (solve : Solver) (J : Journal) (fuel : ℕ) (m : Mixing) : Option (Res Mixing) :=
  match B.pads_loop solve J fuel (List.range B.n_pad) (fresh m.T_end m.T_mist) with
  | none => none
  | some (.error e) => some (.error e)
  | some (.ok s) => some (.ok ⟨m.T_mist 0, s.T_end, s.T_mist, some s.P, s.mu_new⟩)

/-- The forces of cylindrical.py 1772-1806: `np.trapz` around, where the pads follow each other, and along the axis. -/
noncomputable def resultant (P : ℕ → ℕ → ℕ → ℝ) : ℝ × ℝ :=
  let nc := B.elements_circumferential
  let m := nc * B.n_pad
  let PPlot : ℕ → ℕ → ℝ := fun i q => B.Pdim P i (q % nc) (q / nc)
  let Y : ℕ → ℝ := fun q => B.Ytheta (q / nc) (q % nc)
  let fx1 : ℕ → ℝ := fun i => trapz m (fun q => PPlot i q * cos (Y q)) (fun q => B.journal_radius * Y q)
  let fy1 : ℕ → ℝ := fun i => trapz m (fun q => PPlot i q * sin (Y q)) (fun q => B.journal_radius * Y q)
  (-trapz B.elements_axial fx1 (fun i => B.axial_length * B.Z i),
    -trapz B.elements_axial fy1 (fun i => B.axial_length * B.Z i))

/-- What `_forces` leaves behind in `P` and `mu_l` for a flooded bearing, cylindrical.py 1111-1770.  There are `pad_ct`
angles, and as many columns as pads: the products in 1793-1796 fail when these are not the same. -/
noncomputable def film_flooded (solve : Solver) (fuel : ℕ) (J : Journal) :
    Option (Res ((ℕ → ℕ → ℕ → ℝ) × (ℕ → ℕ → ℕ → ℝ))) :=
  match B.pad_ct with
  | .error e => some (.error e)
  | .ok ct =>
    match whileLoop (fun m : Mixing => 0.5 ≤ m.T_mist 0 - m.T_conv) (B.mixing_step solve J fuel) fuel
        ⟨0.8 * B.reference_temperature, fun _ => 1, fun _ => B.reference_temperature, none, fun _ _ _ => 0⟩ with
    | none => none
    | some (.error e) => some (.error e)
    | some (.ok m) =>
      match m.P with
      | none => some (.error .attributeError)
      | some P => if ct.length ≠ B.n_pad then some (.error .valueError) else some (.ok (P, m.mu_l))

/-- `_forces`, cylindrical.py 1111-1806, for a flooded bearing. -/
noncomputable def forces_flooded (solve : Solver) (fuel : ℕ) (J : Journal) : Option (Res (ℝ × ℝ)) :=
  match B.film_flooded solve fuel J with
  | none => none
  | some (.error e) => some (.error e)
  | some (.ok s) => some (.ok (B.resultant s.1))

end THD

/-- What stands for the libraries and for what is not modelled: `np.linalg.solve`, `curve_fit` (from two abscissas and two
ordinates to `a`, `b`), `minimize` (from the objective and the start to the result and the last point at which the
objective was calculated), `_forces` for a starved bearing, and `_lund_method`, from the point at which `_forces` was called
last. -/
structure Env where
  solve : Solver
  curve_fit : ℝ × ℝ → ℝ × ℝ → ℝ × ℝ
  minimize : (ℝ × ℝ → Option (Res ℝ)) → ℝ × ℝ → Option (Res ((ℝ × ℝ) × (ℝ × ℝ)))
  starvation : THD → Journal → Option (Res (ℝ × ℝ))
  lund : THD → ℝ × ℝ → Option (Res ((ℝ × ℝ × ℝ × ℝ) × (ℝ × ℝ × ℝ × ℝ)))

namespace THD

variable (B : THD)

/-- `_forces`, cylindrical.py 1060-1806, when `X`, `Y`, `Xpt`, `Ypt` are there.  For any other operating type no pressure
is calculated. -/
noncomputable def forces_at (env : Env) (fuel : ℕ) (J : Journal) : Option (Res (ℝ × ℝ)) :=
  if B.operating_type = "flooded" then B.forces_flooded env.solve fuel J
  else if B.operating_type = "starvation" then env.starvation B J
  else some (.error .attributeError)

/-- `_forces(x, None, None, None)`, cylindrical.py 1085-1102. -/
noncomputable def forces_polar (env : Env) (fuel : ℕ) (x : ℝ × ℝ) : Option (Res (ℝ × ℝ)) :=
  let xr := x.1 * B.radial_clearance * cos x.2
  let yr := x.1 * B.radial_clearance * sin x.2
  B.forces_at env fuel ⟨xr / B.radial_clearance, yr / B.radial_clearance, 0, 0⟩

/-- `_forces(x, y, xpt, ypt)`, cylindrical.py 1104-1109. -/
noncomputable def forces (env : Env) (fuel : ℕ) (x y xpt ypt : ℝ) : Option (Res (ℝ × ℝ)) :=
  B.forces_at env fuel ⟨x / B.radial_clearance, y / B.radial_clearance,
    xpt / (B.radial_clearance * B.speed), ypt / (B.radial_clearance * B.speed)⟩

/-- `_score`, cylindrical.py 2876-2904. -/
noncomputable def score (env : Env) (fuel : ℕ) (x : ℝ × ℝ) : Option (Res ℝ) :=
  match B.forces_polar env fuel x with
  | none => none
  | some (.error e) => some (.error e)
  | some (.ok F) => some (.ok √((B.load_x_direction + F.1) ^ 2 + (B.load_y_direction + F.2) ^ 2))

/-- `sommerfeld`, cylindrical.py 2906-2945.  For another type `S` is not assigned. -/
noncomputable def sommerfeld (force_x force_y : ℝ) : Res ℝ :=
  if B.sommerfeld_type = 1 then
    .ok ((B.reference_viscosity * B.journal_radius ^ 3 * B.axial_length * B.speed) /
      (π * B.radial_clearance ^ 2 * √(B.load_x_direction ^ 2 + B.load_y_direction ^ 2)))
  else if B.sommerfeld_type = 2 then
    .ok (1 / (2 * (B.axial_length / (2 * B.journal_radius)) ^ 2 * √(force_x ^ 2 + force_y ^ 2)))
  else .error .nameError

/-- `xeq`, cylindrical.py 1916-1920. -/
noncomputable def xeq (eq : ℝ × ℝ) : ℝ := eq.1 * B.radial_clearance * cos eq.2
/-- `yeq`, cylindrical.py 1921-1925. -/
noncomputable def yeq (eq : ℝ × ℝ) : ℝ := eq.1 * B.radial_clearance * sin eq.2
/-- `epix`, cylindrical.py 1927-1928. -/
noncomputable def epix (eq : ℝ × ℝ) : ℝ := |0.001 * B.radial_clearance * cos eq.2|
/-- `epiy`, cylindrical.py 1929. -/
noncomputable def epiy (eq : ℝ × ℝ) : ℝ := |0.001 * B.radial_clearance * sin eq.2|
/-- `epixpt`, cylindrical.py 1931-1932. -/
noncomputable def epixpt (eq : ℝ × ℝ) : ℝ := 0.000001 * |B.speed * B.journal_radius * sin eq.2|
/-- `epiypt`, cylindrical.py 1933. -/
noncomputable def epiypt (eq : ℝ × ℝ) : ℝ := 0.000001 * |B.speed * B.journal_radius * cos eq.2|

/-- `_pertubation_method` after the calls of `_forces`, cylindrical.py 1945-2009: from the eight forces to the stiffness
(xx, xy, yx, yy) and the damping.  The step is 0, and the quotients are not numbers, when the attitude angle is a multiple
of a right angle: that is not modelled. -/
noncomputable def perturbed (eq : ℝ × ℝ) (A1 A2 A3 A4 A5 A6 A7 A8 : ℝ × ℝ) :
    Res ((ℝ × ℝ × ℝ × ℝ) × (ℝ × ℝ × ℝ × ℝ)) := do
  let c := B.radial_clearance
  let S1 ← B.sommerfeld A1.1 A2.2
  let Kxx := -S1 * ((A1.1 - A2.1) / (B.epix eq / c))
  let S2 ← B.sommerfeld A3.1 A4.2
  let Kxy := -S2 * ((A3.1 - A4.1) / (B.epiy eq / c))
  let S3 ← B.sommerfeld A1.2 A2.2
  let Kyx := -S3 * ((A1.2 - A2.2) / (B.epix eq / c))
  let S4 ← B.sommerfeld A3.2 A4.2
  let Kyy := -S4 * ((A3.2 - A4.2) / (B.epiy eq / c))
  let S5 ← B.sommerfeld A5.1 A6.2
  let Cxx := -S5 * ((A5.1 - A6.1) / (B.epixpt eq / c / B.speed))
  let S6 ← B.sommerfeld A7.1 A8.2
  let Cxy := -S6 * ((A7.1 - A8.1) / (B.epiypt eq / c / B.speed))
  let S7 ← B.sommerfeld A5.1 A6.2
  let Cyx := -S7 * ((A5.2 - A6.2) / (B.epixpt eq / c / B.speed))
  let S8 ← B.sommerfeld A7.1 A8.2
  let Cyy := -S8 * ((A7.2 - A8.2) / (B.epiypt eq / c / B.speed))
  let W := √(B.load_x_direction ^ 2 + B.load_y_direction ^ 2)
  .ok ((W / c * Kxx, W / c * Kxy, W / c * Kyx, W / c * Kyy),
    (W / (c * B.speed) * Cxx, W / (c * B.speed) * Cxy, W / (c * B.speed) * Cyx, W / (c * B.speed) * Cyy))

/-- `x` and then `f`. -/
def andThen {α β : Type} (x : Option (Res α)) (f : α → Option (Res β)) : Option (Res β) :=
  match x with
  | none => none
  | some (.error e) => some (.error e)
  | some (.ok a) => f a

/-- `_pertubation_method`, cylindrical.py 1909-2009. -/
noncomputable def pertubation_method (env : Env) (fuel : ℕ) (eq : ℝ × ℝ) :
    Option (Res ((ℝ × ℝ × ℝ × ℝ) × (ℝ × ℝ × ℝ × ℝ))) :=
  let F := B.forces env fuel
  let x := B.xeq eq
  let y := B.yeq eq
  andThen (F (x + B.epix eq) y 0 0) fun A1 =>
  andThen (F (x - B.epix eq) y 0 0) fun A2 =>
  andThen (F x (y + B.epiy eq) 0 0) fun A3 =>
  andThen (F x (y - B.epiy eq) 0 0) fun A4 =>
  andThen (F x y (B.epixpt eq) 0) fun A5 =>
  andThen (F x y (-B.epixpt eq) 0) fun A6 =>
  andThen (F x y 0 (B.epiypt eq)) fun A7 =>
  andThen (F x y 0 (-B.epiypt eq)) fun A8 =>
  some (B.perturbed eq A1 A2 A3 A4 A5 A6 A7 A8)

/-- `run`, cylindrical.py 1808-1832: `equilibrium_pos`, and `initial_guess` as `_forces` leaves it (line 1086). -/
noncomputable def run (env : Env) (fuel : ℕ) (initial_guess : ℝ × ℝ) : Option (Res ((ℝ × ℝ) × (ℝ × ℝ))) :=
  env.minimize (B.score env fuel) initial_guess

/-- `coefficients` after `run`, cylindrical.py 1867-1907: `eg` is what `run` gives.  For another method `k` is not
assigned. -/
noncomputable def coefficients (env : Env) (fuel : ℕ) (eg : (ℝ × ℝ) × (ℝ × ℝ)) :
    Option (Res ((ℝ × ℝ × ℝ × ℝ) × (ℝ × ℝ × ℝ × ℝ))) :=
  if B.method = "lund" then env.lund B eg.2
  else if B.method = "perturbation" then B.pertubation_method env fuel eg.1
  else some (.error .nameError)

end THD

/-- The arguments of `THDCylindrical` (cylindrical.py 144-172) after `check_units`.  `speed` is a number or an array. -/
structure ThdArgs where
  axial_length : ℝ
  journal_radius : ℝ
  radial_clearance : ℝ
  elements_circumferential : ℕ
  elements_axial : ℕ
  n_pad : ℕ
  pad_arc_length : ℝ
  preload : ℝ
  geometry : String
  reference_temperature : ℝ
  speed : Coef
  load_x_direction : ℝ
  load_y_direction : ℝ
  groove_factor : Coef
  lubricant : String
  node : ℕ
  sommerfeld_type : ℤ := 2
  initial_guess : ℝ × ℝ := (0.1, -0.1)
  method : String := "perturbation"
  operating_type : String := "flooded"
  injection_pressure : Option ℝ := none
  oil_flow : Option ℝ := none

namespace THD

/-- `_interpol`, cylindrical.py 1834-1865, with the degrees Celsius of cylindrical.py 235-236. -/
noncomputable def interpol (env : Env) (L : Lubricant) : ℝ × ℝ :=
  env.curve_fit (L.temp1 - 273.15, L.temp2 - 273.15) (L.viscosity1, L.viscosity2)

/-- The attributes, cylindrical.py 173-249. -/
noncomputable def attributes (env : Env) (A : ThdArgs) : Res THD :=
  -- 203, 208, 209
  if A.elements_circumferential = 0 ∨ A.elements_axial = 0 then .error .zeroDivisionError
  else match A.oil_flow with
    -- 231
    | none => .error .typeError
    | some q =>
      -- 233
      match lubricant_dict.lookup A.lubricant with
      | none => .error .keyError
      | some L => .ok
        { axial_length := A.axial_length
          journal_radius := A.journal_radius
          radial_clearance := A.radial_clearance
          elements_circumferential := A.elements_circumferential
          elements_axial := A.elements_axial
          n_pad := A.n_pad
          betha_s_dg := A.pad_arc_length
          preload := A.preload
          geometry := A.geometry
          reference_temperature := A.reference_temperature
          load_x_direction := A.load_x_direction
          load_y_direction := A.load_y_direction
          fat_mixt := A.groove_factor
          sommerfeld_type := A.sommerfeld_type
          method := A.method
          operating_type := A.operating_type
          injection_pressure := A.injection_pressure
          oil_flow := q / 60000
          rho := L.lube_density
          Cp := L.lube_cp
          k_t := L.lube_conduct
          a := (interpol env L).1
          b := (interpol env L).2
          speed := 0 }

/-- The loop of `__init__`, cylindrical.py 253-282: the coefficients for each speed. -/
noncomputable def table (env : Env) (fuel : ℕ) (B : THD) :
    List ℝ → ℝ × ℝ → Option (Res (List ((ℝ × ℝ × ℝ × ℝ) × (ℝ × ℝ × ℝ × ℝ))))
  | [], _ => some (.ok [])
  | w :: rest, guess =>
    andThen ({ B with speed := w }.run env fuel guess) fun eg =>
    andThen ({ B with speed := w }.coefficients env fuel eg) fun kc =>
    andThen (table env fuel B rest eg.2) fun l => some (.ok (kc :: l))

/-- The arguments of the call of `BearingElement.__init__`, cylindrical.py 284: they are passed by position, in the
order of bearing_seal_element.py 120-140. -/
def super_args (node : ℕ) (kxx cxx kyy kxy kyx cyy cxy cyx speed : List ℝ) : BearingArgs where
  n := node
  kxx := .list kxx
  cxx := .list cxx
  mxx := some (.list kyy)
  kyy := some (.list kxy)
  kxy := .list kyx
  kyx := .list cyy
  cyy := some (.list cxy)
  cxy := .list cyx
  cyx := .list speed

/-- `THDCylindrical.__init__`, cylindrical.py 144-284. -/
noncomputable def init (env : Env) (sp : Scipy) (fuel : ℕ) (A : ThdArgs) : Option (Res BearingElement) :=
  andThen (some (attributes env A)) fun B =>
  match A.speed with
  -- 251: the shape of a number is empty
  | .scalar _ => some (.error .indexError)
  | .list speed =>
    andThen (table env fuel B speed A.initial_guess) fun l =>
    some (BearingElement.init sp (super_args A.node (l.map fun kc => kc.1.1) (l.map fun kc => kc.2.1)
      (l.map fun kc => kc.1.2.2.2) (l.map fun kc => kc.1.2.1) (l.map fun kc => kc.1.2.2.1)
      (l.map fun kc => kc.2.2.2.2) (l.map fun kc => kc.2.2.1) (l.map fun kc => kc.2.2.2.1) speed))

end THD

end Ross.Thd
