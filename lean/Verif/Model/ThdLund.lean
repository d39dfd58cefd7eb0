import Mathlib.Analysis.Complex.Basic
import Verif.Model.Thd

/-!
# Model of `THDCylindrical._lund_method` (`ross/fluid_flow/cylindrical.py` 2011-2874)

The code has every coefficient twice, for displacements along `x` with `HX = -cos` and along `y` with `HY = -sin`; here `D`
is one of these functions.  Arrays over the cells of a pad are indexed as after `flatten`.  The tolerance `1e-6` of the code
is the parameter `tol`.
-/

namespace Ross.Thd.THD

open Real Ross.Fluid.FluidFlow

variable (B : THD)

/-- `HX` and its like, cylindrical.py 2030, 2148-2150. -/
noncomputable def HX (th : ℝ) : ℝ := -cos th

/-- `HY` and its like, cylindrical.py 2032, 2152-2154. -/
noncomputable def HY (th : ℝ) : ℝ := -sin th

/-- `gamma`, cylindrical.py 2028. -/
noncomputable def lund_gamma : ℝ := 0.001

/-- `CE`, cylindrical.py 2281-2288. -/
noncomputable def lund_CE (J : Journal) (n_p : ℕ) (mu : ℕ → ℕ → ℝ) (ki kj : ℕ) : ℝ :=
  1 / B.betha_s ^ 2 * B.film J n_p (B.jj n_p kj + 0.5 * B.dtheta) ^ 3 / (12 * B.MU_e mu ki kj) * B.dZ / B.dY

/-- `CW`, cylindrical.py 2289-2296. -/
noncomputable def lund_CW (J : Journal) (n_p : ℕ) (mu : ℕ → ℕ → ℝ) (ki kj : ℕ) : ℝ :=
  1 / B.betha_s ^ 2 * B.film J n_p (B.jj n_p kj - 0.5 * B.dtheta) ^ 3 / (12 * MU_w mu ki kj) * B.dZ / B.dY

/-- `CN`, cylindrical.py 2297-2303. -/
noncomputable def lund_CN (J : Journal) (n_p : ℕ) (mu : ℕ → ℕ → ℝ) (ki kj : ℕ) : ℝ :=
  (B.journal_radius / B.axial_length) ^ 2 * B.film J n_p (B.jj n_p kj) ^ 3 / (12 * B.MU_n mu ki kj) * B.dY / B.dZ

/-- `CS`, cylindrical.py 2304-2310. -/
noncomputable def lund_CS (J : Journal) (n_p : ℕ) (mu : ℕ → ℕ → ℝ) (ki kj : ℕ) : ℝ :=
  (B.journal_radius / B.axial_length) ^ 2 * B.film J n_p (B.jj n_p kj) ^ 3 / (12 * MU_s mu ki kj) * B.dY / B.dZ

/-- `CXE` and `CYE`, cylindrical.py 2313-2321, 2349-2357. -/
noncomputable def CDE (D : ℝ → ℝ) (J : Journal) (n_p : ℕ) (mu : ℕ → ℕ → ℝ) (ki kj : ℕ) : ℝ :=
  -1 / B.betha_s ^ 2 * B.film J n_p (B.jj n_p kj + 0.5 * B.dtheta) ^ 2 * D (B.jj n_p kj + 0.5 * B.dtheta) /
    (4 * B.MU_e mu ki kj) * B.dZ / B.dY

/-- `CXW` and `CYW`, cylindrical.py 2322-2330, 2358-2366. -/
noncomputable def CDW (D : ℝ → ℝ) (J : Journal) (n_p : ℕ) (mu : ℕ → ℕ → ℝ) (ki kj : ℕ) : ℝ :=
  -1 / B.betha_s ^ 2 * B.film J n_p (B.jj n_p kj - 0.5 * B.dtheta) ^ 2 * D (B.jj n_p kj - 0.5 * B.dtheta) /
    (4 * MU_w mu ki kj) * B.dZ / B.dY

/-- `CXN` and `CYN`, cylindrical.py 2331-2338, 2367-2374. -/
noncomputable def CDN (D : ℝ → ℝ) (J : Journal) (n_p : ℕ) (mu : ℕ → ℕ → ℝ) (ki kj : ℕ) : ℝ :=
  -(B.journal_radius / B.axial_length) ^ 2 * B.film J n_p (B.jj n_p kj) ^ 2 * D (B.jj n_p kj) /
    (4 * B.MU_n mu ki kj) * B.dY / B.dZ

/-- `CXS` and `CYS`, cylindrical.py 2339-2346, 2375-2382. -/
noncomputable def CDS (D : ℝ → ℝ) (J : Journal) (n_p : ℕ) (mu : ℕ → ℕ → ℝ) (ki kj : ℕ) : ℝ :=
  -(B.journal_radius / B.axial_length) ^ 2 * B.film J n_p (B.jj n_p kj) ^ 2 * D (B.jj n_p kj) /
    (4 * MU_s mu ki kj) * B.dY / B.dZ

/-- Row `k` of `Mat_coef`: the nine cases of cylindrical.py 2405-2756, which place the coefficients as those of `_flooded`
do. -/
noncomputable def lund_row (J : Journal) (n_p : ℕ) (mu : ℕ → ℕ → ℝ) (k c : ℕ) : ℝ :=
  let ki := k / B.elements_circumferential
  let kj := k % B.elements_circumferential
  let CE := B.lund_CE J n_p mu ki kj
  let CW := B.lund_CW J n_p mu ki kj
  let CN := B.lund_CN J n_p mu ki kj
  let CS := B.lund_CS J n_p mu ki kj
  B.row_P (-(CE + CW + CN + CS)) CE CW CN CS ki kj k c

/-- Row `k` of `Mat_coefX` and `Mat_coefY`, cylindrical.py 2405-2756. -/
noncomputable def lund_rowD (D : ℝ → ℝ) (J : Journal) (n_p : ℕ) (mu : ℕ → ℕ → ℝ) (k c : ℕ) : ℝ :=
  let ki := k / B.elements_circumferential
  let kj := k % B.elements_circumferential
  let CE := B.CDE D J n_p mu ki kj
  let CW := B.CDW D J n_p mu ki kj
  let CN := B.CDN D J n_p mu ki kj
  let CS := B.CDS D J n_p mu ki kj
  B.row_P (-(CE + CW + CN + CS)) CE CW CN CS ki kj k c

/-- `KXW` and `KYW`, cylindrical.py 2385, 2391. -/
noncomputable def KDW (D : ℝ → ℝ) (n_p kj : ℕ) : ℝ := -1 / (2 * B.betha_s) * D (B.jj n_p kj - 0.5 * B.dtheta) * B.dZ

/-- `KXP` and `KYP`, cylindrical.py 2386-2389, 2392-2395. -/
noncomputable def KDP (D : ℝ → ℝ) (n_p kj : ℕ) : ℂ :=
  (1 / (2 * B.betha_s) * D (B.jj n_p kj + 0.5 * B.dtheta) * B.dZ : ℝ) +
    (0 + Complex.I * (lund_gamma : ℝ) * (D (B.jj n_p kj) : ℝ)) * (B.dY : ℝ) * (B.dZ : ℝ)

/-- What `_lund_method` finds in the object: the place of the journal, the pressure, the viscosity, and the part of the
film that is oil, in the cells of a pad (`Theta_vol`) and in the groove before it (`theta_vol_groove`). -/
structure LundFilm where
  J : Journal
  P : ℕ → ℕ → ℝ
  mu : ℕ → ℕ → ℝ
  Theta_vol : ℕ → ℕ → ℝ
  theta_vol_groove : ℝ

/-- `BX` and `BY`, cylindrical.py 2424-2435 and the like, with `injection_pressure`. -/
noncomputable def lund_B (inj : ℝ) (D : ℝ → ℝ) (n_p : ℕ) (F : LundFilm) (k : ℕ) : ℂ :=
  let nc := B.elements_circumferential
  let ki := k / nc
  let kj := k % nc
  let CDP : ℝ := ∑ c ∈ Finset.range (B.elements_axial * nc), B.lund_rowD D F.J n_p F.mu k c * F.P (c / nc) (c % nc)
  if kj = 0 then
    (CDP : ℂ) + (B.KDW D n_p kj * F.theta_vol_groove : ℝ) + B.KDP D n_p kj * (F.Theta_vol ki kj : ℝ) +
      (2 * B.CDW D F.J n_p F.mu ki kj * inj : ℝ)
  else (CDP : ℂ) + (B.KDW D n_p kj * F.Theta_vol ki (kj - 1) : ℝ) + B.KDP D n_p kj * (F.Theta_vol ki kj : ℝ)

/-- The new entry `k` of `PX` or `PY`, cylindrical.py 2437-2442 and the like. -/
noncomputable def lund_entry (inj : ℝ) (D : ℝ → ℝ) (n_p : ℕ) (F : LundFilm) (x : ℕ → ℂ) (k : ℕ) : ℂ :=
  (B.lund_B inj D n_p F k - ∑ c ∈ (Finset.range (B.elements_axial * B.elements_circumferential)).erase k,
    (B.lund_row F.J n_p F.mu k c : ℂ) * x c) / (B.lund_row F.J n_p F.mu k k : ℂ)

open Classical in
/-- What the loops over the cells do with cell `k`: nothing, where there is no pressure (line 2071). -/
noncomputable def lund_cell (inj : ℝ) (D : ℝ → ℝ) (n_p : ℕ) (F : LundFilm) (x : ℕ → ℂ) (k : ℕ) : ℕ → ℂ :=
  if 0 < F.P (k / B.elements_circumferential) (k % B.elements_circumferential) then
    Function.update x k (B.lund_entry inj D n_p F x k)
  else x

/-- The loops over the cells, cylindrical.py 2063-2786, for `PX` or `PY`; neither is used for the other. -/
noncomputable def lund_sweep (inj : ℝ) (D : ℝ → ℝ) (n_p : ℕ) (F : LundFilm) (x : ℕ → ℂ) : ℕ → ℂ :=
  (List.range (B.elements_axial * B.elements_circumferential)).foldl (B.lund_cell inj D n_p F) x

/-- `np.linalg.norm` of an array over the cells. -/
noncomputable def lund_norm (x : ℕ → ℂ) : ℝ :=
  √(∑ k ∈ Finset.range (B.elements_axial * B.elements_circumferential), Complex.normSq (x k))

/-- What the loop of cylindrical.py 2051 changes. -/
structure Whirl where
  erro : ℝ
  PX : ℕ → ℂ
  PY : ℕ → ℂ

/-- The body of this loop, cylindrical.py 2052-2788. -/
noncomputable def lund_step (inj : ℝ) (n_p : ℕ) (F : LundFilm) (s : Whirl) : Whirl :=
  let PX := B.lund_sweep inj HX n_p F s.PX
  let PY := B.lund_sweep inj HY n_p F s.PY
  ⟨B.lund_norm (fun k => PX k - s.PX k) + B.lund_norm (fun k => PY k - s.PY k), PX, PY⟩

open Classical in
/-- The loop for pad `n_p`, cylindrical.py 2049-2788.  `2 * CXW * None` fails, in the first column, where there is
pressure. -/
noncomputable def lund_pad (tol : ℝ) (fuel n_p : ℕ) (F : LundFilm) : Option (Res Whirl) :=
  match B.injection_pressure with
  | none =>
    if ∃ i < B.elements_axial, 0 < F.P i 0 then some (.error .typeError)
    else whileLoop (fun s : Whirl => s.erro > tol) (fun s => some (.ok (B.lund_step 0 n_p F s))) fuel
      ⟨1, fun _ => 0, fun _ => 0⟩
  | some inj =>
    whileLoop (fun s : Whirl => s.erro > tol) (fun s => some (.ok (B.lund_step inj n_p F s))) fuel
      ⟨1, fun _ => 0, fun _ => 0⟩

/-- The loop over the pads, cylindrical.py 2049. -/
noncomputable def lund_pads (tol : ℝ) (fuel : ℕ) (F : ℕ → LundFilm) : List ℕ → Option (Res (ℕ → Whirl))
  | [] => some (.ok fun _ => ⟨1, fun _ => 0, fun _ => 0⟩)
  | n_p :: rest =>
    andThen (B.lund_pad tol fuel n_p (F n_p)) fun w =>
    andThen (lund_pads tol fuel F rest) fun ws => some (.ok (Function.update ws n_p w))

/-- `np.trapz` of complex values. -/
noncomputable def ctrapz (m : ℕ) (y : ℕ → ℂ) (x : ℕ → ℝ) : ℂ :=
  ∑ q ∈ Finset.range (m - 1), ((x (q + 1) - x q : ℝ) : ℂ) * (y q + y (q + 1)) / 2

/-- `np.trapz(np.trapz(PXPlot * HX, Ytheta * R), Zdim)` and the like, cylindrical.py 2790-2823; `x p` is `PX` or `PY` for
pad `p`. -/
noncomputable def lund_integral (D : ℝ → ℝ) (x : ℕ → ℕ → ℂ) : ℂ :=
  let nc := B.elements_circumferential
  let dim : ℝ := B.reference_viscosity * B.speed * B.journal_radius ^ 2
  let plot : ℕ → ℕ → ℂ := fun i q => x (q / nc) (i * nc + q % nc) * (dim : ℂ) / ((B.radial_clearance ^ 3 : ℝ) : ℂ)
  let Y : ℕ → ℝ := fun q => B.Ytheta (q / nc) (q % nc)
  ctrapz B.elements_axial (fun i => ctrapz (nc * B.n_pad) (fun q => plot i q * (D (Y q) : ℂ))
    (fun q => Y q * B.journal_radius)) (fun i => B.Z i * B.axial_length)

/-- The coefficients, cylindrical.py 2818-2874. -/
noncomputable def lund_coefficients (w : ℕ → Whirl) : (ℝ × ℝ × ℝ × ℝ) × (ℝ × ℝ × ℝ × ℝ) :=
  let xx := B.lund_integral HX (fun p => (w p).PX)
  let xy := B.lund_integral HX (fun p => (w p).PY)
  let yx := B.lund_integral HY (fun p => (w p).PX)
  let yy := B.lund_integral HY (fun p => (w p).PY)
  ((-xx.re, -xy.re, -yx.re, -yy.re),
    (-xx.im / (lund_gamma * B.speed), -xy.im / (lund_gamma * B.speed), -yx.im / (lund_gamma * B.speed),
      -yy.im / (lund_gamma * B.speed)))

/-- `_lund_method`, cylindrical.py 2011-2874, where `F n_p` is what it finds for pad `n_p`. -/
noncomputable def lund_method (tol : ℝ) (fuel : ℕ) (F : ℕ → LundFilm) :
    Option (Res ((ℝ × ℝ × ℝ × ℝ) × (ℝ × ℝ × ℝ × ℝ))) :=
  andThen (B.lund_pads tol fuel F (List.range B.n_pad)) fun w => some (.ok (B.lund_coefficients w))

/-- What `_lund_method` finds for a flooded bearing after `_forces` for the point `x`, cylindrical.py 1085-1102,
2043-2047: the groove and the film are full of oil. -/
noncomputable def lund_flooded (x : ℝ × ℝ) (s : (ℕ → ℕ → ℕ → ℝ) × (ℕ → ℕ → ℕ → ℝ)) (n_p : ℕ) : LundFilm where
  J := ⟨x.1 * B.radial_clearance * cos x.2 / B.radial_clearance, x.1 * B.radial_clearance * sin x.2 / B.radial_clearance,
    0, 0⟩
  P := pad s.1 n_p
  mu := pad s.2 n_p
  Theta_vol := fun _ _ => 1
  theta_vol_groove := 1

/-- `_lund_method` of a flooded bearing, when `_forces` was called last for the point `x`. -/
noncomputable def lund (solve : Solver) (fuel : ℕ) (x : ℝ × ℝ) : Option (Res ((ℝ × ℝ × ℝ × ℝ) × (ℝ × ℝ × ℝ × ℝ))) :=
  andThen (B.film_flooded solve fuel ⟨x.1 * B.radial_clearance * cos x.2 / B.radial_clearance,
    x.1 * B.radial_clearance * sin x.2 / B.radial_clearance, 0, 0⟩) fun s =>
  B.lund_method 0.000001 fuel (B.lund_flooded x s)

end Ross.Thd.THD
