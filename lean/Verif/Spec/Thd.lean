import Mathlib.Analysis.SpecialFunctions.Integrals.Basic
import Mathlib.Analysis.SpecialFunctions.Pow.Real
import Mathlib.Analysis.SpecialFunctions.Trigonometric.Basic
import Verif.Spec.FluidPressure

/-!
# Conservation of mass and energy in the film of a thermohydrodynamic bearing

A pad is divided into `na` cells along the axis and `nc` cells around it, of the sizes `dZ` and `dY`.  Without
dimension, the pad has the lengths 1 and 1; `β` is the angle of the pad, `κ = (R / L)²`, `h` is the thickness of the film
in the middle of the cells of a column, `hf j` that at the face before column `j`, and `h'` its rate of change.
-/

namespace Ross.Spec.Thd

/-- The arithmetic mean of the values on both sides of a face; at the edge of the pad the value inside. -/
noncomputable def mean (edge : Bool) (inside outside : ℝ) : ℝ := if edge then inside else (inside + outside) / 2

/-- The slope of the pressure from one cell to the next, at the distance `d`. -/
noncomputable def slope (p p' d : ℝ) : ℝ := (p' - p) / d

/-- The slope of the pressure across the face after cell `j` of `n` cells of the size `d`: the edge of the pad is half
a cell away and has the pressure 0. -/
noncomputable def slopeAfter (n : ℕ) (d : ℝ) (p : ℕ → ℝ) (j : ℕ) : ℝ :=
  if j = n - 1 then slope (p j) 0 (d / 2) else slope (p j) (p (j + 1)) d

/-- The slope of the pressure across the face before cell `j`. -/
noncomputable def slopeBefore (d : ℝ) (p : ℕ → ℝ) (j : ℕ) : ℝ :=
  if j = 0 then slope 0 (p j) (d / 2) else slope (p (j - 1)) (p j) d

/-- The viscosity at the face after cell `j` of `n`. -/
noncomputable def meanAfter (n : ℕ) (mu : ℕ → ℝ) (j : ℕ) : ℝ := mean (decide (j = n - 1)) (mu j) (mu (j + 1))

/-- The viscosity at the face before cell `j`. -/
noncomputable def meanBefore (mu : ℕ → ℝ) (j : ℕ) : ℝ := mean (decide (j = 0)) (mu j) (mu (j - 1))

/-- Flow around the axis, through a face with the thickness `h`: what the journal drags along, and what the pressure
drives. -/
noncomputable def around (β h mu s : ℝ) : ℝ := h / (2 * β) - h ^ 3 / (12 * mu * β ^ 2) * s

/-- Flow along the axis. -/
noncomputable def along (κ h mu s : ℝ) : ℝ := -(κ * h ^ 3 / (12 * mu) * s)

/-- What flows out of cell `i`, `j`, and by how much its film becomes thicker. -/
noncomputable def excess (na nc : ℕ) (dY dZ β κ : ℝ) (h hf h' : ℕ → ℝ) (mu P : ℕ → ℕ → ℝ) (i j : ℕ) : ℝ :=
  (around β (hf (j + 1)) (meanAfter nc (mu i) j) (slopeAfter nc dY (P i) j) -
      around β (hf j) (meanBefore (mu i) j) (slopeBefore dY (P i) j)) * dZ +
    (along κ (h j) (meanAfter na (fun i => mu i j) i) (slopeAfter na dZ (fun i => P i j) i) -
      along κ (h j) (meanBefore (fun i => mu i j) i) (slopeBefore dZ (fun i => P i j) i)) * dY +
    h' j * (dY * dZ)

/-- In every cell the film becomes thicker by what flows in. -/
def MassBalance (na nc : ℕ) (dY dZ β κ : ℝ) (h hf h' : ℕ → ℝ) (mu P : ℕ → ℕ → ℝ) : Prop :=
  ∀ i < na, ∀ j < nc, excess na nc dY dZ β κ h hf h' mu P i j = 0

/-- The balance of mass in the cells of a pad that begins at the angle `t0` and has the angle `β`: `h t` is the thickness
of the film at the angle `t`, and `h' t` its rate of change. -/
def PadBalance (na nc : ℕ) (t0 β κ : ℝ) (h h' : ℝ → ℝ) (mu P : ℕ → ℕ → ℝ) : Prop :=
  MassBalance na nc (1 / nc) (1 / na) β κ (fun j => h (t0 + (j + 1 / 2) * (β / nc))) (fun j => h (t0 + j * (β / nc)))
    (fun j => h' (t0 + (j + 1 / 2) * (β / nc))) mu P

/-- What flows out of a cell of this pad, and by how much its film becomes thicker. -/
noncomputable def padExcess (na nc : ℕ) (t0 β κ : ℝ) (h h' : ℝ → ℝ) (mu P : ℕ → ℕ → ℝ) (i j : ℕ) : ℝ :=
  excess na nc (1 / nc) (1 / na) β κ (fun j => h (t0 + (j + 1 / 2) * (β / nc))) (fun j => h (t0 + j * (β / nc)))
    (fun j => h' (t0 + (j + 1 / 2) * (β / nc))) mu P i j

/-- The slope of the pressure in the middle of cell `j` of `n`, from the cells on both sides; beyond the edges of the pad
the pressure is 0. -/
noncomputable def slopeAt (n : ℕ) (d : ℝ) (p : ℕ → ℝ) (j : ℕ) : ℝ :=
  ((if j = n - 1 then 0 else p (j + 1)) - (if j = 0 then 0 else p (j - 1))) / (2 * d)

/-- What is dissipated in a column of the film with the thickness `h` and the viscosity `mu`, where one wall moves with the
speed 1 and the slopes of the pressure are `gy` and `gz`: viscosity times the square of the shear rate, over the
thickness. -/
noncomputable def dissipation (h mu gy gz : ℝ) : ℝ :=
  ∫ y in (0 : ℝ)..h, mu * ((1 / h + gy / (2 * mu) * (2 * y - h)) ^ 2 + (gz / (2 * mu) * (2 * y - h)) ^ 2)

/-- In every cell what the flow carries away is what conduction brings and what is set free as heat.  The flow around the
axis comes from the cell before, with the temperature `Tin` at the entry of the pad; across the other edges no heat
goes.  `kY` and `kZ` are the conductances between neighbours, `heat i j` what is set free. -/
def EnergyBalance (na nc : ℕ) (dY dZ β κ kY kZ Tin : ℝ) (h : ℕ → ℝ) (mu P heat T : ℕ → ℕ → ℝ) : Prop :=
  ∀ i < na, ∀ j < nc,
    let Tw := if j = 0 then 2 * Tin - T i j else T i (j - 1)
    let Te := if j = nc - 1 then T i j else T i (j + 1)
    let Ts := if i = 0 then T i j else T (i - 1) j
    let Tn := if i = na - 1 then T i j else T (i + 1) j
    around β (h j) (mu i j) (slopeAt nc dY (P i) j) * dZ * (T i j - Tw) +
        along κ (h j) (mu i j) (slopeAt na dZ (fun i => P i j) i) * dY * ((Tn - Ts) / 2) =
      kY * h j * (Te + Tw - 2 * T i j) + kZ * h j * (Tn + Ts - 2 * T i j) + heat i j

/-- The Reynolds number of a film with the thickness `h`, between walls that pass each other with the speed `v`. -/
noncomputable def reynolds (rho v h mu : ℝ) : ℝ := rho * v * h / mu

/-- The thickness of the film, to first order, at the angle `t` between a journal with the centre `J` and a circular
surface with the centre `C`, whose radius is larger than that of the journal by `c`: the clearance less the projection of
the distance of the centres. -/
noncomputable def gap (c : ℝ) (C J : ℝ × ℝ) (t : ℝ) : ℝ :=
  c - ((J.1 - C.1) * Real.cos t + (J.2 - C.2) * Real.sin t)

/-- The clearance, to first order, at the angle `t` of an ellipse with the clearance `cx` at the angles 0 and π, and `cy`
a quarter of a turn from there. -/
noncomputable def ellipse (cx cy t : ℝ) : ℝ := cx * Real.cos t ^ 2 + cy * Real.sin t ^ 2

/-- The force on the journal of the pressure `p i j` in the cells of a pad, which have the area `A` and their middle at the
angles `t j`: every cell pushes towards the axis. -/
noncomputable def push (na nc : ℕ) (A : ℝ) (t : ℕ → ℝ) (p : ℕ → ℕ → ℝ) : ℝ × ℝ :=
  (-∑ i ∈ Finset.range na, ∑ j ∈ Finset.range nc, p i j * A * Real.cos (t j),
    -∑ i ∈ Finset.range na, ∑ j ∈ Finset.range nc, p i j * A * Real.sin (t j))

/-- `a` and `b` are the curve `a x ^ b` through two points. -/
def Through (a b : ℝ) (x y : ℝ × ℝ) : Prop := a * x.1 ^ b = y.1 ∧ a * x.2 ^ b = y.2

/-- A fit of `a x ^ b` to two points that passes through them, when they lie to the right of 0 and above it. -/
def FitOk (fit : ℝ × ℝ → ℝ × ℝ → ℝ × ℝ) : Prop :=
  ∀ x y : ℝ × ℝ, 0 < x.1 → 0 < x.2 → x.1 ≠ x.2 → 0 < y.1 → 0 < y.2 → Through (fit x y).1 (fit x y).2 x y

/-- What a force resists to a displacement or a velocity `ε`, by the central difference: `Fp` is the force for `ε`, `Fm` that
for `-ε`. -/
noncomputable def resistance (Fp Fm ε : ℝ) : ℝ := -(Fp - Fm) / (2 * ε)

/-- What is left of the load. -/
noncomputable def residual (load F : ℝ × ℝ) : ℝ := √((load.1 + F.1) ^ 2 + (load.2 + F.2) ^ 2)

/-- The pressures `f s` change with the slope `q` at `s = 0`, in every cell. -/
def PressureSlope (na nc : ℕ) (f : ℝ → Except PyErr (ℕ → ℕ → ℝ)) (q : ℕ → ℕ → ℝ) : Prop :=
  ∃ P : ℝ → ℕ → ℕ → ℝ, (∀ s, f s = .ok (P s)) ∧ ∀ i < na, ∀ j < nc, HasDerivAt (fun s => P s i j) (q i j) 0

/-- The force `f s` becomes smaller with `s`, by `x` in the one direction and by `y` in the other. -/
def Resists (f : ℝ → ℝ × ℝ) (x y : ℝ) : Prop :=
  HasDerivAt (fun s => (f s).1) (-x) 0 ∧ HasDerivAt (fun s => (f s).2) (-y) 0

/-- A minimization that ends somewhere not worse than where it began. -/
def Descends (minimize : (ℝ × ℝ → Option (Except PyErr ℝ)) → ℝ × ℝ → Option (Except PyErr ((ℝ × ℝ) × (ℝ × ℝ)))) : Prop :=
  ∀ f x0 r, minimize f x0 = some (.ok r) → ∃ v0 v, f x0 = some (.ok v0) ∧ f r.1 = some (.ok v) ∧ v ≤ v0

end Ross.Spec.Thd
