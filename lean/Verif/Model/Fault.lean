import Mathlib.Analysis.SpecialFunctions.Trigonometric.Basic
import Verif.Model.TimeResponse
import Verif.Model.Integrator

/-! # Model of the part that the faults have in common

`Rubbing.run` (`ross/faults/rubbing.py` 109-237), `MisalignmentFlex.run` and `MisalignmentRigid.run`
(`ross/faults/misalignment.py` 141-279 and 597-750) and `Crack.run` (`ross/faults/crack.py` 122-332) repeat
the same statements: the law of the rotating speed, the reduction to twelve modes, the unbalance, the
integration. The line numbers below are those of `rubbing.py`.

Floating-point numbers are exact reals.  `np.linalg.pinv` of the modal mass matrix is its inverse.  For
`tI = tF` the code divides by zero and goes on with NaN, in this model with zeros; the integrator then makes
no step.  The arrays that record the forces of the steps (`forces_rub`, `forces`, `forces_crack`) are not
modelled, the functions that compute them are.  The progress messages are not modelled. -/

namespace Ross

namespace Fault

open Matrix

/-- The arguments that all faults share (87-102). -/
structure Args where
  dt : ℝ
  tI : ℝ
  tF : ℝ
  speed : ℝ
  unbalance_magnitude : List ℝ
  unbalance_phase : List ℝ

namespace Args

variable (a : Args)

/-- The check at the end of the constructors (104-107). -/
def check : Res Unit :=
  if a.unbalance_magnitude.length ≠ a.unbalance_phase.length then .error .exception else .ok ()

/-- `self.lambdat` (132). -/
noncomputable def lambdat : ℝ := 0.00001

/-- `self.sA` (137-140), with `speedI = speedF = speed` (97-98). -/
noncomputable def sA : ℝ :=
  (a.speed * Real.exp (-lambdat * a.tF) - a.speed * Real.exp (-lambdat * a.tI)) /
    (Real.exp (-lambdat * a.tF) - Real.exp (-lambdat * a.tI))

/-- `self.sB` (141-143). -/
noncomputable def sB : ℝ :=
  (a.speed - a.speed) / (Real.exp (-lambdat * a.tF) - Real.exp (-lambdat * a.tI))

/-- The number of elements of `np.arange(self.tI, self.tF + self.dt, self.dt)` (176). -/
noncomputable def samples : ℕ := ⌈(a.tF + a.dt - a.tI) / a.dt⌉.toNat

/-- `t_eval[i]`. -/
def time (i : ℕ) : ℝ := a.tI + i * a.dt

/-- `t_eval` (176). -/
noncomputable def t_eval : List ℝ := (List.range a.samples).map a.time

/-- `self.angular_position` at the time `T` (180-184). -/
noncomputable def angular_position (T : ℝ) : ℝ :=
  a.sA * T - (a.sB / lambdat) * Real.exp (-lambdat * T) + a.sB / lambdat

/-- `self.Omega` at the time `T` (186). -/
noncomputable def Omega (T : ℝ) : ℝ := a.sA + a.sB * Real.exp (-lambdat * T)

/-- `self.AccelV` at the time `T` (187). -/
noncomputable def AccelV (T : ℝ) : ℝ := -lambdat * a.sB * Real.exp (-lambdat * T)

/-- `self.tetaUNB[ii, :]` at the time `T` (197-199). -/
noncomputable def tetaUNB (phase T : ℝ) : ℝ := a.angular_position T + phase + Real.pi / 2

/-- `unbx` at the time `T` (201-205). -/
noncomputable def unbx (magnitude phase T : ℝ) : ℝ :=
  magnitude * a.AccelV T * Real.cos (a.tetaUNB phase T) -
    magnitude * (a.Omega T ^ 2) * Real.sin (a.tetaUNB phase T)

/-- `unby` at the time `T` (207-211). -/
noncomputable def unby (magnitude phase T : ℝ) : ℝ :=
  -magnitude * a.AccelV T * Real.sin (a.tetaUNB phase T) -
    magnitude * (a.Omega T ^ 2) * Real.cos (a.tetaUNB phase T)

end Args

/-- `F[k] += x`. -/
def addAt {N : ℕ} (F : Fin N → ℝ) (k : ℕ) (x : ℝ) : Fin N → ℝ :=
  fun i => if i.val = k then F i + x else F i

/-- The column of `FFunb` at the time `T`: the loop over the disks (196-214).  The row of the disk is
`6 n`, whatever the number of degrees of freedom of a node of the rotor. -/
noncomputable def FFunb {N : ℕ} (a : Args) (disks : List DiskEl) (T : ℝ) : Res (Fin N → ℝ) :=
  (disks.zip (a.unbalance_magnitude.zip a.unbalance_phase)).foldlM (fun F x =>
    let k := x.1.d.n * 6
    if N ≤ k + 1 then .error .indexError
    else .ok (addAt (addAt F k (a.unbx x.2.1 x.2.2 T)) (k + 1) (a.unby x.2.1 x.2.2 T))) 0

/-- The matrices of the reduced system (157-173, 218). -/
structure Modal (N : ℕ) where
  ModMat : Matrix (Fin N) (Fin 12) ℝ
  M : Matrix (Fin 12) (Fin 12) ℝ
  C : Matrix (Fin 12) (Fin 12) ℝ
  G : Matrix (Fin 12) (Fin 12) ℝ
  K : Matrix (Fin 12) (Fin 12) ℝ
  Ksdt : Matrix (Fin 12) (Fin 12) ℝ

/-- The reduction to twelve modes (157-173).  With fewer than twelve degrees of freedom the modal matrix
cannot be multiplied with the twelve modal displacements. -/
noncomputable def modal (ei : Eigh) (r : Rotor) (speed : ℝ) : Res (Modal r.ndof) := do
  let K ← r.K speed
  let C ← r.C speed
  let G ← r.G
  let M ← r.M (some speed)
  let Ksdt ← r.Ksdt
  match ei.eigh K M with
  | none => .error .linAlgError
  | some (_, V) =>
    if h : 12 ≤ r.ndof then
      let Φ : Matrix (Fin r.ndof) (Fin 12) ℝ := Matrix.of fun i j => V i ⟨j.val, by omega⟩
      .ok ⟨Φ, Φᵀ * M * Φ, Φᵀ * C * Φ, Φᵀ * G * Φ, Φᵀ * K * Φ, Φᵀ * Ksdt * Φ⟩
    else .error .valueError

/-- The first twelve components of a state, `Y[:12]`. -/
def positions (Y : Integrator.Vec) : Fin 12 → ℝ := fun k => Y ⟨k.val, by omega⟩

/-- The other twelve, `Y[12:]`. -/
def velocity (Y : Integrator.Vec) : Fin 12 → ℝ := fun k => Y ⟨k.val + 12, by omega⟩

/-- `new_Y` (277-279). -/
def joinState (x v : Fin 12 → ℝ) : Integrator.Vec :=
  fun k => if h : k.val < 12 then x ⟨k.val, h⟩ else v ⟨k.val - 12, by omega⟩

/-- `_equation_of_movement(T, Y, i)` (239-281), for a force `ft` of the fault at the positions, the
velocities and the step, which may read and write attributes of the fault. -/
noncomputable def eqMotion {N : ℕ} {S : Type} (a : Args) (md : Modal N) (Funb : ℕ → Fin N → ℝ)
    (force : (Fin N → ℝ) → (Fin N → ℝ) → ℕ → StateM S (Fin N → ℝ)) : Integrator.Func S :=
  fun _ Y i => do
    let q := positions Y
    let v := velocity Y
    let ft ← force (md.ModMat *ᵥ q) (md.ModMat *ᵥ v) i
    let new_V_dot := (md.ModMatᵀ *ᵥ ft + md.ModMatᵀ *ᵥ Funb i
      - (md.C + a.Omega (a.time i) • md.G) *ᵥ v
      - (md.K + a.AccelV (a.time i) • md.Ksdt) *ᵥ q) ᵥ* md.M⁻¹
    pure (joinState v new_V_dot)

/-- What a fault object holds after `run`: the time vector and the columns of `response`. -/
structure Result (N : ℕ) where
  time_vector : List ℝ
  response : List (Fin N → ℝ)

/-- The integrators that the faults call. -/
inductive Method
  | rk4
  | rk45

/-- `Integrator(tI, y0, tF, dt, func)` and one of its methods. -/
noncomputable def Method.run {S : Type} (m : Method) (a : Args) (func : Integrator.Func S) :
    Res (StateM S (List Integrator.Vec)) :=
  match m with
  | .rk4 => Integrator.rk4 a.tI 0 a.tF a.dt func
  | .rk45 => Integrator.rk45 a.tI 0 a.tF a.dt func

/-- `len(disk_elements) != len(unbalance_magnitude)` (120-122). -/
def checkDisks (r : Rotor) (a : Args) : Res Unit :=
  if r.disks.length ≠ a.unbalance_magnitude.length then .error .exception else .ok ()

/-- The rest of `run` (132-237).  `prep` is what the fault prepares before the integration: the attributes
that its force writes, as they are at the start, and the force.  A step of zero stops `np.arange` (176). -/
noncomputable def run {S : Type} (ei : Eigh) (r : Rotor) (a : Args) (m : Method)
    (prep : Res (S × ((Fin r.ndof → ℝ) → (Fin r.ndof → ℝ) → ℕ → StateM S (Fin r.ndof → ℝ)))) :
    Res (Result r.ndof × S) := do
  let md ← modal ei r a.speed
  if a.dt = 0 then .error .zeroDivisionError else do
  let Funb ← (List.range a.samples).mapM fun i => FFunb a r.disks (a.time i)
  let p ← prep
  let x ← m.run a (eqMotion a md (fun i => Funb.getD i 0) p.2)
  let y := x p.1
  pure (⟨a.t_eval, y.1.map fun Y => md.ModMat *ᵥ positions Y⟩, y.2)

/-- `x[k]`. -/
def comp {N : ℕ} (x : Fin N → ℝ) (k : ℕ) : ℝ := if h : k < N then x ⟨k, h⟩ else 0

end Fault

end Ross
