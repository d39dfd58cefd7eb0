import Mathlib.Analysis.SpecialFunctions.Log.Base
import Verif.Model.Shape
import Verif.Model.Intersection

/-!
# Critical speeds, Campbell diagram, undamped critical speed map and level 1 analysis

`run_critical_speed` (`rotor_assembly.py` 701-801), `run_campbell` (2408-2487), `run_ucs` (2489-2636) and `run_level1`
(2638-2711) of rotors with four degrees of freedom per node.  Numbers are real; units and warnings are left out.
-/

namespace Ross

/-- What is used of other packages. -/
structure RunEnv where
  sp : Scipy
  la : Lapack
  pd : Pandas
  /-- Passes allowed to the constructor of a rotor. -/
  fuel : ℕ
  /-- `scipy.optimize.newton(func, x0, rtol=rtol)`; it raises `RuntimeError` when it does not converge. -/
  newton : (ℝ → Res ℝ) → ℝ → ℝ → Res ℝ
  /-- `np.argsort`. -/
  argsort : List ℝ → List ℕ

/-- `l[i]` of an array. -/
def item {α : Type} (l : List α) (i : ℕ) : Res α :=
  match l[i]? with
  | some x => .ok x
  | none => .error .indexError

/-- `a[:] = l` for an array of length `n`. -/
def fill {α : Type} (n : ℕ) (l : List α) : Res (List α) :=
  if l.length = n then .ok l
  else
    match l with
    | [x] => .ok (List.replicate n x)
    | _ => .error .valueError

/-- `l[::2]`. -/
def everyOther {α : Type} : List α → List α
  | [] => []
  | [x] => [x]
  | x :: _ :: t => x :: everyOther t

/-- `np.linspace(start, stop, num)`. -/
noncomputable def linspace (start stop : ℝ) (num : ℕ) : List ℝ :=
  (List.range num).map fun i : ℕ => if num = 1 then start else start + i * ((stop - start) / (num - 1))

/-- `np.logspace(start, stop, num)`. -/
noncomputable def logspace (start stop : ℝ) (num : ℕ) : List ℝ := (linspace start stop num).map fun x => (10 : ℝ) ^ x

/-- `int(np.log10(k))`; the logarithm of other numbers than positive ones cannot be converted. -/
noncomputable def intLog10 (k : ℝ) : Res ℤ :=
  if 0 < k then .ok (if 0 ≤ Real.logb 10 k then ⌊Real.logb 10 k⌋ else ⌈Real.logb 10 k⌉) else .error .valueError

namespace Rotor

/-- What the analyses read of the results of `run_modal`. -/
structure Modes where
  wn : List ℝ
  wd : List ℝ
  damping_ratio : List ℝ
  log_dec : List ℝ
  whirl : List Whirl

variable (env : RunEnv)

/-- `run_modal` with the shapes of its results and their whirl (`rotor_assembly.py` 614-699). -/
noncomputable def modes (r : Rotor) (speed : ℝ) (num_modes : ℕ := 12) (synchronous : Bool := false) : Res Modes := do
  let m ← r.run_modal env.la speed num_modes true synchronous
  let l ← ModalResults.shapes env.la m (List.range r.nodes_pos.length) r.nodes_pos r.shaft_elements_length r.number_dof
  pure ⟨m.wn, m.wd, m.damping_ratio, m.log_dec, ModalResults.whirl_direction l⟩

/-- A `CriticalSpeedResults` (`results.py` 776-798). -/
structure CriticalSpeeds where
  wn : List ℝ
  wd : List ℝ
  log_dec : List ℝ
  damping_ratio : List ℝ
  whirl_direction : List Whirl

/-- One row of the arrays of `run_critical_speed`. -/
structure CriticalRow where
  wn : ℝ
  wd : ℝ
  log_dec : ℝ
  damping_ratio : ℝ
  whirl : Whirl

/-- `newton(func=lambda s: s - self.run_modal(s, num_modes).w[i], x0=w0, rtol=rtol)`, `rotor_assembly.py` 772-778. -/
noncomputable def findSpeed (r : Rotor) (num_modes : ℕ) (rtol : ℝ) (w : Modes → List ℝ) (i : ℕ) (w0 : ℝ) : Res ℝ :=
  env.newton (fun s => do
    let m ← r.modes env s num_modes
    let x ← item (w m) i
    pure (s - x)) w0 rtol

/-- The body of the loop of `rotor_assembly.py` 783-787. -/
noncomputable def criticalRow (r : Rotor) (num_modes : ℕ) (i : ℕ) (wn wd : ℝ) : Res CriticalRow := do
  let m ← r.modes env wd num_modes
  let a ← item m.log_dec i
  let b ← item m.damping_ratio i
  let c ← item m.whirl i
  pure ⟨wn, wd, a, b, c⟩

/-- The rows before the selection of a range, `rotor_assembly.py` 765-789. -/
noncomputable def criticalRows (r : Rotor) (num_modes : ℕ) (rtol : ℝ) : Res (List CriticalRow) := do
  let modal ← r.modes env 0 num_modes
  let wn ← modal.wn.zipIdx.mapM fun x => r.findSpeed env num_modes rtol Modes.wn x.2 x.1
  let wd ← modal.wd.zipIdx.mapM fun x => r.findSpeed env num_modes rtol Modes.wd x.2 x.1
  (wn.zip wd).zipIdx.mapM fun x => r.criticalRow env num_modes x.2 x.1.1 x.1.2

/-- The arrays of rows. -/
def CriticalSpeeds.of (l : List CriticalRow) : CriticalSpeeds :=
  ⟨l.map CriticalRow.wn, l.map CriticalRow.wd, l.map CriticalRow.log_dec, l.map CriticalRow.damping_ratio,
    l.map CriticalRow.whirl⟩

open Classical in
/-- `run_critical_speed`, `rotor_assembly.py` 701-801.  (A rotor has at least two nodes, so that `self.ndof - 4` is not
negative.) -/
noncomputable def run_critical_speed (r : Rotor) (speed_range : Option (ℝ × ℝ) := none) (num_modes : ℕ := 12)
    (rtol : ℝ := 0.005) : Res CriticalSpeeds :=
  match speed_range with
  | none => do
    let l ← r.criticalRows env num_modes rtol
    pure (.of l)
  | some (vmin, vmax) => do
    let l ← r.criticalRows env ((r.ndof - 4) * 2) rtol
    pure (.of (l.filter fun x => decide (vmin ≤ x.wd ∧ x.wd ≤ vmax)))

/-- One row of the arrays of a Campbell diagram. -/
structure CampbellRow where
  wd : List ℝ
  log_dec : List ℝ
  damping_ratio : List ℝ
  whirl_values : List ℝ

/-- `l[idx]`. -/
def atIdx (l : List ℝ) (idx : List ℕ) : Res (List ℝ) := idx.mapM (item l)

/-- The columns of a row for damped frequencies, `rotor_assembly.py` 2461-2465. -/
noncomputable def dampedRow (frequencies : ℕ) (m : Modes) : Res CampbellRow := do
  let a ← fill frequencies (m.wd.take frequencies)
  let b ← fill frequencies (m.log_dec.take frequencies)
  let c ← fill frequencies (m.damping_ratio.take frequencies)
  let d ← fill frequencies ((m.whirl.map ModalResults.whirl_to_cmap).take frequencies)
  pure ⟨a, b, c, d⟩

/-- The columns of a row for natural frequencies, `rotor_assembly.py` 2466-2471. -/
noncomputable def naturalRow (frequencies : ℕ) (m : Modes) : Res CampbellRow := do
  let idx := env.argsort m.wn
  let a ← atIdx m.wn idx
  let b ← atIdx m.log_dec idx
  let c ← atIdx m.damping_ratio idx
  let d ← atIdx (m.whirl.map ModalResults.whirl_to_cmap) idx
  let a ← fill frequencies (a.take frequencies)
  let b ← fill frequencies (b.take frequencies)
  let c ← fill frequencies (c.take frequencies)
  let d ← fill frequencies (d.take frequencies)
  pure ⟨a, b, c, d⟩

/-- The branches of `rotor_assembly.py` 2461-2471. -/
noncomputable def eitherRow (frequencies : ℕ) (frequency_type : String) (m : Modes) : Res CampbellRow :=
  if frequency_type = "wd" then dampedRow frequencies m else naturalRow env frequencies m

/-- The body of the loop of `run_campbell`, `rotor_assembly.py` 2461-2474. -/
noncomputable def campbellRow (frequencies : ℕ) (frequency_type : String) (m : Modes) : Res CampbellRow := do
  let row ← eitherRow env frequencies frequency_type m
  let _ ← fill frequencies (m.wn.take frequencies)
  pure row

/-- A `CampbellResults` (`results.py` 1389-1432). -/
structure Campbell where
  speed_range : List ℝ
  rows : List CampbellRow
  /-- The dictionary `modal_results`. -/
  modal_results : List (ℝ × Modes)

/-- `frequency` of a bearing. -/
def brgFrequency (b : BrgEl) : Option (List ℝ) := b.base.frequency

/-- `d[w] = m`. -/
noncomputable def setKey (d : List (ℝ × Modes)) (w : ℝ) (m : Modes) : List (ℝ × Modes) :=
  open Classical in
  if w ∈ d.map Prod.fst then d.map fun x => if x.1 = w then (w, m) else x else d ++ [(w, m)]

/-- `run_campbell`, `rotor_assembly.py` 2408-2487.  The maximum of no speeds, which `_check_frequency_array` takes if a
bearing has a table, raises `ValueError`. -/
noncomputable def run_campbell (r : Rotor) (speed_range : List ℝ) (frequencies : ℕ := 6) (frequency_type : String := "wd") :
    Res Campbell :=
  if speed_range = [] ∧ r.bearings.any (fun b => (brgFrequency b).isSome) then .error .valueError
  else do
    let l ← speed_range.mapM fun w => do
      let m ← r.modes env w (2 * frequencies)
      let row ← campbellRow env frequencies frequency_type m
      pure (w, m, row)
    pure ⟨speed_range, l.map fun x => x.2.2, l.foldl (fun d x => setKey d x.1 x.2.1) []⟩

/-- The constructor of a rotor; one that does not end within the allowed passes counts as raising. -/
noncomputable def make (a : RotorArgs) : Res Rotor :=
  match Rotor.init env.pd env.fuel a with
  | some x => x
  | none => .error .exception

/-- `[bearing_class(b.n, kxx=k, cxx=0) for b in bearings_elements]`, `rotor_assembly.py` 2551-2560 and 2611-2613. -/
noncomputable def springs (l : List BrgEl) (k : ℝ) : Res (List BrgEl) :=
  (l.filter fun b => !b.isSeal).mapM fun b => do
    let e ← BearingElement.init env.sp { n := b.n, kxx := .scalar k, cxx := .scalar 0 }
    pure (.brg false e)

/-- The rotor on springs of stiffness `k`, `rotor_assembly.py` 2558-2561 and 2610-2620. -/
noncomputable def onSprings (r : Rotor) (k : ℝ) : Res Rotor := do
  let b ← springs env r.bearings k
  make env { shaft := r.shaft.map Nest.el, disks := r.disks, bearings := b }

/-- `stiffness_range`, `rotor_assembly.py` 2531-2538. -/
noncomputable def ucsRange (r : Rotor) (stiffness_range : Option (ℝ × ℝ)) : Res (ℝ × ℝ) :=
  match stiffness_range, r.rated_w with
  | some x, _ => .ok x
  | none, none => .ok (6, 11)
  | none, some w =>
    match r.bearings with
    | [] => .error .indexError
    | b :: _ => do
      let k ← b.base.kxx.eval w
      let k ← intLog10 k
      pure ((k : ℝ) - 3, (k : ℝ) + 3)

/-- The smallest number of a list; `min` of an empty array raises `ValueError`. -/
noncomputable def smallest (l : List ℝ) : Res ℝ :=
  match l.min? with
  | some x => .ok x
  | none => .error .valueError

/-- The largest number of a list. -/
noncomputable def greatest (l : List ℝ) : Res ℝ :=
  match l.max? with
  | some x => .ok x
  | none => .error .valueError

/-- `bearing_frequency_range`, `rotor_assembly.py` 2540-2543 and 2573-2582. -/
noncomputable def ucsFrequencies (given : Option (ℝ × ℝ)) (bearing0 : BearingElement) (rotor_wn : List (List ℝ)) :
    Res (List ℝ) :=
  match given, bearing0.frequency with
  | some (a, b), _ => .ok (linspace a b 30)
  | none, some f => .ok f
  | none, none => do
    let lo ← smallest rotor_wn.flatten
    let hi ← greatest rotor_wn.flatten
    pure (linspace (lo - lo * 0.1) (hi + lo * 0.1) 10)

/-- A critical point: stiffness, speed and modes. -/
structure CriticalPoint where
  x : ℝ
  y : ℝ
  modal : Modes

/-- The points on one curve for one coefficient, `rotor_assembly.py` 2596-2627. -/
noncomputable def criticalPoints (r : Rotor) (stiffness_log wn : List ℝ) (c : Coeff) (freq : List ℝ) :
    Res (List CriticalPoint) := do
  let x2 ← freq.mapM c.eval
  let p ← Intersection.intersection stiffness_log wn x2 freq
  (p.1.zip p.2).mapM fun q => do
    let rotor ← r.onSprings env q.1
    let m ← rotor.modes env q.2
    pure ⟨q.1, q.2, m⟩

/-- A `UCSResults`. -/
structure Ucs where
  stiffness_range : ℝ × ℝ
  stiffness_log : List ℝ
  bearing_frequency_range : List ℝ
  wn : List (List ℝ)
  bearing : BearingElement
  points : List CriticalPoint

open Classical in
/-- `run_ucs`, `rotor_assembly.py` 2489-2636. -/
noncomputable def run_ucs (r : Rotor) (stiffness_range bearing_frequency_range : Option (ℝ × ℝ) := none) (num_modes : ℕ := 16)
    (num : ℕ := 20) (synchronous : Bool := false) : Res Ucs := do
  let range ← r.ucsRange stiffness_range
  let stiffness_log := logspace range.1 range.2 num
  let columns ← stiffness_log.mapM fun k => do
    let rotor ← r.onSprings env k
    let m ← rotor.modes env 0 num_modes synchronous
    fill (num_modes / 2 / 2) (everyOther m.wn)
  let rotor_wn := (List.range (num_modes / 2 / 2)).map fun j => columns.map fun c => c.getD j 0
  match r.bearings.filter fun b => !b.isSeal with
  | [] => .error .indexError
  | b :: _ => do
    let freq ← ucsFrequencies bearing_frequency_range b.base rotor_wn
    let coeffs := if b.base.kxx.values = b.base.kyy.values then [b.base.kxx] else [b.base.kxx, b.base.kyy]
    let points ← rotor_wn.mapM fun wn => coeffs.mapM fun c => r.criticalPoints env stiffness_log wn c freq
    pure ⟨range, stiffness_log, freq, rotor_wn, b.base, points.flatten.flatten⟩

/-- `bearings[0].__class__(n=n, kxx=0, cxx=0, kxy=Q, kyx=-Q)`, `rotor_assembly.py` 2700, for a first bearing of class
`BearingElement` or `SealElement`; the constructors of other classes take other arguments. -/
noncomputable def crossCoupling (b : BrgEl) (n : ℕ) (Q : ℝ) : Res BrgEl := do
  let e ← BearingElement.init env.sp
    { n := n, kxx := .scalar 0, cxx := .scalar 0, kxy := .scalar Q, kyx := .scalar (-Q) }
  pure (.brg b.isSeal e)

/-- The body of the loop of `rotor_assembly.py` 2698-2707: the logarithmic decrement of the first mode that is not
backward. -/
noncomputable def level1At (r : Rotor) (n : ℕ) (speed Q : ℝ) : Res ℝ :=
  match r.bearings with
  | [] => .error .indexError
  | b :: t => do
    let c ← crossCoupling env b n Q
    let rotor ← make env { shaft := r.shaft.map Nest.el, disks := r.disks, bearings := (b :: t) ++ [c] }
    let m ← rotor.modes env speed
    item (((m.log_dec.zip m.whirl).filter fun x => decide (x.2 ≠ .backward)).map Prod.fst) 0

/-- A `Level1Results`. -/
structure Level1 where
  stiffness_range : List ℝ
  log_dec : List ℝ

/-- `run_level1`, `rotor_assembly.py` 2638-2711.  Without a range and with a rated speed, `bearing.kxx.interpolated` raises
`AttributeError`; without a rated speed the modal analysis multiplies a matrix by `None`, and which exception ends it
depends on numpy and scipy (`TypeError` here). -/
noncomputable def run_level1 (r : Rotor) (n : ℕ := 5) (stiffness_range : Option (ℝ × ℝ) := none) (num : ℕ := 5) : Res Level1 :=
  match r.rated_w with
  | some speed =>
    match stiffness_range with
    | none => if r.bearings = [] then .error .indexError else .error .attributeError
    | some (a, b) => do
      let _ ← r.modes env speed
      let l ← (linspace a b num).mapM (r.level1At env n speed)
      pure ⟨linspace a b num, l⟩
  | none => .error .typeError

end Rotor

end Ross
