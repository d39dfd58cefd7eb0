import Verif.Model.Utils

/-!
# Model of the static analysis (`ross/rotor_assembly.py` 3099-3297)

Keys `"node_3"` of the result dictionaries are the node numbers.  Bearings of classes with their own
constructor arguments (`BallBearingElement`, ...) are not modelled: the call of their class with
`kxx` and `cxx` raises `TypeError`.
-/

namespace Ross

open Matrix

/-- `A @ v`. -/
noncomputable def LMat.mulVec (A : LMat) (v : List ℝ) : List ℝ :=
  List.ofFn fun i : Fin A.1 => ∑ j : Fin A.1, A.2 i j * v.getD j 0

open Classical in
/-- `scipy.linalg.solve(A, b)`: raises `LinAlgError` for a singular matrix. -/
noncomputable def LMat.solve (A : LMat) (b : List ℝ) : Res (List ℝ) :=
  if A.2.det = 0 then .error .linAlgError
  else .ok (List.ofFn (A.2⁻¹ *ᵥ fun i => b.getD i 0))

/-- `v[1::4]`. -/
def from1by4 (v : List ℝ) : List ℝ :=
  (List.range ((v.length + 2) / 4)).map fun (i : ℕ) => v.getD (4 * i + 1) 0

/-- `a - b` for one-dimensional arrays, at least one of them not of length one. -/
def npSub (a b : List ℝ) : Res (List ℝ) :=
  if a.length = b.length then .ok (List.zipWith (· - ·) a b) else .error .valueError

/-- The results of `run_static` (`rotor_assembly.py` 3275-3295); `vx`, `mx` and `vx_axis` are not
flattened. -/
structure StaticResults where
  displacement_y : List ℝ
  vx : List (ℝ × ℝ)
  mx : List (ℝ × ℝ)
  vx_axis : List (ℝ × ℝ)
  w_shaft : ℝ
  disk_forces_nodal : Dict ℕ ℝ
  disk_forces_tag : Dict (Option String) ℝ
  bearing_forces_nodal : Dict ℕ ℝ
  bearing_forces_tag : Dict (Option String) ℝ

/-- Shear force left and right of each element after the first (`rotor_assembly.py` 3253-3258),
`prev` being `vx[j - 1, 1]`. -/
def shearTail (prev : ℝ) : List (ℝ × ℝ) → List (ℝ × ℝ)
  | [] => []
  | [f] => [(prev + f.1, f.2)]
  | f :: t => (prev + f.1, prev + f.1 + f.2) :: shearTail (prev + f.1 + f.2) t

/-- Shear forces before the change of sign (`rotor_assembly.py` 3247-3258). -/
def shear : List (ℝ × ℝ) → List (ℝ × ℝ)
  | [] => []
  | f :: t => (f.1, f.1 + f.2) :: shearTail (f.1 + f.2) t

/-- Bending moments (`rotor_assembly.py` 3263-3271) for the increments `0.5 * sum(vx[j]) * diff`,
`prev` being `mx[j - 1, 1]`; for `j = 0` this is the entry `mx[-1, 1]`, zero at that time. -/
def momentFrom (prev : ℝ) : List ℝ → List (ℝ × ℝ)
  | [] => []
  | [s] => [(-s, 0)]
  | s :: t => (prev, prev + s) :: momentFrom (prev + s) t

namespace Rotor

variable (r : Rotor)

/-- The bearings that replace those of the rotor (`rotor_assembly.py` 3166-3181), with the stiffness
`k` (`1e20` or `0`).  Only attributes that matrices or positions depend on are read later. -/
def auxBearings (sp : Scipy) (k : ℝ) : Res (List BrgEl) :=
  (r.bearings.filter fun b => !b.isSeal ∧ b.n < r.nodes_pos.length).mapM fun b =>
    let args : BearingArgs := {
      n := b.n, kxx := .scalar k, cxx := .scalar 0
      n_link := match b.n_link with
        | some l => if l < r.nodes_pos.length then some l else none
        | none => none }
    match b with
    | .brg _ _ => do
      let x ← BearingElement.init sp args
      pure (.brg false x)
    | .brg6 _ => do
      let x ← BearingElement6DoF.init sp args
      pure (.brg6 x)

/-- `Rotor(self.shaft_elements, self.disk_elements, aux_brg)` (`rotor_assembly.py` 3183-3184). -/
def auxArgs (br : List BrgEl) : RotorArgs where
  shaft := r.shaft.map Nest.el
  disks := r.disks
  bearings := br

/-- The arrays filled by the loop over the shaft elements (`rotor_assembly.py` 3214-3226). -/
structure ShaftLoads where
  vx_axis : List (ℝ × ℝ)
  elm_weight : List (ℝ × ℝ)
  nodal : List ℝ

/-- One pass of the loop (`rotor_assembly.py` 3218-3226); `n_l = n` and `n_r = n + 1`. -/
noncomputable def addShaftLoad (g : ℝ) (nodes_pos : List ℝ) (x : ShaftLoads) (e : ShaftEl) : Res ShaftLoads :=
  let n_l := nodeOf e
  let n_r := nodeOf e + 1
  if n_l < x.vx_axis.length then
    .ok {
      vx_axis := x.vx_axis.set n_l (nodes_pos.getD n_l 0, nodes_pos.getD n_r 0)
      elm_weight := x.elm_weight.modify n_l fun w => (w.1 + g * 0, w.2 + g * e.s.m)
      nodal := (x.nodal.modify n_r (· + g * e.s.m * e.s.beam_cg / e.s.L)).modify n_l
        (· + g * e.s.m * (1 - e.s.beam_cg / e.s.L)) }
  else .error .indexError

/-- `elm_forces_y` (`rotor_assembly.py` 3242-3245). -/
def elmForces (elm_weight : List (ℝ × ℝ)) (nf : List ℝ) : List (ℝ × ℝ) :=
  elm_weight.mapIdx fun j w =>
    (nf.getD j 0 + w.1, (if j + 1 = elm_weight.length then -(nf.getLast?.getD 0) else 0) + w.2)

/-- The part of `run_static` after the two auxiliary rotors have been built
(`rotor_assembly.py` 3186-3297). -/
noncomputable def staticFrom (aux aux1 : Rotor) : Res StaticResults := do
  let M ← aux.M (some 0)
  let K ← aux.K 0
  let K1 ← aux1.K 0
  let red : LMat → LMat := fun A => if r.number_dof = 6 then removeDofs A else A
  let aux_M := red ⟨aux.ndof, M⟩
  let aux_K := red ⟨aux.ndof, K⟩
  let aux1_K := red ⟨aux1.ndof, K1⟩
  -- 3197-3200
  let g : ℝ := -9.8065
  let gravity := (List.range aux_M.1).map fun (i : ℕ) => if i % 4 = 1 then g else 0
  let weight := aux_M.mulVec gravity
  -- 3203-3207
  let displacement ← aux_K.solve weight
  let nodal_forces := aux1_K.mulVec displacement
  -- 3214-3228
  let n := r.nodes_pos.length - 1
  let loads ← r.shaft.foldlM (addShaftLoad g r.nodes_pos)
    ⟨List.replicate n (0, 0), List.replicate n (0, 0), List.replicate (n + 1) 0⟩
  let elm_weight := loads.elm_weight.modify (n - 1) fun w => (w.1, 0)
  -- 3231
  let reaction ← npSub (from1by4 nodal_forces) (from1by4 weight)
  -- 3233-3235
  let bn ← aux.bearings.foldlM (fun (d : Dict ℕ ℝ × Dict (Option String) ℝ) b =>
    match reaction[b.n]? with
    | some x => .ok (Dict.set d.1 b.n x, Dict.set d.2 b.tag x)
    | none => .error .indexError) ([], [])
  -- 3229, 3241
  let nf ← npSub (from1by4 (nodal_forces.take (4 * r.nodes_pos.length))) loads.nodal
  let elm_forces := elmForces elm_weight nf
  -- 3247-3259
  let vx := (shear elm_forces).map fun v => (-v.1, -v.2)
  -- 3261-3271
  let incr := List.zipWith (fun v x => 0.5 * (v.1 + v.2) * (x.2 - x.1)) vx loads.vx_axis
  pure {
    displacement_y := from1by4 displacement
    vx := vx
    mx := momentFrom 0 incr
    vx_axis := loads.vx_axis
    -- 3279
    w_shaft := (r.shaft.map fun e => e.s.m).sum * (-g)
    disk_forces_nodal := aux.disks.foldl (fun d e => Dict.set d e.d.n (-e.d.m * g)) []
    disk_forces_tag := aux.disks.foldl (fun d e => Dict.set d e.d.tag (-e.d.m * g)) []
    bearing_forces_nodal := bn.1
    bearing_forces_tag := bn.2 }

/-- `Rotor.run_static` (`rotor_assembly.py` 3099-3297). -/
noncomputable def run_static (pd : Pandas) (sp : Scipy) (fuel : ℕ) : Option (Res StaticResults) :=
  if r.bearings.all BrgEl.isSeal then some (.error .valueError)
  else
    match r.auxBearings sp 1e20, r.auxBearings sp 0 with
    | .ok b, .ok b1 =>
      match init pd fuel (r.auxArgs b), init pd fuel (r.auxArgs b1) with
      | none, _ => none
      | some (.error e), _ => some (.error e)
      | some (.ok _), none => none
      | some (.ok _), some (.error e) => some (.error e)
      | some (.ok aux), some (.ok aux1) => some (r.staticFrom aux aux1)
    | .error e, _ => some (.error e)
    | .ok _, .error e => some (.error e)

end Rotor

end Ross
