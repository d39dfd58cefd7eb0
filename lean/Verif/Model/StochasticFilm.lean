import Verif.Model.Stochastic
import Verif.Model.FluidForces

/-!
# Model of random bearings made from fluid-film data

`ST_BearingElement.from_fluid_flow` (`st_bearing_seal_element.py` 376-572).  The film and its coefficients are those of
`FluidForces.lean`.
-/

namespace Ross.Stochastic

open Persist Fluid

namespace SVal

/-- The entries of a list or an array; `none` for other values. -/
def items : SVal → Option (List Val)
  | .val (.arr l) => some (l.map .num)
  | .val _ => none
  | .mats l => some (l.map .mat)
  | .grid l => some (l.map .arr)

/-- `np.full(size, value)` (`st_bearing_seal_element.py` 524): one entry is repeated, and a list has to have as many
entries as there are to be, or one.  (Two-dimensional arrays, which are not among the parameters, are lists of rows.) -/
def full (size : ℕ) (v : SVal) : Res (List Val) :=
  match v, v.items with
  | _, some l =>
    if l.length = size then .ok l
    else match l with
      | [x] => .ok (List.replicate size x)
      | _ => .error .valueError
  | .val x, none => .ok (List.replicate size x)
  | _, none => .error .valueError

/-- `np.asarray(value)` (`st_bearing_seal_element.py` 526).  An array without dimensions has no entries: taking one out
of it raises `IndexError`. -/
def asarray (v : SVal) : List Val := v.items.getD []

end SVal

/-- The arrays of the parameters (`st_bearing_seal_element.py` 522-526). -/
def arrays (is_random : List String) (size : ℕ) (kv : String × SVal) : Res (String × List Val) :=
  if kv.1 ∉ is_random then
    match kv.2.full size with
    | .ok l => .ok (kv.1, l)
    | .error e => .error e
  else .ok (kv.1, kv.2.asarray)

/-- `attribute_dict[k][i]`. -/
def entryOf (d : Dict String (List Val)) (k : String) (i : ℕ) : Res Val :=
  match d.get? k with
  | none => .error .keyError
  | some l => match l[i]? with
    | none => .error .indexError
    | some v => .ok v

/-- A number; with anything else the calculations of the film raise `TypeError`. -/
def asNumber : Val → Res ℝ
  | .num x => .ok x
  | .int n => .ok n
  | _ => .error .typeError

/-- A number or `None`. -/
def asNumber? : Val → Res (Option ℝ)
  | .null => .ok none
  | .num x => .ok (some x)
  | .int n => .ok (some n)
  | _ => .error .typeError

/-- A number of points. -/
def asCount : Val → Res ℕ
  | .int n => .ok n
  | _ => .error .typeError

/-- The arguments of `FluidFlow` (`st_bearing_seal_element.py` 530-545). -/
def filmArgs (d : Dict String (List Val)) (frequency : ℝ) (i : ℕ) : Res FlowArgs := do
  let nz ← entryOf d "nz" i >>= asCount
  let ntheta ← entryOf d "ntheta" i >>= asCount
  let length ← entryOf d "length" i >>= asNumber
  let p_in ← entryOf d "p_in" i >>= asNumber
  let p_out ← entryOf d "p_out" i >>= asNumber
  let radius_rotor ← entryOf d "radius_rotor" i >>= asNumber
  let radius_stator ← entryOf d "radius_stator" i >>= asNumber
  let viscosity ← entryOf d "viscosity" i >>= asNumber
  let density ← entryOf d "density" i >>= asNumber
  let attitude_angle ← entryOf d "attitude_angle" i >>= asNumber?
  let eccentricity ← entryOf d "eccentricity" i >>= asNumber?
  let load ← entryOf d "load" i >>= asNumber?
  let omegap ← entryOf d "omegap" i >>= asNumber?
  .ok { nz := nz, ntheta := ntheta, length := length, omega := frequency, p_in := p_in, p_out := p_out,
        radius_rotor := radius_rotor, radius_stator := radius_stator, viscosity := viscosity, density := density,
        attitude_angle := attitude_angle, eccentricity := eccentricity, load := load, omegap := omegap }

/-- `k` and `c` (`st_bearing_seal_element.py` 530-546). -/
noncomputable def filmCoefs (lib : FlowLib) (d : Dict String (List Val)) (frequency : ℝ) (i : ℕ) : Res Coefs := do
  let a ← filmArgs d frequency i
  let film ← a.init lib
  let (_, c) ← calculate_stiffness_and_damping_coefficients lib film
  .ok c

/-- `args_dict[…]`: the row of a speed and the column of a sample has the entry `m` of that film's list
(`st_bearing_seal_element.py` 511-520, 548-555).  The lists have four entries. -/
def coefTable (rows : List (List Coefs)) (list : Coefs → List ℝ) (m : ℕ) : SVal :=
  .grid (rows.map (·.map fun c => (list c).getD m 0))

/-- `ST_BearingElement.from_fluid_flow` (`st_bearing_seal_element.py` 506-572).  `immediately` is the argument
`immediately_calculate_pressure_matrix_numerically`. -/
noncomputable def fromFluidFlow (lib : FlowLib) (n : ℕ) (nz ntheta length omega p_in p_out radius_rotor radius_stator
    viscosity density : SVal) (attitude_angle eccentricity load omegap : SVal := .val .null) (immediately : Bool := true)
    (tag : Option String := none) (n_link : Option ℕ := none) (scale_factor : ℝ := 1)
    (is_random : Option (List String) := none) : Res StElement := do
  -- 506-509
  let d : Attrs := [("n", .val (.int n)), ("nz", nz), ("ntheta", ntheta), ("length", length), ("p_in", p_in),
    ("p_out", p_out), ("radius_rotor", radius_rotor), ("radius_stator", radius_stator), ("viscosity", viscosity),
    ("density", density), ("attitude_angle", attitude_angle), ("eccentricity", eccentricity), ("load", load),
    ("omegap", omegap), ("immediately_calculate_pressure_matrix_numerically", .val (.bool immediately)),
    ("tag", .val (.ofStr? tag)), ("n_link", .val (.ofInt? n_link)), ("scale_factor", .val (.num scale_factor))]
  -- 510
  let (is_random, first) ← match is_random with
    | none => .error .typeError
    | some [] => .error .indexError
    | some (k :: l) => Except.ok (k :: l, k)
  let size ← match d.get? first with
    | none => .error .keyError
    | some v => v.len
  -- 512
  let omega ← match omega with
    | .val (.arr l) => Except.ok l
    | _ => .error .typeError
  -- 522-526
  let d ← d.mapM (arrays is_random size)
  -- 528-555
  let rows ← omega.mapM fun frequency => (List.range size).mapM (filmCoefs lib d frequency)
  -- 557-572
  bearing n (coefTable rows Coefs.K 0) (coefTable rows Coefs.C 0) (kyy := coefTable rows Coefs.K 3)
    (kxy := coefTable rows Coefs.K 1) (kyx := coefTable rows Coefs.K 2) (cyy := coefTable rows Coefs.C 3)
    (cxy := coefTable rows Coefs.C 1) (cyx := coefTable rows Coefs.C 2) (frequency := .val (.arr omega)) (tag := tag)
    (n_link := n_link) (scale_factor := scale_factor)
    (is_random := ["kxx", "kxy", "kyx", "kyy", "cxx", "cxy", "cyx", "cyy"])

end Ross.Stochastic
