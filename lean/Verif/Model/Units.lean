import Mathlib.Data.Real.Basic
import Mathlib.Data.List.Infix
import Verif.Model.Basic

/-! # Model of `check_units` (`ross/units.py`) -/

namespace Ross.Units

open Ross

/-- Exponents of metre, kilogram, second and kelvin.  Radians are dimensionless in pint. -/
structure Dim where
  m : ℤ := 0
  kg : ℤ := 0
  s : ℤ := 0
  K : ℤ := 0
  deriving DecidableEq

/-- A unit of pint: `x` units are `scale * x + offset` of the coherent SI unit of the same dimension
(the offset is for scales such as degrees Celsius). -/
structure PintUnit where
  dim : Dim
  scale : ℝ
  offset : ℝ := 0

/-- A pint quantity: a number or an array of numbers, with a unit. -/
inductive Quantity where
  | scalar (x : ℝ) (u : PintUnit)
  | array (xs : List ℝ) (u : PintUnit)

/-- Values of arguments, as far as `check_units` tells them apart. -/
inductive Val where
  | none
  | num (x : ℝ)
  | list (xs : List ℝ)
  | arr (xs : List ℝ)
  | qty (q : Quantity)
  /-- strings, booleans and dictionaries: pint raises `TypeError` for such a magnitude -/
  | refused (label : String)
  /-- any other object: it has no method `to` and pint keeps it as the magnitude -/
  | obj (label : String)

/-- The dictionary `units` (`units.py` 26-92).  Each unit string is replaced by the dimension of the
unit: all of them are coherent SI units. -/
def table : List (String × Dim) :=
  [("E", { m := -1, kg := 1, s := -2 }), ("G_s", { m := -1, kg := 1, s := -2 }),
   ("rho", { m := -3, kg := 1 }), ("density", { m := -3, kg := 1 }),
   ("L", { m := 1 }), ("idl", { m := 1 }), ("idr", { m := 1 }), ("odl", { m := 1 }),
   ("odr", { m := 1 }), ("id", { m := 1 }), ("od", { m := 1 }), ("i_d", { m := 1 }),
   ("o_d", { m := 1 }), ("speed", { s := -1 }), ("frequency", { s := -1 }), ("m", { kg := 1 }),
   ("mx", { kg := 1 }), ("my", { kg := 1 }), ("Ip", { m := 2, kg := 1 }), ("Id", { m := 2, kg := 1 }),
   ("width", { m := 1 }), ("depth", { m := 1 }), ("thickness", { m := 1 }), ("pitch", { m := 1 }),
   ("height", { m := 1 }), ("radius", { m := 1 }), ("diameter", { m := 1 }), ("clearance", { m := 1 }),
   ("length", { m := 1 }), ("area", { m := 2 }), ("unbalance_magnitude", { m := 1, kg := 1 }),
   ("unbalance_phase", { m := 0 }), ("pressure", { m := -1, kg := 1, s := -2 }), ("pressure_ratio", { m := 0 }),
   ("p", { m := -1, kg := 1, s := -2 }), ("temperature", { K := 1 }), ("T", { K := 1 }),
   ("velocity", { m := 1, s := -1 }), ("angle", { m := 0 }), ("arc", { m := 0 }),
   ("convection", { kg := 1, s := -3, K := -1 }), ("conductivity", { m := 1, kg := 1, s := -3, K := -1 }),
   ("expansion", { K := -1 }), ("stiffness", { kg := 1, s := -2 }),
   ("weight", { m := 1, kg := 1, s := -2 }), ("load", { m := 1, kg := 1, s := -2 }),
   ("force", { m := 1, kg := 1, s := -2 }), ("torque", { m := 2, kg := 1, s := -2 }),
   ("flow_v", { m := 3, s := -1 }), ("flow_m", { kg := 1, s := -1 }), ("fit", { m := 1 }),
   ("viscosity", { m := -1, kg := 1, s := -1 }), ("h", { m := 2, s := -2 }),
   ("s", { m := 2, s := -2, K := -1 }), ("b", { m := 1 }), ("D", { m := 1 }), ("d", { m := 1 }),
   ("roughness", { m := 1 }), ("head", { m := 2, s := -2 }), ("eff", { m := 0 }),
   ("power", { m := 2, kg := 1, s := -3 })] ++
  -- 89-92
  [("k", ({ kg := 1, s := -2 } : Dim)), ("c", { kg := 1, s := -1 }), ("m", { kg := 1 })].flatMap fun p =>
    ["x", "y", "z"].flatMap fun j => ["x", "y", "z"].map fun k => (p.1 ++ j ++ k, p.2)

/-- `units[name]`, if `name in units`. -/
def unitOf (name : String) : Option Dim := table.lookup name

/-- `name.split("_")`, on the characters of the name. -/
def splitChars : List Char → List (List Char)
  | [] => [[]]
  | c :: cs =>
    if c = '_' then [] :: splitChars cs
    else match splitChars cs with
      | [] => [[c]]
      | p :: ps => (c :: p) :: ps

/-- `name.split("_")` (`units.py` 133, 166). -/
def split (name : String) : List String := (splitChars name.toList).map String.ofList

/-- The names that are looked up for an argument, in this order (`units.py` 133-146, 166-179). -/
def names (arg : String) : List String :=
  let l := split arg
  -- 139-142
  let l := if "flow_v".toList <:+: arg.toList then "flow_v" :: l else l
  let l := if "flow_m".toList <:+: arg.toList then "flow_m" :: l else l
  -- 144-146
  if arg ∈ l then l else arg :: l

/-- `v.to(unit).m`, or `Q_(v, unit).m` for values without a method `to`, or the value itself if pint
refuses it (`units.py` 152-158, 182-188).  pint raises `DimensionalityError`, which is a `TypeError`,
for quantities of another dimension.  A list becomes an array. -/
noncomputable def toUnit (d : Dim) : Val → Res Val
  | .none => .ok .none
  | .num x => .ok (.num x)
  | .list xs => .ok (.arr xs)
  | .arr xs => .ok (.arr xs)
  | .qty (.scalar x u) => if u.dim = d then .ok (.num (u.scale * x + u.offset)) else .error .typeError
  | .qty (.array xs u) =>
    if u.dim = d then .ok (.arr (xs.map fun x => u.scale * x + u.offset)) else .error .typeError
  | .refused s => .ok (.refused s)
  | .obj s => .ok (.obj s)

/-- What one argument is replaced by (`units.py` 133-161, 166-191). -/
noncomputable def deliver (arg : String) (v : Val) : Res Val :=
  -- 134-136
  if "units" ∈ split arg then .ok v
  else match v with
    | .none => .ok .none
    | v => match (names arg).findSome? unitOf with
      | some d => toUnit d v
      | none => .ok v

/-- The parameters of a Python function: those that can be given by position, those that can be given
by keyword only, and whether it has `*args` and `**kwargs`. -/
structure Sig where
  params : List String
  kwonly : List String := []
  varargs : Bool := false
  varkw : Bool := false

/-- How Python binds the arguments of a call of an undecorated function (surplus positional arguments
come last; defaults are filled in later). -/
def bindCall (f : Sig) (args : List Val) (kwargs : List (String × Val)) :
    Res (List (String × Val) × List Val) :=
  if f.params.length < args.length ∧ f.varargs = false then .error .typeError
  else if ∃ p ∈ kwargs, p.1 ∈ f.params.take args.length then .error .typeError
  else if f.varkw = false ∧ ∃ p ∈ kwargs, p.1 ∉ f.params ++ f.kwonly then .error .typeError
  else if ¬ (kwargs.map Prod.fst).Nodup then .error .typeError
  else .ok (f.params.zip args ++ kwargs, args.drop f.params.length)

/-- A call of the decorated function (`units.py` 127-195): `zip` stops at the shorter list. -/
noncomputable def callWrapped (f : Sig) (args : List Val) (kwargs : List (String × Val)) :
    Res (List (String × Val) × List Val) := do
  let base_unit_args ← (f.params.zip args).mapM fun p => deliver p.1 p.2
  let base_unit_kwargs ← kwargs.mapM fun p => do
    let v ← deliver p.1 p.2
    pure (p.1, v)
  bindCall f base_unit_args base_unit_kwargs

end Ross.Units
