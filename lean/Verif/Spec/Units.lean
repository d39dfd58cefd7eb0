import Verif.Model.Units

/-! # Specification: arguments with units -/

namespace Ross.Spec

open Ross Ross.Units

/-- The parts of a name between its underscores. -/
def PartsOf (name : String) (ps : List String) : Prop :=
  List.intercalate ['_'] (ps.map String.toList) = name.toList ∧ ps ≠ [] ∧ ∀ p ∈ ps, '_' ∉ p.toList

/-- The name contains the text. -/
def Contains (name text : String) : Prop := ∃ a b, name.toList = a ++ text.toList ++ b

/-- The library unit for an argument of this name is the SI unit of dimension `d`: that of the name
itself if it is listed; otherwise that of `flow_m` or `flow_v` if the name contains it; otherwise that
of the first of its parts that is listed. -/
def HasUnit (name : String) (d : Dim) : Prop :=
  unitOf name = some d ∨
  unitOf name = none ∧
    ((Contains name "flow_m" ∧ unitOf "flow_m" = some d) ∨
    (¬ Contains name "flow_m" ∧
      ((Contains name "flow_v" ∧ unitOf "flow_v" = some d) ∨
      (¬ Contains name "flow_v" ∧ ∃ pre p post, PartsOf name (pre ++ p :: post) ∧ unitOf p = some d ∧
        ∀ q ∈ pre, unitOf q = none))))

/-- Names with a part `units` (such as `speed_units`) are never converted. -/
def Converted (name : String) : Prop := ∀ ps, PartsOf name ps → "units" ∉ ps

/-- The physical value: `x` units `u`, in the coherent SI unit. -/
noncomputable def inSI (u : PintUnit) (x : ℝ) : ℝ := u.scale * x + u.offset

/-- Converting every argument of a bound call. -/
noncomputable def convertAll (b : List (String × Val)) : Res (List (String × Val)) :=
  b.mapM fun p => do
    let v ← deliver p.1 p.2
    pure (p.1, v)

/-- Product of units. -/
def Dim.mul (a b : Dim) : Dim := ⟨a.m + b.m, a.kg + b.kg, a.s + b.s, a.K + b.K⟩

/-- The second. -/
def second : Dim := { s := 1 }

end Ross.Spec
