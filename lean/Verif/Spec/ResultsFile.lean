import Verif.Model.ResultsFile
import Verif.Spec.Persist

/-!
# Specification of saving and loading results
-/

namespace Ross.Spec

open ResultsFile

/-- What the results of each analysis consist of. -/
def partsOf : Cls → List String
  | .criticalSpeed => ["_wn", "_wd", "log_dec", "damping_ratio", "whirl_direction"]
  | .modal => ["speed", "evalues", "evectors", "wn", "wd", "damping_ratio", "log_dec", "ndof", "nodes", "nodes_pos",
      "shaft_elements_length", "number_dof"]
  | .campbell => ["speed_range", "wd", "log_dec", "damping_ratio", "whirl_values", "modal_results", "number_dof",
      "run_modal"]
  | .frequencyResponse => ["freq_resp", "velc_resp", "accl_resp", "speed_range", "number_dof"]
  | .forcedResponse => ["rotor", "forced_resp", "velc_resp", "accl_resp", "speed_range", "unbalance"]
  | .static => ["deformation", "Vx", "Bm", "w_shaft", "disk_forces", "bearing_forces", "nodes", "nodes_pos", "Vx_axis"]
  | .convergence => ["el_num", "eigv_arr", "error_arr"]
  | .timeResponse => ["rotor", "t", "yout", "xout"]
  | .level1 => ["stiffness_range", "log_dec"]

/-- Results as their analysis makes them: a value for each of their parts. -/
def MadeResults (o : Obj) : Prop := o.args.map Prod.fst = partsOf o.cls

/-- The number is read from its own text, as every float is. -/
def ReadBack (T : Texts) (z : ℂ) : Prop := T.parse (T.str z) = some z

/-- Values that come back as they were: numbers, truth values, arrays of real numbers, arrays of complex numbers
the longest of which has a text of 40 to 49 characters, and arrays of texts the longest of which is not of that
length. -/
def Survives (T : Texts) : Arg → Prop
  | .num _ => True
  | .flag _ => True
  | .real _ => True
  | .cplx l => (∃ z ∈ l, 40 ≤ (T.str z).length) ∧ (∀ z ∈ l, (T.str z).length < 50) ∧ ∀ z ∈ l, ReadBack T z
  | .texts l => l ≠ [] ∧ ((∃ s ∈ l, 50 ≤ s.length) ∨ ∀ s ∈ l, s.length < 40)
  | _ => False

/-- A rotor that comes back as it was, except for its tag (property C31). -/
def PlainRotor (sp : Scipy) (pd : Pandas) (fuel : ℕ) (r : Rotor) : Prop :=
  ∃ a, Rotor.init pd fuel a = some (.ok r) ∧ (∀ e ∈ argElements a, Constructed sp e) ∧
    ∀ e ∈ argElements a, Faithful e

/-- A value after its rotor, if it is one, lost its tag. -/
def untagged : Arg → Arg
  | .rotor r => .rotor { r with tag := "Rotor 0" }
  | a => a

/-- Parts that may be missing. -/
def MayMiss (c : Cls) (k : String) : Prop := c = .forcedResponse ∧ k = "unbalance"

/-- The file of the rotor of the results at `path`: `_rotor` comes before the last five characters, as in
`results_rotor.toml`. -/
def RotorFile (path q : String) : Prop :=
  ∃ stem ext, path.toList = stem ++ ext ∧ (ext.length = 5 ∨ stem = [] ∧ ext.length ≤ 5) ∧
    q.toList = stem ++ ['_', 'r', 'o', 't', 'o', 'r'] ++ ext

/-- Nothing is at the path yet, or an empty file, or a file that begins with results of the same class. -/
def FirstOf (fs : Files) (path : String) (c : Cls) : Prop :=
  fs.get? path = none ∨ ∃ d, fs.get? path = some (.results d) ∧ (d = [] ∨ d.keys.head? = some c.name)

end Ross.Spec
