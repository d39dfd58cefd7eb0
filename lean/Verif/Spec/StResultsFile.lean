import Verif.Model.StResultsFile
import Verif.Spec.ResultsFile

/-!
# Specification of saving and loading random results
-/

namespace Ross.Spec

open ResultsFile

/-- What the results of each analysis consist of: speeds, damped frequencies and logarithmic decrements; speeds and
responses in displacement, velocity and acceleration; instants, outputs and states of a time response and forced
responses, with what is needed to find the nodes in them. -/
def holds : StResultsFile.Cls → List String
  | .campbell => ["speed_range", "wd", "log_dec"]
  | .frequencyResponse => ["speed_range", "freq_resp", "velc_resp", "accl_resp"]
  | .timeResponse => ["t", "yout", "xout", "number_dof", "nodes", "link_nodes", "nodes_pos"]
  | .forcedResponse => ["forced_resp", "velc_resp", "accl_resp", "frequency_range", "number_dof", "nodes", "link_nodes"]

/-- Random results as their analysis makes them: one value for each parameter, numbers and arrays of numbers, and every
complex number is read from its own text, as complex numbers of floats are. -/
def MadeRandom (T : Texts) (o : StResultsFile.Obj) : Prop :=
  o.args.map Prod.fst = holds o.cls ∧ ∀ k a, (k, a) ∈ o.args →
    (∃ x, a = .num x) ∨ (∃ l, a = .real l) ∨ (∃ l, l ≠ [] ∧ a = .cplx l ∧ ∀ z ∈ l, ReadBack T z)

/-- The longest of the texts of the numbers has 49 characters. -/
def Longest49 (T : Texts) (l : List ℂ) : Prop := (∃ z ∈ l, (T.str z).length = 49) ∧ ∀ z ∈ l, (T.str z).length ≤ 49

/-- What comes back of a value. -/
def CameBack (T : Texts) (a b : Arg) : Prop :=
  (∀ x, a = .num x → b = a) ∧ (∀ l, a = .real l → b = a) ∧
  (∀ l, a = .cplx l → (Longest49 T l → b = a) ∧ (¬ Longest49 T l → b = .texts (l.map T.str)))

/-- Nothing is at the path yet, or an empty file, or a file that begins with random results of the same class. -/
def FirstRandom (fs : StResultsFile.Files) (path : String) (c : StResultsFile.Cls) : Prop :=
  fs.get? path = none ∨ ∃ d, fs.get? path = some d ∧ (d = [] ∨ d.keys.head? = some c.name)

end Ross.Spec
