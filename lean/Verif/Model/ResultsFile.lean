import Verif.Model.Persist
import Mathlib.Data.Complex.Basic

/-!
# Model of saving and loading results (`results.py` 48-175, 1822-1834)

The package `toml` is modelled by what it writes of a value and what it reads back: `None` is not written, a
complex number and an object of a class it does not know are written as their text (`repr`), and to write an
array without dimensions is a `TypeError`.  The texts themselves are a parameter (`Texts`).

Simplifications: lists and arrays with the same entries are not distinguished, nor are integers and floats; an
array is the list of its entries, without its shape; dictionaries map names to numbers.  `UCSResults`,
`SummaryResults`, `Orbit` and `Shape`, which hold objects, are left out.
-/

namespace Ross

namespace ResultsFile

/-- What Python and numpy do with texts: `repr` of a complex number, the complex number that `astype` finds in a
text, and `repr` of a rotor. -/
structure Texts where
  str : ℂ → String
  parse : String → Option ℂ
  rotor : Rotor → String

/-- A value that an argument of a class of results can have. -/
inductive Arg
  /-- `None` -/
  | null
  | num (x : ℝ)
  | flag (b : Bool)
  | text (s : String)
  /-- An array of real numbers. -/
  | real (l : List ℝ)
  /-- An array of complex numbers. -/
  | cplx (l : List ℂ)
  /-- An array of texts. -/
  | texts (l : List String)
  | dict (t : List (String × ℝ))
  /-- An array without dimensions that holds a text. -/
  | text0 (s : String)
  /-- An array without dimensions that holds a complex number. -/
  | cplx0 (z : ℂ)
  /-- An array without dimensions that holds a dictionary. -/
  | dict0 (t : List (String × ℝ))
  | rotor (r : Rotor)
  /-- Any other object (a function, for one) with its `repr`. -/
  | other (s : String)

/-- A value in a file. -/
inductive FVal
  | num (x : ℝ)
  | flag (b : Bool)
  | text (s : String)
  | nums (l : List ℝ)
  | texts (l : List String)
  | dict (t : List (String × ℝ))

/-- A table of a file of results. -/
abbrev FTable := Dict String FVal

/-- The content of a file: results, or a rotor. -/
inductive Content
  | results (d : Dict String FTable)
  | rotor (d : TomlFile)

/-- The files, by their paths. -/
abbrev Files := Dict String Content

/-- The classes of results. -/
inductive Cls
  | criticalSpeed | modal | campbell | frequencyResponse | forcedResponse | static | convergence
  | timeResponse | level1
  deriving DecidableEq

/-- `self.__class__.__name__`. -/
def Cls.name : Cls → String
  | criticalSpeed => "CriticalSpeedResults"
  | modal => "ModalResults"
  | campbell => "CampbellResults"
  | frequencyResponse => "FrequencyResponseResults"
  | forcedResponse => "ForcedResponseResults"
  | static => "StaticResults"
  | convergence => "ConvergenceResults"
  | timeResponse => "TimeResponseResults"
  | level1 => "Level1Results"

/-- `inspect.signature(self.__init__).parameters` (`results.py` 793, 866-880, 1414-1424, 1859, 2355-2357,
3797-3808, 4409, 4515, 5122). -/
def Cls.params : Cls → List String
  | criticalSpeed => ["_wn", "_wd", "log_dec", "damping_ratio", "whirl_direction"]
  | modal => ["speed", "evalues", "evectors", "wn", "wd", "damping_ratio", "log_dec", "ndof", "nodes", "nodes_pos",
      "shaft_elements_length", "number_dof"]
  | campbell => ["speed_range", "wd", "log_dec", "damping_ratio", "whirl_values", "modal_results", "number_dof",
      "run_modal"]
  | frequencyResponse => ["freq_resp", "velc_resp", "accl_resp", "speed_range", "number_dof"]
  | forcedResponse => ["rotor", "forced_resp", "velc_resp", "accl_resp", "speed_range", "unbalance"]
  | static => ["deformation", "Vx", "Bm", "w_shaft", "disk_forces", "bearing_forces", "nodes", "nodes_pos", "Vx_axis"]
  | convergence => ["el_num", "eigv_arr", "error_arr"]
  | timeResponse => ["rotor", "t", "yout", "xout"]
  | level1 => ["stiffness_range", "log_dec"]

/-- The parameters with a default, which is `None` (`results.py` 2356). -/
def Cls.optional : Cls → List String
  | forcedResponse => ["unbalance"]
  | _ => []

/-- An object of a class of results: the attributes named like the parameters, in their order. -/
structure Obj where
  cls : Cls
  args : Dict String Arg

/-- A value as `toml.dump` writes it with `TomlNumpyEncoder` (`results.py` 97-98); `none` when nothing is
written. -/
def write (T : Texts) : Arg → Res (Option FVal)
  | .null => .ok none
  | .num x => .ok (some (.num x))
  | .flag b => .ok (some (.flag b))
  | .text s => .ok (some (.text s))
  | .real l => .ok (some (.nums l))
  | .cplx l => .ok (some (.texts (l.map T.str)))
  | .texts l => .ok (some (.texts l))
  | .dict t => .ok (some (.dict t))
  | .text0 _ => .error .typeError
  | .cplx0 _ => .error .typeError
  | .dict0 _ => .error .typeError
  | .rotor r => .ok (some (.text (T.rotor r)))
  | .other s => .ok (some (.text s))

/-- The entries of a table that are written. -/
def writeTable (T : Texts) : Dict String Arg → Res FTable
  | [] => .ok []
  | (k, a) :: t => do
    let v ← write T a
    let t' ← writeTable T t
    pure (match v with
      | none => t'
      | some v => (k, v) :: t')

/-- `str(file)[:-5] + "_rotor" + str(file)[-5:]` (`results.py` 100-101, 161). -/
def aux (path : String) : String :=
  String.ofList (path.toList.take (path.toList.length - 5) ++ "_rotor".toList ++
    path.toList.drop (path.toList.length - 5))

/-- `del data["CampbellResults"]["modal_results"]` (`results.py` 92-95) on what the file held before. -/
def dropModal (d : Dict String FTable) : Dict String FTable :=
  d.map fun kv => (kv.1, if kv.1 = "CampbellResults" then kv.2.del "modal_results" else kv.2)

/-- `args` after the same statement, for results of the class itself. -/
def keptArgs (o : Obj) : Dict String Arg :=
  if o.cls = .campbell then o.args.del "modal_results" else o.args

/-- `toml.load(file)` (`results.py` 86-89), an absent file being an empty one.  A file that holds a rotor is not
modelled: an exception. -/
def before (fs : Files) (path : String) : Res (Dict String FTable) :=
  match fs.get? path with
  | none => .ok []
  | some (.results d) => .ok d
  | some (.rotor _) => .error .exception

/-- The rotor of the results, saved beside them (`results.py` 99-102).  What is left of the file when saving the
rotor fails is not modelled: it is as before. -/
def saveAux (fs : Files) (path : String) (args : Dict String Arg) : Files × Res Unit :=
  match args.get? "rotor" with
  | none => (fs, .ok ())
  | some (.rotor r) =>
    match Persist.saveRotor r with
    | .ok f => (fs.set (aux path) (.rotor f), .ok ())
    | .error e => (fs, .error e)
  | some _ => (fs, .error .attributeError)

/-- `Results.save` (`results.py` 81-102, 1822-1827): the files afterwards and how the call ended.  The file is
emptied (`open(file, "w")`) before its new text is computed. -/
def save (T : Texts) (fs : Files) (path : String) (o : Obj) : Files × Res Unit :=
  match before fs path with
  | .error e => (fs, .error e)
  | .ok d =>
    match writeTable T (keptArgs o) with
    | .error e => (fs.set path (.results []), .error e)
    | .ok t => saveAux (fs.set path (.results ((dropModal d).set o.cls.name t))) path o.args

/-- The length of the longest text, the width in `dtype('<U…')`. -/
def width (l : List String) : ℕ := (l.map String.length).foldr max 0

/-- `dtype in str_type` (`results.py` 151, 169). -/
def isStrType (n : ℕ) : Bool := 40 ≤ n && n < 50

/-- A value of a file in the loop of `Results.load` (`results.py` 166-172). -/
def read (T : Texts) : FVal → Arg
  | .num x => .num x
  | .flag b => .flag b
  | .text s =>
    if isStrType s.length then
      match T.parse s with
      | some z => .cplx0 z
      | none => .text s
    else .text0 s
  | .nums l => .real l
  | .texts [] => .real []
  | .texts l =>
    if isStrType (width l) then
      match l.mapM T.parse with
      | some zs => .cplx zs
      | none => .texts l
    else .texts l
  | .dict t => .dict0 t

/-- `Rotor.load(aux_file)` (`results.py` 160-164). -/
noncomputable def loadAux (sp : Scipy) (pd : Pandas) (fuel : ℕ) (fs : Files) (path : String) : Option (Res Rotor) :=
  match fs.get? (aux path) with
  | some (.rotor f) => Persist.loadRotor sp pd fuel f
  | some (.results _) => some (.error .keyError)
  | none => some (.error .exception)

/-- The loop over the entries (`results.py` 157-172).  `none`: the rotor is never finished. -/
noncomputable def readTable (T : Texts) (sp : Scipy) (pd : Pandas) (fuel : ℕ) (fs : Files) (path : String) :
    FTable → Option (Res (Dict String Arg))
  | [] => some (.ok [])
  | (k, v) :: t =>
    if k = "rotor" then
      match loadAux sp pd fuel fs path with
      | none => none
      | some (.error e) => some (.error e)
      | some (.ok r) => (readTable T sp pd fuel fs path t).map fun x => x.map fun t' => (k, .rotor r) :: t'
    else (readTable T sp pd fuel fs path t).map fun x => x.map fun t' => (k, read T v) :: t'

/-- One parameter of `cls(**data)`: the keyword, or the default. -/
def argument (cls : Cls) (t : Dict String Arg) (p : String) : Res (String × Arg) :=
  match t.get? p with
  | some a => .ok (p, a)
  | none => if p ∈ cls.optional then .ok (p, .null) else .error .typeError

/-- `cls(**data)` (`results.py` 118): every keyword is a parameter, every parameter is given or has a default. -/
def construct (cls : Cls) (t : Dict String Arg) : Res Obj :=
  if t.keys.all (· ∈ cls.params) then do
    let args ← cls.params.mapM (argument cls t)
    pure ⟨cls, args⟩
  else .error .typeError

/-- `Results.load` (`results.py` 151-175, 1829-1834); the value `None` that is put at `modal_results` is not
iterable and stays. -/
noncomputable def load (T : Texts) (sp : Scipy) (pd : Pandas) (fuel : ℕ) (fs : Files) (cls : Cls) (path : String) :
    Option (Res Obj) :=
  match fs.get? path with
  | none => some (.error .exception)
  | some (.rotor _) => some (.error .exception)
  | some (.results d) =>
    match d.values with
    | [] => some (.error .indexError)
    | t :: _ =>
      (readTable T sp pd fuel fs path t).map fun x => x.bind fun a =>
        construct cls (if cls = .campbell then a.set "modal_results" .null else a)

end ResultsFile

end Ross
