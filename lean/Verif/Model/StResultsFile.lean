import Verif.Model.ResultsFile

/-!
# Model of saving and loading random results (`stochastic/st_results.py` 35-147)

Values and their texts are those of `ResultsFile`, with the same simplifications.
-/

namespace Ross

namespace StResultsFile

open ResultsFile

/-- The classes of random results. -/
inductive Cls
  | campbell | frequencyResponse | timeResponse | forcedResponse
  deriving DecidableEq

/-- `self.__class__.__name__` (`st_results.py` 153, 452, 1029, 1483). -/
def Cls.name : Cls → String
  | campbell => "ST_CampbellResults"
  | frequencyResponse => "ST_FrequencyResponseResults"
  | timeResponse => "ST_TimeResponseResults"
  | forcedResponse => "ST_ForcedResponseResults"

/-- `inspect.signature(self.__init__).parameters` (`st_results.py` 174, 480, 1061, 1519-1528); none has a default. -/
def Cls.params : Cls → List String
  | campbell => ["speed_range", "wd", "log_dec"]
  | frequencyResponse => ["speed_range", "freq_resp", "velc_resp", "accl_resp"]
  | timeResponse => ["t", "yout", "xout", "number_dof", "nodes", "link_nodes", "nodes_pos"]
  | forcedResponse => ["forced_resp", "velc_resp", "accl_resp", "frequency_range", "number_dof", "nodes", "link_nodes"]

/-- An object of a class of random results: the attributes named like the parameters, in their order. -/
structure Obj where
  cls : Cls
  args : Dict String Arg

/-- The files, by their paths. -/
abbrev Files := Dict String (Dict String FTable)

/-- `ST_Results.save` (`st_results.py` 72-83): the files afterwards and how the call ended.  The file is emptied
(`open(file, "w")`) before its new text is computed. -/
def save (T : Texts) (fs : Files) (path : String) (o : Obj) : Files × Res Unit :=
  let d := (fs.get? path).getD []
  match writeTable T o.args with
  | .error e => (fs.set path [], .error e)
  | .ok t => (fs.set path (d.set o.cls.name t), .ok ())

/-- A value of a file in the loop of `ST_Results.load` (`st_results.py` 142-146): texts of which the longest has 49
characters are taken for complex numbers, and it is a `ValueError` if one is not.  A single text is an array without
dimensions. -/
def read (T : Texts) : FVal → Res Arg
  | .num x => .ok (.num x)
  | .flag b => .ok (.flag b)
  | .text s =>
    if s.length = 49 then
      match T.parse s with
      | some z => .ok (.cplx0 z)
      | none => .error .valueError
    else .ok (.text0 s)
  | .nums l => .ok (.real l)
  | .texts [] => .ok (.real [])
  | .texts l =>
    if width l = 49 then
      match l.mapM T.parse with
      | some zs => .ok (.cplx zs)
      | none => .error .valueError
    else .ok (.texts l)
  | .dict t => .ok (.dict0 t)

/-- One parameter of `cls(**data)`. -/
def argument (t : Dict String Arg) (p : String) : Res (String × Arg) :=
  match t.get? p with
  | some a => .ok (p, a)
  | none => .error .typeError

/-- `cls(**data)` (`st_results.py` 103). -/
def construct (cls : Cls) (t : Dict String Arg) : Res Obj :=
  if t.keys.all (· ∈ cls.params) then do
    let args ← cls.params.mapM (argument t)
    pure ⟨cls, args⟩
  else .error .typeError

/-- `ST_Results.load` (`st_results.py` 139-147): the first table of the file, whatever its name. -/
def load (T : Texts) (fs : Files) (cls : Cls) (path : String) : Res Obj :=
  match fs.get? path with
  | none => .error .exception
  | some d =>
    match d.values with
    | [] => .error .indexError
    | t :: _ => do
      let a ← t.mapM fun kv => do
        let v ← read T kv.2
        pure (kv.1, v)
      construct cls a

end StResultsFile

end Ross
