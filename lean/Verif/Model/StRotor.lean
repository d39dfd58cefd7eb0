import Verif.Model.Stochastic
import Verif.Model.Rotor
import Verif.Model.Dynamics

/-!
# Model of random rotors (`ross/stochastic/st_rotor_assembly.py`)

`ST_Rotor` without `__getitem__`, `__setitem__` and the examples.
-/

namespace Ross.Stochastic

/-- An item in a list of elements that the caller passes: an element, a random element, or a list. -/
inductive Item (α : Type)
  | el (a : α)
  | st (e : StElement)
  | list (l : List α)

/-- An item of `attribute_dict["shaft_elements"]` and the like: an element, or a list. -/
inductive Drawn (α : Type)
  | one (a : α)
  | many (l : List α)

/-- The arguments of `ST_Rotor.__init__` (`st_rotor_assembly.py` 91-101); an omitted list is `[]` (102-107). -/
structure StArgs where
  shaft : List (Item ShaftEl)
  disks : List (Item DiskEl) := []
  bearings : List (Item BrgEl) := []
  pms : List (Item PmEl) := []
  min_w : Option ℝ := none
  max_w : Option ℝ := none
  rated_w : Option ℝ := none
  tag : Option String := none

/-- An `ST_Rotor` object: the attributes that later code reads. -/
structure StRotor where
  is_random : List String
  shaft : List (Drawn ShaftEl)
  disks : List (Drawn DiskEl)
  bearings : List (Drawn BrgEl)
  pms : List (Drawn PmEl)
  min_w : Option ℝ
  max_w : Option ℝ
  rated_w : Option ℝ
  tag : Option String
  RV_size : ℕ

/-- The elements drawn from an `ST_ShaftElement`. -/
noncomputable def drawShafts (e : StElement) : Res (List ShaftEl) :=
  match shafts e with
  | .ok l => .ok (l.map (ShaftEl.mk false))
  | .error x => .error x

/-- A disk as an element of a rotor.  A rotor does not read the scale factor, which is used in figures; one that
is not a number is 1 here. -/
def DiskObj.toEl (d : DiskObj) : DiskEl :=
  ⟨false, d.n, d.m, d.Id, d.Ip, (match d.tag with | .str s => some s | _ => none),
    (match d.scale_factor with | .num x => x | _ => 1), (match d.color with | .str s => s | _ => "")⟩

/-- The elements drawn from an `ST_DiskElement`. -/
noncomputable def drawDisks (e : StElement) : Res (List DiskEl) :=
  match disks e with
  | .ok l => .ok (l.map DiskObj.toEl)
  | .error x => .error x

/-- The elements drawn from an `ST_BearingElement`. -/
noncomputable def drawBearings (sp : Scipy) (e : StElement) : Res (List BrgEl) :=
  match bearings sp e with
  | .ok l => .ok (l.map (BrgEl.brg false))
  | .error x => .error x

/-- The elements drawn from an `ST_PointMass`. -/
noncomputable def drawPms (e : StElement) : Res (List PmEl) :=
  match pointMasses e with
  | .ok l => .ok (l.map PmEl.pm)
  | .error x => .error x

/-- The random elements among the items (`st_rotor_assembly.py` 116-118). -/
def randomItems {α : Type} (l : List (Item α)) : List StElement :=
  l.filterMap fun x => match x with
    | .st e => some e
    | _ => none

/-- `all(len(list(l)) == n for l in it)`, a `ValueError` otherwise (`st_rotor_assembly.py` 120-123). -/
def sameSize {α : Type} (draw : StElement → Res (List α)) (n : ℕ) : List StElement → Res Unit
  | [] => .ok ()
  | e :: l => match draw e with
    | .error x => .error x
    | .ok r => if r.length = n then sameSize draw n l else .error .valueError

/-- The number of samples of the random elements of one kind, if there are any (`st_rotor_assembly.py` 113-124
and the three paragraphs that follow). -/
def kindSize {α : Type} (draw : StElement → Res (List α)) (l : List (Item α)) : Res (Option ℕ) :=
  match randomItems l with
  | [] => .ok none
  | e :: t => match draw e with
    | .error x => .error x
    | .ok r => match sameSize draw r.length t with
      | .error x => .error x
      | .ok _ => .ok (some r.length)

/-- `shaft_elements[i] = list(iter(elm))` for the random elements (`st_rotor_assembly.py` 164-178). -/
def expand {α : Type} (draw : StElement → Res (List α)) : Item α → Res (Drawn α)
  | .el a => .ok (.one a)
  | .list l => .ok (.many l)
  | .st e => match draw e with
    | .ok l => .ok (.many l)
    | .error x => .error x

/-- The names of the kinds of which there are random elements. -/
def randomKinds (sizes : List (String × Option ℕ)) : List String :=
  (sizes.filter fun kv => kv.2.isSome).map Prod.fst

/-- `RV_size` (`st_rotor_assembly.py` 159-162). -/
def commonSize (len_list : List ℕ) : Res ℕ :=
  match len_list with
  | [] => .error .indexError
  | n :: _ => if len_list.count n = len_list.length then .ok n else .error .valueError

/-- The items of one kind for round `idx`: `_get_args` (`st_rotor_assembly.py` 309-345). -/
def getArg {α : Type} (idx : ℕ) : Drawn α → Res α
  | .one a => .ok a
  | .many l => match l[idx]? with
    | some a => .ok a
    | none => .error .indexError

/-- An item of a kind without random elements, as an argument of `Rotor`: a list is an attribute error there. -/
def notList {α : Type} : Drawn α → Res α
  | .one a => .ok a
  | .many _ => .error .attributeError

/-- The items of one kind that are passed to `Rotor` in round `i` (`st_rotor_assembly.py` 384-390). -/
def items {α : Type} (random : Bool) (i : ℕ) (l : List (Drawn α)) : Res (List α) :=
  l.mapM (if random then getArg i else notList)

/-- A shaft element, or a list of shaft elements, as an argument of `Rotor`. -/
def Drawn.nest : Drawn ShaftEl → Nest
  | .one a => .el a
  | .many l => .list (l.map Nest.el)

/-- The shaft elements that are passed to `Rotor` in round `i`: `Rotor` flattens lists. -/
def shaftItems (random : Bool) (i : ℕ) (l : List (Drawn ShaftEl)) : Res (List Nest) :=
  if random then
    match l.mapM (getArg i) with
    | .ok r => .ok (r.map Nest.el)
    | .error e => .error e
  else .ok (l.map Drawn.nest)

namespace StRotor

variable (s : StRotor)

/-- `new_args[i]` (`st_rotor_assembly.py` 382-391), as the arguments of `Rotor`, which are positional. -/
def rotorArgs (i : ℕ) : Res RotorArgs := do
  let shaft ← shaftItems ("shaft_elements" ∈ s.is_random) i s.shaft
  let disks ← items ("disk_elements" ∈ s.is_random) i s.disks
  let bearings ← items ("bearing_elements" ∈ s.is_random) i s.bearings
  let pms ← items ("point_mass_elements" ∈ s.is_random) i s.pms
  pure ⟨shaft, disks, bearings, pms, s.min_w, s.max_w, s.rated_w, s.tag⟩

/-- The length of the first list among the items (`st_rotor_assembly.py` 376-381). -/
def firstList {α : Type} (l : List (Drawn α)) : ℕ :=
  match l.findSome? fun x => match x with
    | .many r => some r.length
    | .one _ => none with
  | some n => n
  | none => l.length

/-- `var_size` (`st_rotor_assembly.py` 372-381), from the first kind in `is_random`. -/
def varSize : Res ℕ :=
  match s.is_random with
  | [] => .error .indexError
  | k :: _ =>
    if k = "shaft_elements" then .ok (firstList s.shaft)
    else if k = "disk_elements" then .ok (firstList s.disks)
    else if k = "bearing_elements" then .ok (firstList s.bearings)
    else .ok (firstList s.pms)

/-- `_random_var(self.is_random, self.attribute_dict)` (`st_rotor_assembly.py` 347-393). -/
def allArgs : Res (List RotorArgs) :=
  match s.varSize with
  | .error e => .error e
  | .ok n => (List.range n).mapM s.rotorArgs

end StRotor

/-- Building rotors one after the other. -/
noncomputable def buildAll (pd : Pandas) (fuel : ℕ) : List RotorArgs → Option (Res (List Rotor))
  | [] => some (.ok [])
  | a :: l => match Rotor.init pd fuel a with
    | none => none
    | some (.error e) => some (.error e)
    | some (.ok r) => match buildAll pd fuel l with
      | none => none
      | some (.error e) => some (.error e)
      | some (.ok rs) => some (.ok (r :: rs))

/-- `list(iter(rotors))` (`st_rotor_assembly.py` 200-214, 395-421). -/
noncomputable def StRotor.rotors (pd : Pandas) (fuel : ℕ) (s : StRotor) : Option (Res (List Rotor)) :=
  match s.allArgs with
  | .error e => some (.error e)
  | .ok l => buildAll pd fuel l

/-- `ST_Rotor.__init__` up to `_get_rotor_args` (`st_rotor_assembly.py` 102-195). -/
noncomputable def stBuild (sp : Scipy) (a : StArgs) : Res StRotor := do
  let sh ← kindSize drawShafts a.shaft
  let dk ← kindSize drawDisks a.disks
  let brg ← kindSize (drawBearings sp) a.bearings
  let pm ← kindSize drawPms a.pms
  let sizes := [("shaft_elements", sh), ("disk_elements", dk), ("bearing_elements", brg),
    ("point_mass_elements", pm)]
  let RV_size ← commonSize (sizes.filterMap Prod.snd)
  let shaft ← a.shaft.mapM (expand drawShafts)
  let disks ← a.disks.mapM (expand drawDisks)
  let bearings ← a.bearings.mapM (expand (drawBearings sp))
  let pms ← a.pms.mapM (expand drawPms)
  pure ⟨randomKinds sizes, shaft, disks, bearings, pms, a.min_w, a.max_w, a.rated_w, a.tag, RV_size⟩

/-- An `ST_Rotor` object with the attributes that `_get_rotor_args` sets. -/
structure StRotorObj extends StRotor where
  ndof : ℕ
  number_dof : ℕ
  link_nodes : List ℕ
  nodes_pos : List ℝ

/-- `ST_Rotor.__init__` (`st_rotor_assembly.py` 91-198) with `_get_rotor_args` (277-306): no item of
`attribute_dict["shaft_elements"]` is an `ST_ShaftElement` any more, so that `any(...)` in 294-298 is false. -/
noncomputable def stInit (pd : Pandas) (fuel : ℕ) (sp : Scipy) (a : StArgs) : Option (Res StRotorObj) :=
  match stBuild sp a with
  | .error e => some (.error e)
  | .ok s => match s.rotorArgs 0 with
    | .error e => some (.error e)
    | .ok args => match Rotor.init pd fuel args with
      | none => none
      | some (.error e) => some (.error e)
      | some (.ok r) => some (.ok ⟨s, r.ndof, r.number_dof, r.link_nodes, r.nodes_pos⟩)

/-- What the caller's list contains afterwards (`st_rotor_assembly.py` 164-178). -/
def afterwards {α : Type} : Drawn α → Item α
  | .one a => .el a
  | .many l => .list l

/-- The arguments of `ST_Rotor.__init__` after the call: the lists are those of the caller
(`st_rotor_assembly.py` 164-178). -/
noncomputable def callerArgs (sp : Scipy) (a : StArgs) : StArgs :=
  match stBuild sp a with
  | .error _ => a
  | .ok s => { a with
      shaft := s.shaft.map afterwards, disks := s.disks.map afterwards, bearings := s.bearings.map afterwards,
      pms := s.pms.map afterwards }

/-! ### Monte Carlo runs -/

/-- A loop over the rotors that stores the results (`st_rotor_assembly.py` 471-475, 566-578, 655-659, 837-843). -/
def runAll {β : Type} (run : Rotor → Res β) (rotors : List Rotor) : Res (List β) := rotors.mapM run

/-- Results for the rotors in an array for `RV_size` rotors that is filled from the start. -/
def store {β : Type} (zero : β) (RV_size : ℕ) (l : List β) : Res (List β) :=
  if RV_size < l.length then .error .indexError
  else .ok (l ++ List.replicate (RV_size - l.length) zero)

/-- `run_time_response` with a force for each rotor (`st_rotor_assembly.py` 662-670): `force` has three
dimensions. -/
def runForces {β φ : Type} (run : Rotor → φ → Res β) (zero : β) (RV_size : ℕ) (rotors : List Rotor)
    (force : List φ) : Res (List β) :=
  match (rotors.zip force).mapM fun x => run x.1 x.2 with
  | .error e => .error e
  | .ok l => store zero RV_size l

/-- `wd[j, :, i] = results.wd[:, j]` (`st_rotor_assembly.py` 471-475): `wd` is the list of the rows of
`results.wd`, one for each speed. -/
def campbellColumn (frequencies : ℕ) (wd : List (List ℝ)) : Res (List (List ℝ)) :=
  (List.range frequencies).mapM fun j => wd.mapM (SVal.entry j)

/-- `freq_resp[:, i] = results.freq_resp[inp, out, :]` (`st_rotor_assembly.py` 575-577). -/
def freqColumn {N : ℕ} (inp out : Fin N) (resp : List (Matrix (Fin N) (Fin N) ℂ)) : List ℂ :=
  resp.map fun H => H inp out

/-- The argument `node`. -/
inductive NodeArg
  | one (n : ℕ)
  | list (l : List ℕ)

/-- The arguments `unbalance_magnitude` and `unbalance_phase`. -/
inductive UVal
  | num (x : ℝ)
  | list (l : List ℝ)
  | grid (l : List (List ℝ))

/-- The arguments of `Rotor.run_unbalance_response`. -/
structure UArgs where
  node : NodeArg
  magnitude : UVal
  phase : UVal
  frequency_range : List ℝ
  modes : Option (List ℤ) := none
  cluster_points : Bool := false
  num_modes : ℕ := 12
  num_points : ℕ := 10
  rtol : ℝ := 0.005

namespace UVal

/-- `isinstance(value[0], Iterable)`. -/
def firstIterable : UVal → Res Bool
  | num _ => .error .typeError
  | list [] => .error .indexError
  | list _ => .ok false
  | grid [] => .error .indexError
  | grid _ => .ok true

/-- Whether a magnitude or a phase is random (`st_rotor_assembly.py` 819-827). -/
def isRandom (node : NodeArg) (v : UVal) : Res Bool :=
  match node with
  | .one _ => match v with
    | num _ => .ok false
    | _ => .ok true
  | .list _ => v.firstIterable

/-- `value[i]`. -/
def get (i : ℕ) : UVal → Res UVal
  | num _ => .error .typeError
  | list l => match l[i]? with
    | some x => .ok (num x)
    | none => .error .indexError
  | grid l => match l[i]? with
    | some r => .ok (list r)
    | none => .error .indexError

/-- `var_size` for the value of the first random argument (`st_rotor_assembly.py` 376-381). -/
def varSize : UVal → Res ℕ
  | num _ => .error .typeError
  | list l => .ok l.length
  | grid (r :: _) => .ok r.length
  | grid [] => .ok 0

end UVal

/-- `args` for round `i` (`st_rotor_assembly.py` 382-391). -/
def UArgs.round (a : UArgs) (rm rp : Bool) (i : ℕ) : Res UArgs := do
  let magnitude ← if rm then a.magnitude.get i else .ok a.magnitude
  let phase ← if rp then a.phase.get i else .ok a.phase
  pure { a with magnitude := magnitude, phase := phase }

/-- The calls of `Rotor.run_unbalance_response` (`st_rotor_assembly.py` 795-843).  All rotors are taken to be
built before the first call. -/
def unbalanceCalls (rotors : List Rotor) (a : UArgs) : Res (List (Rotor × UArgs)) := do
  let rm ← a.magnitude.isRandom a.node
  let rp ← a.phase.isRandom a.node
  if rm ∨ rp then
    let n ← (if rm then a.magnitude else a.phase).varSize
    let l ← (List.range n).mapM (a.round rm rp)
    pure (rotors.zip l)
  else
    -- 837-840: four arguments
    pure (rotors.map fun r => (r, { node := a.node, magnitude := a.magnitude, phase := a.phase,
                                    frequency_range := a.frequency_range }))

/-- `ST_Rotor.run_unbalance_response` (`st_rotor_assembly.py` 791-859): what is stored for each rotor. -/
def runUnbalance {β : Type} (run : Rotor → UArgs → Res β) (zero : β) (RV_size : ℕ) (rotors : List Rotor)
    (a : UArgs) : Res (List β) := do
  let calls ← unbalanceCalls rotors a
  let l ← calls.mapM fun x => run x.1 x.2
  store zero RV_size l

/-! ### Statistics -/

/-- `np.percentile(x, q)` of a list that is not empty, by linear interpolation between the sorted values. -/
noncomputable def percentile (l : List ℝ) (q : ℝ) : Res ℝ :=
  if q < 0 ∨ 100 < q then .error .valueError
  else
    let s := l.mergeSort (fun a b => decide (a ≤ b))
    let pos : ℝ := q / 100 * (s.length - 1)
    let k := ⌊pos⌋₊
    match s[k]?, s[k + 1]? with
    | none, _ => .error .indexError
    | some x, none => .ok x
    | some x, some y => .ok (x + (y - x) * (pos - k))

/-- The limits of a confidence interval (`st_results.py` 262-263, 358-359, 588-589, 716-717). -/
noncomputable def confInterval (l : List ℝ) (p : ℝ) : Res (ℝ × ℝ) := do
  let p1 ← percentile l (50 + p / 2)
  let p2 ← percentile l (50 - p / 2)
  pure (p2, p1)

/-- `np.mean` of a list that is not empty. -/
noncomputable def mean (l : List ℝ) : ℝ := l.sum / l.length

end Ross.Stochastic
