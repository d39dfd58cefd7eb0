import Verif.Model.Elements

/-! # Model of `Rotor.__init__` (`ross/rotor_assembly.py` 135-593) -/

namespace Ross

/-- The `shaft_elements` argument: an element, or a (nested) list of them. -/
inductive Nest
  | el (e : ShaftEl)
  | list (l : List Nest)

namespace Nest

mutual
/-- `flatten` of one item (`rotor_assembly.py` 161-166). -/
def flatten : Nest → List ShaftEl
  | el e => [e]
  | list l => flattenAll l

/-- `flatten` of a list (`rotor_assembly.py` 161-166). -/
def flattenAll : List Nest → List ShaftEl
  | [] => []
  | x :: t => flatten x ++ flattenAll t
end

end Nest

/-- The arguments of `Rotor.__init__`; an omitted list is `[]` (180-185). -/
structure RotorArgs where
  shaft : List Nest
  disks : List DiskEl := []
  bearings : List BrgEl := []
  pms : List PmEl := []
  min_w : Option ℝ := none
  max_w : Option ℝ := none
  rated_w : Option ℝ := none
  tag : Option String := none

/-- One row of the data frame `df` (`rotor_assembly.py` 246-300): only the columns that later code
reads.  A missing value (`NaN`) is `none`; point masses have no `n_l`/`n_r`. -/
structure Row where
  tag : Option String
  n_l : Option ℕ
  n_r : Option ℕ
  n_link : Option ℕ
  nodes_pos_l : Option ℝ
  nodes_pos_r : Option ℝ
  isBrg : Bool

/-- The pandas call `df.sort_values(by="n_l")` (298), an unstable sort: an arbitrary function here,
restricted by a contract where a theorem needs it. -/
structure Pandas where
  sortByNl : List Row → List Row

/-- A rotor (`rotor_assembly.py` 145-552); `placed` pairs every element with its
`dof_global_index`. -/
structure Rotor where
  shaft : List ShaftEl
  disks : List DiskEl
  bearings : List BrgEl
  pms : List PmEl
  placed : List (Elm × Dict DofKey ℕ)
  number_dof : ℕ
  ndof : ℕ
  axial_cg_pos : List ℝ
  nodes_pos : List ℝ
  nodes_i_d : List (Option ℝ)
  nodes_o_d : List (Option ℝ)
  shaft_elements_length : List ℝ
  L : ℝ
  link_nodes : List ℕ
  m_disks : ℝ
  m_shaft : ℝ
  m : ℝ
  CG : ℝ
  Ip : ℝ
  df : List Row
  min_w : Option ℝ
  max_w : Option ℝ
  rated_w : Option ℝ
  tag : String

namespace Rotor

/-- `Rotor.elements` (`rotor_assembly.py` 209-219). -/
def elements (r : Rotor) : List Elm := r.placed.map Prod.fst

/-- `tag = prefix + str(i)` when the tag is `None`. -/
def defTag (p : String) (i : ℕ) : Option String → Option String
  | some t => some t
  | none => some (p ++ toString i)

/-- Numbering and tagging of the flattened shaft elements (`rotor_assembly.py` 174-178); the
elements are copies (171), so the caller's objects are not changed. -/
def numberShaft (l : List ShaftEl) : List ShaftEl :=
  l.mapIdx fun i e =>
    { e with
      s := { e.s with
        n := some (e.s.n.getD i)
        tag := defTag "ShaftElement " i e.s.tag } }

/-- Tagging of disks (`rotor_assembly.py` 187-189).  Elements of the argument lists are taken to be
distinct objects: the code changes the caller's objects. -/
def tagDisks (l : List DiskEl) : List DiskEl :=
  l.mapIdx fun i e => { e with d := { e.d with tag := defTag "Disk " i e.d.tag } }

/-- Tagging of bearings (`rotor_assembly.py` 191-199). -/
def tagBearings (l : List BrgEl) : List BrgEl :=
  l.mapIdx fun i b => b.setTag (defTag (if b.isSeal then "Seal " else "Bearing ") i b.tag)

/-- Tagging of point masses (`rotor_assembly.py` 201-203). -/
def tagPms (l : List PmEl) : List PmEl :=
  l.mapIdx fun i p => p.setTag (defTag "Point Mass " i p.tag)

/-- Node number of a numbered shaft element. -/
def nodeOf (e : ShaftEl) : ℕ := e.s.n.getD 0

/-- `sorted(shaft_elements, key=lambda el: el.n)` (`rotor_assembly.py` 205). -/
def sortShaft (l : List ShaftEl) : List ShaftEl := l.mergeSort fun a b => nodeOf a ≤ nodeOf b

/-- `sorted(bearing_elements, key=lambda el: el.n)` (`rotor_assembly.py` 206). -/
def sortBearings (l : List BrgEl) : List BrgEl := l.mergeSort fun a b => a.n ≤ b.n

/-- `len(el.dof_mapping())`. -/
def nMap (e : Elm) : ℕ := e.dofMapping.length

/-- `_check_number_dof` (`rotor_assembly.py` 555-593); point masses are not checked. -/
def checkNumberDof (sh : List ShaftEl) (dk : List DiskEl) (br : List BrgEl) : Res ℕ :=
  match sh with
  | [] => .error .indexError
  | e :: _ =>
    let number_dof := nMap (.shaft e) / 2
    if sh.any (fun s => nMap (.shaft s) ≠ number_dof * 2) then .error .exception
    else if dk.any (fun d => nMap (.disk d) ≠ number_dof) then .error .exception
    else if br.any (fun b => nMap (.brg b) ≠ number_dof / 2) then .error .exception
    else .ok number_dof

/-- Left and right positions of the shaft elements after the first
(`rotor_assembly.py` 276-289): an element with the left node of its predecessor takes over both
positions, otherwise it starts where the predecessor ends. -/
noncomputable def shaftPosAux (prev : ShaftEl) (l r : ℝ) : List ShaftEl → List (ℝ × ℝ)
  | [] => []
  | e :: t =>
    if nodeOf e = nodeOf prev then (l, r) :: shaftPosAux e l r t
    else (r, r + e.s.L) :: shaftPosAux e r (r + e.s.L) t

/-- `nodes_pos_l`, `nodes_pos_r` (`rotor_assembly.py` 272-289). -/
noncomputable def shaftPos : List ShaftEl → List (ℝ × ℝ)
  | [] => []
  | e :: t => (0, 0 + e.s.L) :: shaftPosAux e 0 (0 + e.s.L) t

/-- The distinct values of `n_l`, increasing: the groups of `groupby("n_l")` of the sorted frame. -/
def groups (sh : List ShaftEl) : List ℕ := (sh.map nodeOf).dedup

/-- `nodes_pos` (`rotor_assembly.py` 324-325). -/
noncomputable def nodesPos (sh : List ShaftEl) : List ℝ :=
  let pos := shaftPos sh
  ((groups sh).map fun g =>
      ((((sh.zip pos).filter fun x => nodeOf x.1 = g).map fun x => x.2.1).max?).getD 0) ++
    [((pos.getLast?).map Prod.snd).getD 0]

/-- The shaft elements that touch node `n` (`rotor_assembly.py` 331-334, 340-343). -/
def touching (sh : List ShaftEl) (n : ℕ) : List ShaftEl :=
  sh.filter fun e => nodeOf e = n ∨ nodeOf e + 1 = n

/-- Rows of the shaft elements (`rotor_assembly.py` 249, 291-293). -/
def shaftRows (sh : List ShaftEl) (pos : List (ℝ × ℝ)) : List Row :=
  (sh.zip pos).map fun x =>
    ⟨x.1.s.tag, some (nodeOf x.1), some (nodeOf x.1 + 1), none, some x.2.1, some x.2.2, false⟩

/-- Rows of the disks (`rotor_assembly.py` 250). -/
def diskRows (dk : List DiskEl) : List Row :=
  dk.map fun e => ⟨e.d.tag, some e.d.n, some e.d.n, none, none, none, false⟩

/-- Rows of bearings or seals (`rotor_assembly.py` 191-194, 251-269). -/
def brgRows (br : List BrgEl) : List Row :=
  br.map fun b => ⟨b.tag, some b.n, some b.n, b.n_link, none, none, true⟩

/-- Rows of the point masses (`rotor_assembly.py` 270). -/
def pmRows (pm : List PmEl) : List Row :=
  pm.map fun p => ⟨p.tag, none, none, none, none, none, false⟩

/-- `pd.concat([df_shaft, df_disks, df_bearings, df_point_mass, df_seals])`
(`rotor_assembly.py` 295-297). -/
def concatRows (sh : List ShaftEl) (pos : List (ℝ × ℝ)) (dk : List DiskEl) (br : List BrgEl)
    (pm : List PmEl) : List Row :=
  shaftRows sh pos ++ diskRows dk ++ brgRows (br.filter fun b => !b.isSeal) ++ pmRows pm ++
    brgRows (br.filter fun b => b.isSeal)

/-- `max` over a possibly empty column of node numbers. -/
def maxOr0 (l : List ℕ) : ℕ := l.foldr max 0

/-- Is some disk, bearing or seal outside the shaft (`rotor_assembly.py` 314-321)? -/
def outside (sh : List ShaftEl) (dk : List DiskEl) (br : List BrgEl) (pm : List PmEl) : Bool :=
  let max_loc_point_mass := maxOr0 (pm.filterMap PmEl.n)
  let max_location := max (maxOr0 (sh.map fun e => nodeOf e + 1)) max_loc_point_mass
  let n_l := sh.map nodeOf ++ dk.map (·.d.n) ++ br.map BrgEl.n
  decide (maxOr0 n_l > max_location)

/-- The loop over `dof_mapping()` and over the keys of one element
(`rotor_assembly.py` 385-432); `half_ndof = number_dof / 2`. -/
def globalDofs (number_dof n_last n : ℕ) (n_link : Option ℕ) (map : Dict DofKey ℕ) :
    Dict DofKey ℕ :=
  let half := number_dof / 2
  -- 389-393
  let g : Dict DofKey ℕ := map.foldl (fun g kv => Dict.set g (kv.1.1, kv.1.2 + n) kv.2) []
  -- 395-402
  let g : Dict DofKey ℕ := g.map fun kv =>
    (kv.1, if n ≤ n_last + 1 then number_dof * n + kv.2
      else half * n_last + half * n + number_dof + kv.2)
  -- 404-432
  match n_link with
  | none => g
  | some k =>
    let b := if k ≤ n_last + 1 then number_dof * k else half * n_last + half * k + number_dof
    let g := Dict.set (Dict.set g ("x", k) b) ("y", k) (b + 1)
    if number_dof = 6 then Dict.set g ("z", k) (b + 2) else g

/-- `elm.dof_global_index` (`rotor_assembly.py` 386-434); `int + None` raises `TypeError`. -/
def place (number_dof n_last : ℕ) (e : Elm) : Res (Elm × Dict DofKey ℕ) :=
  match e.n with
  | none => .error .typeError
  | some n => .ok (e, globalDofs number_dof n_last n e.n_link e.dofMapping)

/-- `nodes_pos[disk.n]`. -/
def posAt (nodes_pos : List ℝ) (n : ℕ) : Res ℝ :=
  match nodes_pos[n]? with
  | some x => .ok x
  | none => .error .indexError

/-- Write a position into the row(s) with tag `t` (`df.loc[df.tag == t, ...] = z`). -/
def setPos (rows : List Row) (t : Option String) (z : Option ℝ) : List Row :=
  rows.map fun r => if r.tag = t then { r with nodes_pos_l := z, nodes_pos_r := z } else r

/-- The position given to bearing `b` (`rotor_assembly.py` 459-477). -/
def bearingPos (rows : List Row) (b : BrgEl) : Res (Option ℝ) :=
  let node_l := (rows.filter fun r => r.n_l = some b.n ∧ r.tag ≠ b.tag).map (·.nodes_pos_l)
  let node_r := (rows.filter fun r => r.n_r = some b.n ∧ r.tag ≠ b.tag).map (·.nodes_pos_r)
  match node_l, node_r with
  | v :: _, _ => .ok v
  | [], v :: _ => .ok v
  | [], [] =>
    match (rows.filter fun r => r.n_link = some b.n ∧ r.tag ≠ b.tag).map (·.nodes_pos_l) with
    | [] => .error .valueError
    | v :: _ => .ok v

/-- The loop `for b in cycle(self.bearing_elements)` (`rotor_assembly.py` 450-479).  `todo` is what
is left of the current round, `pending` the tags in `bearings_no_zloc`.  `none`: not finished after
`fuel` iterations. -/
def cycleLoop (bearings : List BrgEl) :
    ℕ → List BrgEl → List Row → List (Option String) → Option (Res (List Row))
  | 0, _, _, _ => none
  | fuel + 1, todo, rows, pending =>
    match todo with
    | [] =>
      -- `cycle` starts the next round, and ends at once for an empty list
      match bearings with
      | [] => some (.ok rows)
      | _ :: _ => cycleLoop bearings fuel bearings rows pending
    | b :: rest =>
      if pending = [] then some (.ok rows)
      else if b.tag ∈ pending then
        match bearingPos rows b with
        | .error e => some (.error e)
        | .ok z => cycleLoop bearings fuel rest (setPos rows b.tag z) (pending.filter (· ≠ b.tag))
      else cycleLoop bearings fuel rest rows pending

open Classical in
/-- The rotor drawing heights (`rotor_assembly.py` 489-542) for the axial position `z`: only the
exceptions are modelled.  A missing position leaves an empty frame and `.iloc[0]` raises
`IndexError`; `max` of an empty selection of shaft elements raises `ValueError`. -/
noncomputable def heightCheck (sh : List ShaftEl) (pos : List (ℝ × ℝ)) (rows : List Row)
    (z : Option ℝ) : Res Unit :=
  match z with
  | none => .error .indexError
  | some z =>
    let n := (((rows.filter fun r => r.nodes_pos_l = some z).filterMap (·.n_l)).min?).getD 0
    let first := (pos.head?.map Prod.fst).getD 0
    let last := (pos.getLast?.map Prod.snd).getD 0
    let nodes := sh.map nodeOf
    if z = first then (if n ∈ nodes then .ok () else .error .valueError)
    else if z = last then (if ∃ m ∈ nodes, m + 1 = n then .ok () else .error .valueError)
    else if n ∈ nodes ∧ ∃ m ∈ nodes, m + 1 = n then .ok () else .error .valueError

/-- Position of one point mass (`rotor_assembly.py` 545-551): that of the first bearing on its
node; `.values[0]` of an empty selection raises `IndexError`. -/
def pmPos (rows : List Row) (p : PmEl) : Res (List Row) :=
  match (rows.filter fun r => r.isBrg ∧ r.n_l = p.n).map (·.nodes_pos_l) with
  | [] => .error .indexError
  | z :: _ => .ok (setPos rows p.tag z)

/-- The element lists after numbering, tagging and sorting; `sh₀` is the shaft before sorting. -/
structure Parts where
  sh₀ : List ShaftEl
  sh : List ShaftEl
  dk : List DiskEl
  br : List BrgEl
  pm : List PmEl

/-- `rotor_assembly.py` 171-208. -/
def parts (a : RotorArgs) : Parts :=
  let sh₀ := numberShaft (Nest.flattenAll a.shaft)
  ⟨sh₀, sortShaft sh₀, tagDisks a.disks, sortBearings (tagBearings a.bearings), tagPms a.pms⟩

/-- `self.elements` (`rotor_assembly.py` 209-219). -/
def Parts.elements (p : Parts) : List Elm :=
  p.sh.map Elm.shaft ++ p.dk.map Elm.disk ++ p.br.map Elm.brg ++ p.pm.map Elm.pm

/-- `self.shaft_elements[-1].n` (`rotor_assembly.py` 385). -/
def lastNode (sh : List ShaftEl) : ℕ := ((sh.getLast?).map nodeOf).getD 0

/-- `nodes_i_d` (`rotor_assembly.py` 329-336). -/
noncomputable def nodesId (sh : List ShaftEl) : List (Option ℝ) :=
  (List.range (nodesPos sh).length).map fun n => ((touching sh n).map fun e => e.s.i_d).min?

/-- `nodes_o_d` (`rotor_assembly.py` 338-345). -/
noncomputable def nodesOd (sh : List ShaftEl) : List (Option ℝ) :=
  (List.range (nodesPos sh).length).map fun n => ((touching sh n).map fun e => e.s.o_d).max?

/-- `shaft_elements_length` (`rotor_assembly.py` 347). -/
noncomputable def elementsLength (sh : List ShaftEl) : List ℝ :=
  (groups sh).map fun g =>
    (((sh.filter fun e => nodeOf e = g).map fun e => e.s.L).min?).getD 0

/-- `axial_cg_pos` (`rotor_assembly.py` 279, 288). -/
noncomputable def axialCg (sh : List ShaftEl) : List ℝ :=
  (sh.zip (shaftPos sh)).map fun x => x.1.s.beam_cg + x.2.1

/-- `ndof` (`rotor_assembly.py` 378-382). -/
def ndofOf (number_dof : ℕ) (sh₀ : List ShaftEl) (pm : List PmEl) : ℕ :=
  number_dof * (maxOr0 (sh₀.map nodeOf) + 2) + number_dof / 2 * pm.length

/-- `CG` (`rotor_assembly.py` 363-369); `dkpos` are the axial positions of the disks. -/
noncomputable def centre (sh : List ShaftEl) (dk : List DiskEl) (dkpos : List ℝ) (m : ℝ) : ℝ :=
  ((sh.zip (axialCg sh)).map fun x => x.1.s.m * x.2 / m).sum +
    ((dk.zip dkpos).map fun x => x.1.d.m * x.2 / m).sum

/-- Everything between the check of the dofs and the placement of the bearings
(`rotor_assembly.py` 272-446): the rotor with the positions of shaft elements and disks in `df`. -/
noncomputable def buildFrom (pd : Pandas) (a : RotorArgs) (p : Parts) (number_dof : ℕ) : Res Rotor :=
  -- 272-300
  let df := pd.sortByNl (concatRows p.sh (shaftPos p.sh) p.dk p.br p.pm)
  -- 314-321
  if outside p.sh p.dk p.br p.pm then .error .valueError
  else do
    -- 358-373
    let m_disks := (p.dk.map fun e => e.d.m).sum
    let m_shaft := (p.sh.map fun e => e.s.m).sum
    let dkpos ← p.dk.mapM fun e => posAt (nodesPos p.sh) e.d.n
    -- 385-437
    let placed ← p.elements.mapM (place number_dof (lastNode p.sh))
    pure {
      shaft := p.sh, disks := p.dk, bearings := p.br, pms := p.pm, placed := placed
      number_dof := number_dof, ndof := ndofOf number_dof p.sh₀ p.pm
      axial_cg_pos := axialCg p.sh
      nodes_pos := nodesPos p.sh, nodes_i_d := nodesId p.sh, nodes_o_d := nodesOd p.sh
      shaft_elements_length := elementsLength p.sh
      -- 350
      L := ((nodesPos p.sh).getLast?).getD 0
      -- 352-355
      link_nodes := (df.filterMap (·.n_link)).reverse.dedup.reverse
      m_disks := m_disks, m_shaft := m_shaft, m := m_disks + m_shaft
      CG := centre p.sh p.dk dkpos (m_disks + m_shaft)
      -- 371-373
      Ip := (p.sh.map fun e => e.s.Im).sum + (p.dk.map fun e => e.d.Ip).sum
      -- 440-446
      df := (p.dk.zip dkpos).foldl (fun rows x => setPos rows x.1.d.tag (some x.2)) df
      min_w := a.min_w, max_w := a.max_w, rated_w := a.rated_w, tag := a.tag.getD "Rotor 0" }

/-- Everything up to the placement of the bearings (`rotor_assembly.py` 135-446). -/
noncomputable def build (pd : Pandas) (a : RotorArgs) : Res Rotor :=
  let p := parts a
  -- 221-224
  if ¬ (p.elements.map Elm.tag).Nodup then .error .valueError
  else do
    -- 226
    let number_dof ← checkNumberDof p.sh p.dk p.br
    buildFrom pd a p number_dof

/-- The end of `Rotor.__init__` (`rotor_assembly.py` 480-552), after the bearings have positions. -/
noncomputable def finish (r : Rotor) (rows : List Row) : Res Rotor := do
  -- 489-542
  let brgs := rows.filter (·.isBrg)
  let _ ← ((brgs.map (·.nodes_pos_l)).reverse.dedup.reverse).mapM
    (heightCheck r.shaft (shaftPos r.shaft) brgs)
  -- 544-552
  let rows ← r.pms.foldlM pmPos rows
  pure { r with df := rows }

/-- `Rotor.__init__` (`rotor_assembly.py` 135-552).  `none`: the constructor has not returned after
`fuel` iterations of its `cycle` loop. -/
noncomputable def init (pd : Pandas) (fuel : ℕ) (a : RotorArgs) : Option (Res Rotor) :=
  match build pd a with
  | .error e => some (.error e)
  | .ok r =>
    -- 448-479: every bearing is without position at first
    match cycleLoop r.bearings fuel r.bearings r.df (r.bearings.map BrgEl.tag) with
    | none => none
    | some (.error e) => some (.error e)
    | some (.ok rows) => some (finish r rows)

end Rotor

end Ross
