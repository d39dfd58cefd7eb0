import Verif.Model.CoAxial

/-!
# Model of the axial positions of `CoAxialRotor` (`ross/rotor_assembly.py` 3817-3860, 3879-3901, 3903-3915)

The columns `nodes_pos_l` and `nodes_pos_r` of the table of the shaft elements.  Arrays are functions of the row; reading
beyond the last row is an `IndexError`.  The frame of the bearings has a row, without which `df_bearings["n_link"]`
raises.  The positions of the centres of mass are modelled twice: the attributes of the elements, which the centre of mass
of the rotor is calculated with, and the column of the table.
-/

namespace Ross.CoAxialPos

open Ross Ross.Rotor

/-- The two arrays. -/
structure Pos where
  l : ℕ → ℝ
  r : ℕ → ℝ

/-- `f[i:j] += d`. -/
def addSlice (f : ℕ → ℝ) (i j : ℕ) (d : ℝ) : ℕ → ℝ := fun m => if i ≤ m ∧ m < j then f m + d else f m

/-- `df_bearings.loc[df_bearings.n_link == n, "n"].values[0]`, `none` when `n` is not in the column `n_link`; the frame
has no seals (`rotor_assembly.py` 3801-3807, 3839-3846). -/
def linkOf (br : List BrgEl) (n : ℕ) : Option ℕ :=
  ((br.filter fun b => !b.isSeal).find? fun b => b.n_link = some n).map (·.n)

/-- The index before `c`; before 0 it is the last one. -/
def before1 (N c : ℕ) : ℕ := if c = 0 then N - 1 else c - 1

/-- The body of the loop for row `k + i`, element `k` of its shaft with node `n` (`rotor_assembly.py` 3825-3849): `L`
and `nl` are the columns of the `N` rows. -/
noncomputable def step (L : ℕ → ℝ) (nl : ℕ → ℕ) (N : ℕ) (link : ℕ → Option ℕ) (i k n : ℕ) (s : Pos) : Res Pos :=
  let c := k + i
  let r₁ := if k = 0 then Function.update s.r c (L c) else s.r
  let s₂ : Pos :=
    if 0 < k ∧ nl c = nl (c - 1) then ⟨Function.update s.l c (s.l (c - 1)), Function.update r₁ c (r₁ (c - 1))⟩
    else ⟨Function.update s.l c (r₁ (before1 N c)), Function.update r₁ c (r₁ (before1 N c) + L c)⟩
  match link n with
  | some b =>
    if b < N then
      .ok ⟨addSlice s₂.l i n (s₂.l b - s₂.l c), addSlice s₂.r i n (s₂.r b - s₂.r c)⟩
    else .error .indexError
  | none =>
    match link (n + 1) with
    | some b =>
      if b ≤ N then
        .ok ⟨addSlice s₂.l i (n + 1) (s₂.l (before1 N b) - s₂.l c), addSlice s₂.r i (n + 1) (s₂.r (before1 N b) - s₂.r c)⟩
      else .error .indexError
    | none => .ok s₂

/-- The loop over the elements of one shaft, from element `k` on (`rotor_assembly.py` 3824-3855). -/
noncomputable def shaftLoop (L : ℕ → ℝ) (nl : ℕ → ℕ) (N : ℕ) (link : ℕ → Option ℕ) (i : ℕ) :
    ℕ → List ShaftEl → Pos → Res Pos
  | _, [], s => .ok s
  | k, e :: t, s => do
    let s' ← step L nl N link i k (nodeOf e) s
    shaftLoop L nl N link i (k + 1) t s'

/-- The loop over the shafts; `i` is the row of the first element (`rotor_assembly.py` 3822-3855). -/
noncomputable def allLoop (L : ℕ → ℝ) (nl : ℕ → ℕ) (N : ℕ) (link : ℕ → Option ℕ) : ℕ → List (List ShaftEl) → Pos → Res Pos
  | _, [], s => .ok s
  | i, sh :: t, s => do
    let s' ← shaftLoop L nl N link i 0 sh s
    allLoop L nl N link (i + sh.length) t s'

/-- `L`, `n_l` of row `c` of the table of the sorted shaft elements. -/
noncomputable def colL (sh : List ShaftEl) (c : ℕ) : ℝ := ((sh[c]?).map fun e => e.s.L).getD 0

def colN (sh : List ShaftEl) (c : ℕ) : ℕ := ((sh[c]?).map nodeOf).getD 0

/-- `nodes_pos_l` and `nodes_pos_r` (`rotor_assembly.py` 3817-3860), for the numbered shafts and the sorted bearings. -/
noncomputable def positions (shafts : List (List ShaftEl)) (br : List BrgEl) : Res Pos :=
  let sh := sortShaft shafts.flatten
  allLoop (colL sh) (colN sh) sh.length (linkOf br) 0 shafts ⟨fun _ => 0, fun _ => 0⟩

/-- `list.insert(pos, v)`. -/
def insertAt (l : List ℝ) (pos : ℕ) (v : ℝ) : List ℝ := l.take pos ++ v :: l.drop pos

/-- `nodes_pos` (`rotor_assembly.py` 3879-3892): one value for each node at the left of an element, then the ends of the
shafts; `iloc[pos - 1]` is a row, `pos` a node. -/
noncomputable def nodesPos (shafts : List (List ShaftEl)) (p : Pos) : Res (List ℝ) := do
  let sh := sortShaft shafts.flatten
  let inner := (groups sh).map fun g =>
    ((((List.range sh.length).filter fun c => colN sh c = g).map p.l).max?).getD 0
  let ends ← (shafts.dropLast).foldlM (fun l s =>
    let pos := ((s.getLast?).map fun e => nodeOf e + 1).getD 0
    if pos - 1 < sh.length then .ok (insertAt l pos (p.r (pos - 1))) else .error .indexError) inner
  .ok (ends ++ [p.r (sh.length - 1)])

/-- `o_d` of row `c` of the table. -/
noncomputable def colOd (sh : List ShaftEl) (c : ℕ) : ℝ := ((sh[c]?).map fun e => e.s.o_d).getD 0

/-- `nodes_o_d` (`rotor_assembly.py` 3881, 3887, 3891): as `nodes_pos`, with the column `o_d` in the place of
`nodes_pos_l` and `nodes_pos_r`. -/
noncomputable def nodesOd (shafts : List (List ShaftEl)) : Res (List ℝ) :=
  let sh := sortShaft shafts.flatten
  nodesPos shafts ⟨colOd sh, colOd sh⟩

/-- `self.L = nodes_pos[-1]` (`rotor_assembly.py` 3901). -/
noncomputable def rotorLength (shafts : List (List ShaftEl)) (p : Pos) : Res ℝ := do
  let v ← nodesPos shafts p
  match v.getLast? with
  | some z => .ok z
  | none => .error .indexError

/-- `sh.axial_cg_pos` of the elements of one shaft, from element `k` on: it is set in the pass of the element, after its
move (`rotor_assembly.py` 3853-3854; the value of 3829 is overwritten). -/
noncomputable def shaftCg (L : ℕ → ℝ) (nl : ℕ → ℕ) (N : ℕ) (link : ℕ → Option ℕ) (i : ℕ) :
    ℕ → List ShaftEl → Pos → Res (List ℝ)
  | _, [], _ => .ok []
  | k, e :: t, s => do
    let s' ← step L nl N link i k (nodeOf e) s
    let a ← shaftCg L nl N link i (k + 1) t s'
    .ok ((e.s.beam_cg + s'.l (k + i)) :: a)

/-- The same for all shafts (`rotor_assembly.py` 3822-3855). -/
noncomputable def allCg (L : ℕ → ℝ) (nl : ℕ → ℕ) (N : ℕ) (link : ℕ → Option ℕ) : ℕ → List (List ShaftEl) → Pos → Res (List ℝ)
  | _, [], _ => .ok []
  | i, sh :: t, s => do
    let a ← shaftCg L nl N link i 0 sh s
    let s' ← shaftLoop L nl N link i 0 sh s
    let b ← allCg L nl N link (i + sh.length) t s'
    .ok (a ++ b)

/-- `sh.axial_cg_pos` of all elements, in the order of the shafts. -/
noncomputable def cgPos (shafts : List (List ShaftEl)) (br : List BrgEl) : Res (List ℝ) :=
  let sh := sortShaft shafts.flatten
  allCg (colL sh) (colN sh) sh.length (linkOf br) 0 shafts ⟨fun _ => 0, fun _ => 0⟩

/-- The column `axial_cg_pos` in the pass of one element, `s'` the arrays at its end (`rotor_assembly.py` 3841-3853): what
a move adds is calculated after `nodes_pos_r` has been moved.  The value of 3828 is overwritten. -/
noncomputable def colStep (N : ℕ) (link : ℕ → Option ℕ) (i k n : ℕ) (g : ℝ) (s' : Pos) (a : ℕ → ℝ) : ℕ → ℝ :=
  let c := k + i
  let a₁ :=
    match link n with
    | some b => addSlice a i n (s'.r b - s'.r c)
    | none =>
      match link (n + 1) with
      | some b => addSlice a i (n + 1) (s'.r (before1 N b) - s'.r c)
      | none => a
  Function.update a₁ c (g + s'.l c)

/-- The column `axial_cg_pos` in the passes of one shaft (`rotor_assembly.py` 3824-3854). -/
noncomputable def shaftCol (L : ℕ → ℝ) (nl : ℕ → ℕ) (N : ℕ) (link : ℕ → Option ℕ) (i : ℕ) :
    ℕ → List ShaftEl → Pos → (ℕ → ℝ) → Res (ℕ → ℝ)
  | _, [], _, a => .ok a
  | k, e :: t, s, a => do
    let s' ← step L nl N link i k (nodeOf e) s
    shaftCol L nl N link i (k + 1) t s' (colStep N link i k (nodeOf e) e.s.beam_cg s' a)

/-- The same for all shafts (`rotor_assembly.py` 3822-3855). -/
noncomputable def allCol (L : ℕ → ℝ) (nl : ℕ → ℕ) (N : ℕ) (link : ℕ → Option ℕ) :
    ℕ → List (List ShaftEl) → Pos → (ℕ → ℝ) → Res (ℕ → ℝ)
  | _, [], _, a => .ok a
  | i, sh :: t, s, a => do
    let a' ← shaftCol L nl N link i 0 sh s a
    let s' ← shaftLoop L nl N link i 0 sh s
    allCol L nl N link (i + sh.length) t s' a'

/-- `df_shaft["axial_cg_pos"]` (`rotor_assembly.py` 3819, 3860). -/
noncomputable def cgColumn (shafts : List (List ShaftEl)) (br : List BrgEl) : Res (ℕ → ℝ) :=
  let sh := sortShaft shafts.flatten
  allCol (colL sh) (colN sh) sh.length (linkOf br) 0 shafts ⟨fun _ => 0, fun _ => 0⟩ fun _ => 0

/-- `self.CG` (`rotor_assembly.py` 3903-3915).  A sum in the order of the shafts, not in that of the sorted elements;
numbered shafts are sorted. -/
noncomputable def cg (shafts : List (List ShaftEl)) (disks : List DiskEl) (br : List BrgEl) : Res ℝ := do
  let p ← positions shafts br
  let a ← cgPos shafts br
  let v ← nodesPos shafts p
  let m := (disks.map fun d => d.d.m).sum + (shafts.flatten.map fun e => e.s.m).sum
  let cg_sh := (List.zipWith (fun (e : ShaftEl) x => e.s.m * x / m) shafts.flatten a).sum
  let dsk ← disks.mapM fun d => match v[d.d.n]? with
    | some z => .ok (d.d.m * z / m)
    | none => .error .indexError
  .ok (cg_sh + dsk.sum)

end Ross.CoAxialPos
