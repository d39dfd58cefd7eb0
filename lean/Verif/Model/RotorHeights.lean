import Verif.Model.RotorPlot

/-!
# The heights of bearings and point masses in the drawing of a rotor

The columns `y_pos` and `y_pos_sup` of the table of elements (`rotor_assembly.py` 489-551) and what
`BearingElement._patch` (`bearing_seal_element.py` 648-762) and `PointMass._patch` (`point_mass.py` 254-325, 487-560) draw at
them.  The functions here read the finished table `r.df`: placing the point masses changes no row of a bearing.  A number
that may be NaN is an `Option`.  Colours, names and line widths are left out.
-/

namespace Ross

namespace RotorPlot

open Rotor

/-- The pandas call `dfb_z_pos.sort_values(by="n_l")` (`rotor_assembly.py` 496), an unstable sort: an arbitrary function here,
restricted by a contract where a theorem needs it. -/
structure NodeSort where
  sort : List Row → List Row

/-- `a + b` of numbers that may be NaN. -/
noncomputable def plus (a b : Option ℝ) : Option ℝ := a.bind fun x => b.map fun y => x + y

open Classical in
/-- `y_pos` for the axial position `z`; `n` is the node of the first bearing there (`rotor_assembly.py` 497-528).  `max` of
an empty selection is a `ValueError`. -/
noncomputable def footOf (sh : List ShaftEl) (z : ℝ) (n : ℕ) : Res ℝ := do
  let pos := shaftPos sh
  let first := (pos.head?.map Prod.fst).getD 0
  let last := (pos.getLast?.map Prod.snd).getD 0
  let odl := (sh.filter fun e => nodeOf e = n).map fun e => e.s.odl
  let odr := (sh.filter fun e => nodeOf e + 1 = n).map fun e => e.s.odr
  if z = first then
    let d ← maxPos odl
    pure (d / 2)
  else if z = last then
    let d ← maxPos odr
    pure (d / 2)
  else
    let d₁ ← maxPos odl
    let d₂ ← maxPos odr
    pure (max d₁ d₂ / 2)

/-- The loop over the tags of the bearings at one position (`rotor_assembly.py` 534-538).  `y_pos_sup` is a column with an
entry for each bearing; `scale` is the column `scale_factor`. -/
noncomputable def stack (mean_od : Option ℝ) (scale : Option String → ℝ) :
    List (Option String) → Option ℝ → (Option String → Option ℝ) → List (Option String × Option ℝ × Option ℝ)
  | [], _, _ => []
  | t :: ts, y_pos, y_pos_sup =>
    (t, y_pos, y_pos_sup t) ::
      stack mean_od scale ts (plus y_pos (mean_od.map (· * scale t)))
        (fun s => plus (y_pos_sup s) (mean_od.map (· * scale t)))

/-- `df["scale_factor"][df.tag == t].values[0]` of a bearing: the summary of an element has its attributes
(`element.py` 183-204). -/
noncomputable def scaleFactor (brs : List BrgEl) (t : Option String) : ℝ :=
  ((brs.find? fun b => b.tag = t).map fun b => b.base.scale_factor).getD 0

open Classical in
/-- The bearings at the axial position `z` (`rotor_assembly.py` 495-538); for NaN the selection is empty, `.iloc[0]` an
`IndexError`. -/
noncomputable def heightsAt (ns : NodeSort) (r : Rotor) (z : Option ℝ) : Res (List (Option String × Option ℝ × Option ℝ)) :=
  match z with
  | none => .error .indexError
  | some z =>
    let rows := ns.sort ((r.df.filter (·.isBrg)).filter fun x => x.nodes_pos_l = some z)
    match rows with
    | [] => .error .indexError
    | x :: _ => do
      let y_pos ← footOf r.shaft z (x.n_l.getD 0)
      -- 529-532
      let mean_od := meanOf r.nodes_o_d
      let scale := scaleFactor r.bearings
      let y_pos_sup := fun t => plus (some y_pos) (mean_od.map fun m => 2 * (0.5 * scale t * m))
      pure (stack mean_od scale (rows.map (·.tag)) (some y_pos) y_pos_sup)

/-- The columns `y_pos` and `y_pos_sup` of the bearings (`rotor_assembly.py` 491-538). -/
noncomputable def heights (ns : NodeSort) (r : Rotor) : Res (List (Option String × Option ℝ × Option ℝ)) := do
  let l ← (((r.df.filter (·.isBrg)).map (·.nodes_pos_l)).reverse.dedup.reverse).mapM (heightsAt ns r)
  pure l.flatten

/-- `df[df.tag == t][...].values[0]` (`rotor_assembly.py` 2365-2374). -/
def heightOf (H : List (Option String × Option ℝ × Option ℝ)) (t : Option String) : Res (Option ℝ × Option ℝ) :=
  match H.find? fun x => x.1 = t with
  | some x => .ok x.2
  | none => .error .indexError

/-- `dfb[dfb.n_l == p.n]["y_pos"].values[0]` (`rotor_assembly.py` 547). -/
def pmHeight (r : Rotor) (H : List (Option String × Option ℝ × Option ℝ)) (p : PmEl) : Res (Option ℝ) :=
  match r.df.filter fun x => x.isBrg ∧ x.n_l = p.n with
  | [] => .error .indexError
  | x :: _ => do
    let y ← heightOf H x.tag
    pure y.1

/-- A polyline and its mirror image, as `yu = [-y for y in yl]`. -/
def both (x y : List ℝ) : List (List (ℝ × ℝ)) := [x.zip y, x.zip (y.map (-·))]

/-- `np.insert(l, i, x)` for an index within the list. -/
def insertAt (l : List ℝ) (i : ℕ) (x : ℝ) : List ℝ := l.take i ++ x :: l.drop i

/-- `BearingElement._patch` (`bearing_seal_element.py` 666-762) at a position without NaN: the traces in order. -/
noncomputable def bearingPatch (grounded : Bool) (zpos ypos ypos_s : ℝ) : List (List (ℝ × ℝ)) :=
  let icon_h := ypos_s - ypos
  let icon_w := icon_h / 2
  let coils := 6
  let n := 5
  let step := icon_w / (coils + 1)
  let zs0 := zpos - icon_w / 3.5
  let zs1 := zpos + icon_w / 3.5
  let ys0 := ypos + 0.25 * icon_h
  -- 690-696
  let bottom := both [zpos, zpos, zs0, zs1] [ypos, ys0, ys0, ys0]
  -- 698-708
  let y_top := ypos + icon_h
  let y_base := ypos + 0.75 * icon_h
  let top := both [zpos, zpos, zs0, zs1] [y_top, y_base, y_base, y_base]
  -- 710-723
  let zl_g0 := zs0 - step
  let zl_g1 := zs1 + step
  let step2 := (zl_g1 - zl_g0) / n
  let ground := both [zl_g0, zl_g1] [y_top, y_top] ++ (List.range (5 + 1)).flatMap fun i =>
    both [zs0 - step + step2 * (i : ℝ), zs0 - step + step2 * ((i : ℝ) + 1)] [y_top, 1.1 * y_top]
  -- 725-735
  let z_spring := (List.range 6).foldl (fun l i => insertAt l (i + 2) (zs0 - (-1) ^ i * step)) [zs0, zs0, zs0, zs0]
  let yl_spring := (List.range 6).foldl (fun l i => insertAt l (i + 2) (ys0 + ((i : ℝ) + 1) * step))
    [ys0, ys0 + step, ys0 + icon_w - step, ys0 + icon_w]
  let spring := both z_spring yl_spring
  -- 737-742
  let base := both [zs1, zs1] [ys0, ys0 + 2 * step]
  -- 744-749
  let center := both [zs1 - 2 * step, zs1 - 2 * step, zs1 + 2 * step, zs1 + 2 * step]
    [ys0 + 5 * step, ys0 + 2 * step, ys0 + 2 * step, ys0 + 5 * step]
  -- 751-762
  let piston := both [zs1 - 2 * step, zs1 + 2 * step, zs1, zs1]
    [ys0 + 4 * step, ys0 + 4 * step, ys0 + 4 * step, ypos + 1.5 * icon_w]
  bottom ++ top ++ (if grounded then ground else []) ++ spring ++ base ++ center ++ piston

/-- `PointMass._patch` (`point_mass.py` 271-325, 504-560): the two markers and the two circles. -/
noncomputable def pmPatch (zpos ypos : ℝ) : List (ℝ × ℝ) × List Circle :=
  let radius := ypos / 12
  ([(zpos, ypos), (zpos, -ypos)],
    [⟨some (zpos - radius), some (ypos - radius), some (zpos + radius), some (ypos + radius)⟩,
     ⟨some (zpos - radius), some (-ypos - radius), some (zpos + radius), some (-ypos + radius)⟩])

/-- The traces of the bearings and the drawings of the point masses in `plot_rotor` (`rotor_assembly.py` 2358-2391); `none`
for those with NaN in their positions, which are not modelled. -/
noncomputable def drawSupports (ns : NodeSort) (r : Rotor) (ul : ℝ := 1) :
    Res (List (Option (List (List (ℝ × ℝ)))) × List (Option (List (ℝ × ℝ) × List Circle))) := do
  let H ← heights ns r
  let brs ← r.bearings.mapM fun b => do
    let z ← tablePos ul r.df b.tag
    let y ← heightOf H b.tag
    pure (z.bind fun z => y.1.bind fun y₀ => y.2.map fun y₁ => bearingPatch b.n_link.isNone z (ul * y₀) (ul * y₁))
  let pms ← r.pms.mapM fun p => do
    let z ← tablePos ul r.df p.tag
    let y ← pmHeight r H p
    pure (z.bind fun z => y.map fun y => pmPatch z (ul * y))
  pure (brs, pms)

end RotorPlot

end Ross
