import Verif.Model.Rotor

/-!
# The drawing of a rotor

`Rotor.plot_rotor` (`rotor_assembly.py` 2271-2404) and the outlines that the elements add to it.  `ul` is the factor of
`length_units`.  A number that may be NaN and the `None` that separates outlines are both `none`.  Of a bearing only the
axial position and whether it is drawn on the ground are modelled, of a point mass only its axial position and text: their
heights are in `RotorHeights`.  The rounding of numbers in texts, line widths and opacities are left out.
-/

namespace Ross

namespace RotorPlot

/-- `disk.scale_factor`: a number or `"mass"`; with `"mass"`, the attribute `_scale_factor_calculated` if the disk has it
(`disk_element.py` 59-70, `rotor_assembly.py` 2346). -/
inductive DiskScale
  | num (x : ℝ)
  | mass (calculated : Option ℝ)

/-- `disk.scale_factor == "mass"` (`rotor_assembly.py` 2342). -/
def DiskScale.isMass : DiskScale → Bool
  | .mass _ => true
  | .num _ => false

/-- The outline of a shaft element and its text. -/
structure ShaftPatch where
  z : List ℝ
  y : List ℝ
  color : String
  legend : String
  n : ℕ
  numbers : List ℝ
  material : Option String

/-- A circle, by two corners of its box. -/
structure Circle where
  x0 : Option ℝ
  y0 : Option ℝ
  x1 : Option ℝ
  y1 : Option ℝ

/-- The outline of a disk, its circles and its text. -/
structure DiskPatch where
  z : List (Option ℝ)
  y : List (Option ℝ)
  circles : List Circle
  n : ℕ
  numbers : List ℝ

/-- What is drawn of a bearing. -/
structure BearingPatch where
  z : Option ℝ
  grounded : Bool

/-- What is drawn of a point mass. -/
structure PmPatch where
  z : Option ℝ
  n : Option ℕ
  masses : List (String × ℝ)

/-- The figure. -/
structure Drawing where
  warned : Option (List ℝ)
  center : List ℝ
  labels : List (String × ℝ)
  shaft : List ShaftPatch
  disks : List DiskPatch
  bearings : List BearingPatch
  pms : List PmPatch

open Classical in
/-- `ShaftElement._patch` (`shaft_element.py` 930-1004). -/
noncomputable def shaftPatch (ul : ℝ) (check_sld : Bool) (e : ShaftEl) (position : ℝ) : ShaftPatch :=
  let s := e.s
  let thin := check_sld = true ∧ s.slenderness_ratio < 1.6
  let z := [position, position, position + s.L, position + s.L, position]
  let y_upper := [s.idl / 2, s.odl / 2, s.odr / 2, s.idr / 2, s.idl / 2]
  let y_lower := [-s.idl / 2, -s.odl / 2, -s.odr / 2, -s.idr / 2, -s.idl / 2]
  { z := (z ++ z).map (ul * ·)
    y := (y_upper ++ y_lower).map (ul * ·)
    color := if thin then "yellow" else s.material.color
    legend := if thin then "Shaft - Slenderness Ratio < 1.6" else "Shaft"
    n := Rotor.nodeOf e
    numbers :=
      if check_sld then [s.slenderness_ratio]
      else if e.six then [ul * s.odl, ul * s.idl, ul * s.odr, ul * s.idr, s.alpha, s.beta, ul * s.L]
      else [ul * s.odl, ul * s.idl, ul * s.odr, ul * s.idr, ul * s.L]
    material := if check_sld then none else some s.material.name }

/-- `DiskElement._patch` (`disk_element.py` 311-386) at `zpos`, `ypos` with the scale `f`; `ypos` and `f` may be NaN. -/
noncomputable def diskPatch (d : DiskElement) (zpos : ℝ) (ypos f : Option ℝ) : DiskPatch :=
  let radius := f.map (· / 8)
  let at' (g : ℝ → ℝ → ℝ) : Option ℝ := ypos.bind fun y => f.map fun s => g y s
  let z := [some zpos, f.map fun s => zpos + s / 25, f.map fun s => zpos - s / 25, some zpos]
  let top := at' fun y s => y + 2 * s
  let bottom := at' fun y s => -y - 2 * s
  let circle (c : Option ℝ) : Circle :=
    ⟨radius.map fun ρ => zpos - ρ, c.bind fun c => radius.map fun ρ => c - ρ, radius.map fun ρ => zpos + ρ,
      c.bind fun c => radius.map fun ρ => c + ρ⟩
  { z := z ++ [none] ++ z
    y := [ypos, top, top, ypos] ++ [none] ++ [ypos.map (-·), bottom, bottom, ypos.map (-·)]
    circles := [circle top, circle bottom]
    n := d.n
    numbers := [d.Ip, d.Id, d.m] }

/-- `f"Mass (Z): {customdata[2]:.3f}<br>"` and the other masses in the text of a point mass (`point_mass.py` 274-279,
507-513). -/
def massText : PmEl → List (String × ℝ)
  | .pm p => [("Mass (X)", p.mx), ("Mass (Y)", p.my)]
  | .pm6 p => [("Mass (X)", p.mx), ("Mass (Y)", p.my), ("Mass (Z)", p.my)]

/-- `nodes_pos[::nodes]` with `"{}".format(node * nodes)` (`rotor_assembly.py` 2308-2313): every `nodes`-th entry.  An
increment of zero is a `ValueError`; negative ones are not modelled. -/
def everyNth (nodes : ℕ) (l : List ℝ) : Res (List (String × ℝ)) :=
  if nodes = 0 then .error .valueError
  else .ok ((List.range ((l.length + nodes - 1) / nodes)).map fun k => (toString (k * nodes), l.getD (k * nodes) 0))

/-- `np.mean` of a list in which NaN may occur. -/
noncomputable def meanOf (l : List (Option ℝ)) : Option ℝ :=
  (l.mapM id).map fun x => x.sum / l.length

/-- The scale factors from the masses of the disks, if all of them ask for it (`rotor_assembly.py` 2341-2346); a
maxPos mass of zero is a `ZeroDivisionError`. -/
noncomputable def calculated (l : List (DiskEl × DiskScale)) : Res (List (DiskEl × DiskScale)) :=
  if l.all (fun x => x.2.isMass) then
    match (l.map fun x => x.1.d.m).max? with
    | none => .ok l
    | some max_mass =>
      if max_mass = 0 then .error .zeroDivisionError
      else .ok (l.map fun x => (x.1, .mass (some ((1 - x.1.d.m / max_mass) * 0.5 + x.1.d.m / max_mass * 1.0))))
  else .ok l

/-- `scale_factor` of a disk (`rotor_assembly.py` 2349-2351); a missing attribute is an `AttributeError`. -/
def scaleOf : DiskScale → Res ℝ
  | .num x => .ok x
  | .mass (some x) => .ok x
  | .mass none => .error .attributeError

/-- `l[i]`. -/
def atIndex {α : Type} (l : List α) (i : ℕ) : Res α :=
  match l[i]? with
  | some x => .ok x
  | none => .error .indexError

/-- `max(l)` (`rotor_assembly.py` 2292): of an empty list a `ValueError`. -/
noncomputable def maxPos (l : List ℝ) : Res ℝ :=
  match l.max? with
  | some x => .ok x
  | none => .error .valueError

/-- `Q_(self.df[self.df.tag == t]["nodes_pos_l"].values[0], "m").to(length_units).m` (`rotor_assembly.py` 2360-2364,
2380-2384). -/
noncomputable def tablePos (ul : ℝ) (df : List Row) (t : Option String) : Res (Option ℝ) :=
  match (df.filter fun x => x.tag = t).map (·.nodes_pos_l) with
  | [] => .error .indexError
  | z :: _ => .ok (z.map (ul * ·))

open Classical in
/-- `Rotor.plot_rotor` (`rotor_assembly.py` 2271-2404); `scales` gives the `scale_factor` of each disk. -/
noncomputable def plot_rotor (r : Rotor) (scales : List DiskScale) (nodes : ℕ := 1) (check_sld : Bool := false)
    (ul : ℝ := 1) : Res Drawing := do
  -- 2271-2284
  let SR := (r.shaft.map fun e => e.s.slenderness_ratio).filter fun x => x < 1.6
  let warned := if check_sld = true ∧ SR ≠ [] then some SR else none
  -- 2286-2287
  let nodes_pos := r.nodes_pos.map (ul * ·)
  let nodes_o_d := r.nodes_o_d.map fun x => x.map (ul * ·)
  -- 2292
  let shaft_end ← maxPos nodes_pos
  -- 2306-2331
  let labels ← everyNth nodes nodes_pos
  -- 2333-2336
  let shaft ← r.shaft.mapM fun e => do
    let p ← atIndex r.nodes_pos (Rotor.nodeOf e)
    pure (shaftPatch ul check_sld e p)
  -- 2338-2356
  let mean_od := meanOf nodes_o_d
  let scaled ← calculated (r.disks.zip scales)
  let disks ← scaled.mapM fun x => do
    let f ← scaleOf x.2
    let z ← atIndex nodes_pos x.1.d.n
    let y ← atIndex nodes_o_d x.1.d.n
    pure (diskPatch x.1.d z (y.map (· / 2)) (mean_od.map (f * ·)))
  -- 2358-2376
  let bearings ← r.bearings.mapM fun b => do
    let z ← tablePos ul r.df b.tag
    pure (⟨z, b.n_link.isNone⟩ : BearingPatch)
  -- 2378-2391
  let pms ← r.pms.mapM fun p => do
    let z ← tablePos ul r.df p.tag
    pure (⟨z, p.n, massText p⟩ : PmPatch)
  pure { warned := warned, center := [-0.2 * shaft_end, 1.2 * shaft_end], labels := labels, shaft := shaft
         disks := disks, bearings := bearings, pms := pms }

end RotorPlot

end Ross
