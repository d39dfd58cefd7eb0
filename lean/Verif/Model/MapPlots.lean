import Verif.Model.Runs
import Verif.Model.StPlots

/-!
# Model of the figures of maps and coefficients

`results.py`: `UCSResults.plot` (4863-4983), `Level1Results.plot` (5126-5170);
`bearing_seal_element.py` 254-345: `BearingElement.plot`.

Units are factors; names and coordinates of the curves are kept, layout is left out.
-/

namespace Ross.MapPlots

open Ross.Rotor Ross.Stochastic

/-- The traces of `UCSResults.plot`. -/
structure UcsFig where
  curves : List Curve
  points : Curve
  kxx : Curve
  kyy : Curve

/-- `UCSResults.plot` (`results.py` 4863-4983): `us`, `uf` are the units of stiffness and of frequency.  The dictionary of
the points is copied before its entries are replaced, so the results stay as they are. -/
def ucsPlot (u : Ucs) (us uf : ℝ) : Res UcsFig := do
  let kxx ← u.bearing_frequency_range.mapM u.bearing.kxx.eval
  let kyy ← u.bearing_frequency_range.mapM u.bearing.kyy.eval
  let freq := u.bearing_frequency_range.map (uf * ·)
  pure
    { curves := u.wn.map fun row => ⟨u.stiffness_log.map (us * ·), row.map (uf * ·)⟩
      points := ⟨u.points.map fun p => us * p.x, u.points.map fun p => uf * p.y⟩
      kxx := ⟨kxx.map (us * ·), freq⟩
      kyy := ⟨kyy.map (us * ·), freq⟩ }

/-- `Level1Results.plot` (`results.py` 5126-5170). -/
def level1Plot (l : Level1) : Curve := ⟨l.stiffness_range, l.log_dec⟩

/-- `getattr(self, f"{coeff}_interpolated")` for a `BearingElement`. -/
def coeffOf (b : BearingElement) : String → Res Coeff
  | "kxx" => .ok b.kxx
  | "kxy" => .ok b.kxy
  | "kyx" => .ok b.kyx
  | "kyy" => .ok b.kyy
  | "cxx" => .ok b.cxx
  | "cxy" => .ok b.cxy
  | "cyx" => .ok b.cyx
  | "cyy" => .ok b.cyy
  | "mxx" => .ok b.mxx
  | "mxy" => .ok b.mxy
  | "myx" => .ok b.myx
  | "myy" => .ok b.myy
  | _ => .error .attributeError

/-- `coeff[0]`. -/
def firstLetter (name : String) : Res Char :=
  match name.toList with
  | [] => .error .indexError
  | c :: _ => .ok c

/-- `BearingElement.plot` (`bearing_seal_element.py` 294-345); `us`, `ud`, `um`, `uf` are the units of stiffness, damping,
mass and frequency.  `set().pop()` is a `KeyError`, `min(None)` a `TypeError`, and `min` of an empty sequence a
`ValueError`. -/
noncomputable def bearingPlot (b : BearingElement) (names : List String) (us ud um uf : ℝ) :
    Res (List (String × Curve)) := do
  let letters ← names.mapM firstLetter
  match letters with
  | [] => .error .keyError
  | a :: t =>
    if ∃ c ∈ t, c ≠ a then .error .valueError
    else do
      let unit := if a = 'k' then us else if a = 'c' then ud else um
      match b.frequency with
      | none => .error .typeError
      | some fs => do
        let lo ← smallest fs
        let hi ← greatest fs
        let range := linspace lo hi 30
        names.mapM fun name => do
          let c ← coeffOf b name
          let y ← range.mapM c.eval
          pure (name, (⟨range.map (uf * ·), y.map (unit * ·)⟩ : Curve))

end Ross.MapPlots
