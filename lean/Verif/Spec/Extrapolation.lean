import Verif.Model.Extrapolation

/-! # Specification: frequencies inside the tables of bearings -/

namespace Ross.Spec

/-- The frequency lies between two frequencies of the table of the bearing, if it has one. -/
def InTable (b : BrgEl) (ω : ℝ) : Prop := ∀ f, b.base.frequency = some f → ∃ lo ∈ f, ∃ hi ∈ f, lo ≤ ω ∧ ω ≤ hi

/-- All coefficients of a bearing. -/
def coeffs : BrgEl → List Coeff
  | .brg _ b => [b.kxx, b.kxy, b.kyx, b.kyy, b.cxx, b.cxy, b.cyx, b.cyy, b.mxx, b.mxy, b.myx, b.myy]
  | .brg6 b => [b.base.kxx, b.base.kxy, b.base.kyx, b.base.kyy, b.base.cxx, b.base.cxy, b.base.cyx, b.base.cyy, b.base.mxx,
      b.base.mxy, b.base.myx, b.base.myy, b.kzz, b.czz, b.mzz]

/-- The bearings differ at most in the values of their coefficients outside of their tables. -/
structure SameInTable (b b' : BrgEl) : Prop where
  table : b'.base.frequency = b.base.frequency
  link : b'.base.n_link = b.base.n_link
  coef : ∀ ω, InTable b ω → (coeffs b').map (fun c => c.eval ω) = (coeffs b).map fun c => c.eval ω

/-- The rotor with other bearings in the places of its bearings. -/
abbrev rebearing (g : BrgEl → BrgEl) (r : Rotor) : Rotor :=
  { r with
    bearings := r.bearings.map g
    placed := r.placed.map fun x => (match x.1 with
      | .brg b => .brg (g b)
      | e => e, x.2) }

end Ross.Spec
