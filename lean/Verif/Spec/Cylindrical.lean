import Mathlib.Analysis.SpecialFunctions.Sqrt
import Mathlib.Analysis.SpecialFunctions.Trigonometric.Basic
import Mathlib.Algebra.Polynomial.Roots

/-! # The oil film of a short journal bearing

Ocvirk's solution of Reynolds' equation for a film that fills half of the gap.  Nothing here refers
to the code. -/

namespace Ross.Spec

open Real

/-- A journal bearing: diameter `D`, length `L`, radial clearance `c`, oil viscosity `η`. -/
structure ShortBearing where
  D : ℝ
  L : ℝ
  c : ℝ
  η : ℝ

namespace ShortBearing

variable (B : ShortBearing)

/-- `D η L³ / (2 c²)` -/
noncomputable def scale : ℝ := B.D * B.η * B.L ^ 3 / (2 * B.c ^ 2)

/-- The force of the film on the journal along the line of centres, outwards, when the journal spins
at `ω`, the eccentricity is `ε` times the clearance and changes at the rate `ε'`, and the line of
centres turns at the rate `φ'`. -/
noncomputable def radial (ω ε ε' φ' : ℝ) : ℝ :=
  -B.scale * ((ω - 2 * φ') * ε ^ 2 / (1 - ε ^ 2) ^ 2 +
    π / 2 * ε' * (1 + 2 * ε ^ 2) / √(1 - ε ^ 2) ^ 5)

/-- The force of the film on the journal at right angles to the line of centres, in the sense of
the rotation. -/
noncomputable def tangential (ω ε ε' φ' : ℝ) : ℝ :=
  B.scale * ((ω - 2 * φ') * π * ε / (4 * √(1 - ε ^ 2) ^ 3) + 2 * ε * ε' / (1 - ε ^ 2) ^ 2)

/-- Distance of the journal centre from the centre of the bearing. -/
noncomputable def offset (x y : ℝ) : ℝ := √(x ^ 2 + y ^ 2)

/-- The force of the film in fixed axes, for a journal at `(x, y)` moving at `(u, v)`. -/
noncomputable def film (ω x y u v : ℝ) : ℝ × ℝ :=
  let r := offset x y
  let ε := r / B.c
  let ε' := (x * u + y * v) / (r * B.c)
  let φ' := (x * v - y * u) / r ^ 2
  let fr := B.radial ω ε ε' φ'
  let ft := B.tangential ω ε ε' φ'
  (fr * (x / r) + ft * (-y / r), fr * (y / r) + ft * (x / r))

/-- The journal rests at `(x, y)`, inside the clearance, with the film carrying the weight `W`,
which pulls towards `-y`. -/
def Rests (ω W x y : ℝ) : Prop :=
  0 < offset x y ∧ offset x y < B.c ∧ B.film ω x y 0 0 = (0, W)

end ShortBearing

/-- `k` is the stiffness matrix and `d` the damping matrix of a force at the point `(x, y)`: the
entries are minus the partial derivatives of the force at rest. -/
structure Linearised (F : ℝ → ℝ → ℝ → ℝ → ℝ × ℝ) (x y kxx kxy kyx kyy dxx dxy dyx dyy : ℝ) :
    Prop where
  kxx : HasDerivAt (fun t => (F (x + t) y 0 0).1) (-kxx) 0
  kxy : HasDerivAt (fun t => (F x (y + t) 0 0).1) (-kxy) 0
  kyx : HasDerivAt (fun t => (F (x + t) y 0 0).2) (-kyx) 0
  kyy : HasDerivAt (fun t => (F x (y + t) 0 0).2) (-kyy) 0
  dxx : HasDerivAt (fun t => (F x y t 0).1) (-dxx) 0
  dxy : HasDerivAt (fun t => (F x y 0 t).1) (-dxy) 0
  dyx : HasDerivAt (fun t => (F x y t 0).2) (-dyx) 0
  dyy : HasDerivAt (fun t => (F x y 0 t).2) (-dyy) 0

/-- The complex polynomial with the given coefficients, lowest power first. -/
noncomputable def ofCoefs (l : List ℝ) : Polynomial ℂ :=
  ∑ i : Fin l.length, Polynomial.C ((l[i] : ℝ) : ℂ) * Polynomial.X ^ i.val

/-- A root finder that returns the complex roots of every real polynomial with a leading
coefficient other than zero, each as often as its multiplicity, in any order. -/
def FindsRoots (find : List ℝ → List ℂ) : Prop :=
  ∀ l : List ℝ, (∃ a ≠ 0, l.getLast? = some a) → (find l : Multiset ℂ) = (ofCoefs l).roots

end Ross.Spec
