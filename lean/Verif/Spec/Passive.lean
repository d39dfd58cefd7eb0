import Verif.Spec.Work
import Verif.Spec.Beam
import Verif.Lemmas.ShaftBuilt

/-! # Specification: rotors made of passive elements -/

namespace Ross.Spec

open Ross Matrix

/-- The quadratic form `xx x² + (xy + yx) x y + yy y²` is nowhere negative. -/
def NonnegForm (xx xy yx yy : ℝ) : Prop := 0 ≤ xx ∧ 0 ≤ yy ∧ (xy + yx) ^ 2 ≤ 4 * xx * yy

/-- The coefficients of a bearing at frequency `ω` describe a passive support: symmetric non-negative
stiffness and mass, damping that does not generate energy. -/
structure PassiveBrg (ω : ℝ) (b : BrgEl) : Prop where
  stiff : ∀ xx xy yx yy, b.base.kxx.eval ω = .ok xx → b.base.kxy.eval ω = .ok xy →
    b.base.kyx.eval ω = .ok yx → b.base.kyy.eval ω = .ok yy → xy = yx ∧ NonnegForm xx xy yx yy
  damp : ∀ xx xy yx yy, b.base.cxx.eval ω = .ok xx → b.base.cxy.eval ω = .ok xy →
    b.base.cyx.eval ω = .ok yx → b.base.cyy.eval ω = .ok yy → NonnegForm xx xy yx yy
  mass : ∀ xx xy yx yy, b.base.mxx.eval ω = .ok xx → b.base.mxy.eval ω = .ok xy →
    b.base.myx.eval ω = .ok yx → b.base.myy.eval ω = .ok yy → xy = yx ∧ NonnegForm xx xy yx yy
  axial : match b with
    | .brg _ _ => True
    | .brg6 b => ∀ z, b.kzz.eval ω = .ok z ∨ b.czz.eval ω = .ok z ∨ b.mzz.eval ω = .ok z → 0 ≤ z

/-- A point mass with positive masses, moving in all the directions of a support node. -/
def PmPositive (nd : ℕ) : PmEl → Prop
  | .pm p => nd = 4 ∧ 0 < p.mx ∧ 0 < p.my
  | .pm6 p => nd = 6 ∧ 0 < p.mx ∧ 0 < p.my ∧ 0 < p.mz

/-- A rotor made of passive elements, at bearing frequency `ω`: physical shaft elements under no
compression and torque, non-negative inertias, passive bearings, and a point mass on every support
node. -/
structure Passive (r : Rotor) (ω : ℝ) : Prop where
  shaft : ∀ e ∈ r.shaft, e.s.Built ∧ e.s.beam.Physical ∧ 0 ≤ e.s.axial_force ∧ e.s.torque = 0 ∧
    0 ≤ e.s.alpha ∧ 0 ≤ e.s.beta
  nodes : ∀ k < shaftEnd r, ∃ e ∈ r.shaft, e.s.n = some k
  disk : ∀ e ∈ r.disks, 0 ≤ e.d.m ∧ 0 ≤ e.d.Id ∧ 0 ≤ e.d.Ip
  brg : ∀ b ∈ r.bearings, PassiveBrg ω b
  pm : ∀ p ∈ r.pms, PmPositive r.number_dof p
  support : ∀ k, shaftEnd r < k → k ≤ shaftEnd r + r.pms.length → ∃ p ∈ r.pms, p.n = some k

/-- The mass coefficients of a bearing at frequency `ω` are symmetric and nowhere negative; nothing is said of its stiffness
and damping. -/
structure InertBrg (ω : ℝ) (b : BrgEl) : Prop where
  mass : ∀ xx xy yx yy, b.base.mxx.eval ω = .ok xx → b.base.mxy.eval ω = .ok xy →
    b.base.myx.eval ω = .ok yx → b.base.myy.eval ω = .ok yy → xy = yx ∧ NonnegForm xx xy yx yy
  axial : match b with
    | .brg _ _ => True
    | .brg6 b => ∀ z, b.mzz.eval ω = .ok z → 0 ≤ z

/-- A rotor whose elements have the inertia of bodies: physical shaft elements, non-negative inertias, and a point mass on
every support node.  Bearings may be unstable, and the shaft under any load. -/
structure Inertial (r : Rotor) (ω : ℝ) : Prop where
  shaft : ∀ e ∈ r.shaft, e.s.Built ∧ e.s.beam.Physical
  nodes : ∀ k < shaftEnd r, ∃ e ∈ r.shaft, e.s.n = some k
  disk : ∀ e ∈ r.disks, 0 ≤ e.d.m ∧ 0 ≤ e.d.Id ∧ 0 ≤ e.d.Ip
  brg : ∀ b ∈ r.bearings, InertBrg ω b
  pm : ∀ p ∈ r.pms, PmPositive r.number_dof p
  support : ∀ k, shaftEnd r < k → k ≤ shaftEnd r + r.pms.length → ∃ p ∈ r.pms, p.n = some k

/-- A stiffness that resists every displacement of the node. -/
def PosForm (xx xy yx yy : ℝ) : Prop := 0 < xx ∧ 0 < yy ∧ (xy + yx) ^ 2 < 4 * xx * yy

/-- A bearing to ground, on a shaft node, whose stiffness at `ω` resists every displacement. -/
def Holds (r : Rotor) (ω : ℝ) (b : BrgEl) : Prop :=
  b.n_link = none ∧ b.n ≤ shaftEnd r ∧ ∃ xx xy yx yy, b.base.kxx.eval ω = .ok xx ∧
    b.base.kxy.eval ω = .ok xy ∧ b.base.kyx.eval ω = .ok yx ∧ b.base.kyy.eval ω = .ok yy ∧
    PosForm xx xy yx yy

end Ross.Spec
