import Verif.Spec.Position
import Verif.Lemmas.Beam
import Verif.Model.Rotor

/-! # Specification: a finer mesh of the same rotor -/

namespace Ross.Spec

open Ross

/-- The shaft elements follow one another: element `i` goes from node `i` to node `i + 1`. -/
def SingleLayer (sh : List ShaftEl) : Prop := sh.map leftNode = List.range sh.length

/-- `x` is one of `k` equal parts of `e`, with the same section, material and options. -/
structure Part (k : ℕ) (e x : ShaftElement) : Prop where
  length : x.L = e.L / k
  idl : x.idl = e.idl
  odl : x.odl = e.odl
  idr : x.idr = e.idr
  odr : x.odr = e.odr
  material : x.material = e.material
  shear : x.shear_effects = e.shear_effects
  rotary : x.rotary_inertia = e.rotary_inertia
  gyro : x.gyroscopic = e.gyroscopic

/-- The eight nodal unknowns of the part `[z, z + l]` of the beam (`x, y, α, β` at its left end and at
its right end) when the nodal unknown `i` of the beam is one and the others are zero. -/
noncomputable def Beam.nodal (b : Beam) (φ z l : ℝ) : Matrix (Fin 8) (Fin 8) ℝ :=
  Matrix.of fun c i =>
    ![Beam.field (b.N φ) 0 i z, Beam.field (b.N φ) 1 i z,
      -Beam.field (b.Θ φ) 1 i z, Beam.field (b.Θ φ) 0 i z,
      Beam.field (b.N φ) 0 i (z + l), Beam.field (b.N φ) 1 i (z + l),
      -Beam.field (b.Θ φ) 1 i (z + l), Beam.field (b.Θ φ) 0 i (z + l)] c

/-- The motion (`x, y, α, β`) of the beam at `z` when its nodal unknowns are `q`. -/
noncomputable def Beam.motion (b : Beam) (φ : ℝ) (q : Fin 8 → ℝ) (z : ℝ) : Fin 4 → ℝ :=
  ![∑ i, q i * Beam.field (b.N φ) 0 i z, ∑ i, q i * Beam.field (b.N φ) 1 i z,
    -∑ i, q i * Beam.field (b.Θ φ) 1 i z, ∑ i, q i * Beam.field (b.Θ φ) 0 i z]

/-- The vector `w` on the mesh with `k` elements for each element of the 4-dof rotor describes the
motion that the vector `u` describes on the rotor: at the fraction `j / k` of element `i`. -/
def Interpolates (r : Rotor) (k : ℕ) (u w : ℕ → ℝ) : Prop :=
  ∀ i (hi : i < r.shaft.length) j, j ≤ k → ∀ c : Fin 4, w (4 * (k * i + j) + c) =
    r.shaft[i].s.beam.motion r.shaft[i].s.phi (fun d => u (4 * i + d)) (j * (r.shaft[i].s.L / k)) c

/-- What the refined rotor leaves out or resets: axial force, torque, proportional damping, and the
choice of the shear coefficient. -/
def Plain (e : ShaftElement) : Prop :=
  e.axial_force = 0 ∧ e.torque = 0 ∧ e.alpha = 0 ∧ e.beta = 0 ∧ e.shear_method_calc = "cowper"

/-- The same disk at another node. -/
def MovedDisk (n : ℕ) (e x : DiskEl) : Prop :=
  x.six = e.six ∧ x.d.n = n ∧ x.d.m = e.d.m ∧ x.d.Id = e.d.Id ∧ x.d.Ip = e.d.Ip ∧ x.d.tag = e.d.tag

/-- The same bearing or seal at another node: same coefficients, connection and tag. -/
def MovedBrg (n : ℕ) : BrgEl → BrgEl → Prop
  | .brg s e, .brg t x => t = s ∧ x = { e with n := n }
  | .brg6 e, .brg6 x => x.kzz = e.kzz ∧ x.czz = e.czz ∧ x.mzz = e.mzz ∧ x.base = { e.base with n := n }
  | _, _ => False

/-- No disk or bearing has the default name of a shaft element. -/
def ShaftTagsFree (r : Rotor) : Prop :=
  (∀ e ∈ r.disks, ∀ i : ℕ, e.d.tag ≠ some ("ShaftElement " ++ toString i)) ∧
  ∀ b ∈ r.bearings, ∀ i : ℕ, b.tag ≠ some ("ShaftElement " ++ toString i)

end Ross.Spec
