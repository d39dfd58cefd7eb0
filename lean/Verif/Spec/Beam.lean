import Mathlib.Analysis.SpecialFunctions.Integrals.Basic
import Mathlib.LinearAlgebra.Matrix.Notation
import Mathlib.Data.Fin.VecNotation

/-!
# Specification: a Timoshenko beam element with linearly varying hollow circular section

Written from beam theory (Timoshenko/Cowper/Genta), without reference to the code.  `x ∈ [0, L]`
is the axial coordinate along the element.  Each bending plane has four nodal unknowns:
deflection and section rotation at the left end, deflection and section rotation at the right end.
-/

namespace Ross.Spec

open Real intervalIntegral

/-- Data of a beam element. -/
structure Beam where
  /-- length -/
  L : ℝ
  /-- left inner, left outer, right inner, right outer diameters -/
  idl : ℝ
  odl : ℝ
  idr : ℝ
  odr : ℝ
  /-- density, Young's modulus, shear modulus, Poisson ratio -/
  rho : ℝ
  E : ℝ
  G : ℝ
  nu : ℝ
  /-- axial force (tension positive) -/
  F : ℝ

namespace Beam

variable (b : Beam)

/-- Outer diameter at `x`. -/
noncomputable def od (x : ℝ) : ℝ := b.odl + (b.odr - b.odl) * (x / b.L)

/-- Inner diameter at `x`. -/
noncomputable def id (x : ℝ) : ℝ := b.idl + (b.idr - b.idl) * (x / b.L)

/-- Section area at `x`. -/
noncomputable def area (x : ℝ) : ℝ := π * (b.od x ^ 2 - b.id x ^ 2) / 4

/-- Second moment of area about a diameter at `x`. -/
noncomputable def inertia (x : ℝ) : ℝ := π * (b.od x ^ 4 - b.id x ^ 4) / 64

/-- Shear coefficient of a hollow circular section, Cowper (1966); `μ` = inner/outer ratio. -/
noncomputable def cowper (nu μ : ℝ) : ℝ :=
  6 * (1 + nu) * (1 + μ ^ 2) ^ 2 / ((7 + 6 * nu) * (1 + μ ^ 2) ^ 2 + (20 + 12 * nu) * μ ^ 2)

/-- Shear coefficient of a hollow circular section, Hutchinson (2001). -/
noncomputable def hutchinson (nu μ : ℝ) : ℝ :=
  6 * (1 + nu) * (1 + μ ^ 2) ^ 2 /
    ((7 + 12 * nu + 4 * nu ^ 2) * (1 + μ ^ 2) ^ 2 + 4 * (5 + 6 * nu + 2 * nu ^ 2) * μ ^ 2)

/-- Ratio of mean inner to mean outer diameter. -/
noncomputable def ratio : ℝ := ((b.idl + b.idr) / 2) / ((b.odl + b.odr) / 2)

/-- Shear-to-bending flexibility ratio `12 E I / (κ G A L²)` with the mid-span section. -/
noncomputable def shearRatio (κ : ℝ) : ℝ :=
  12 * b.E * b.inertia (b.L / 2) / (κ * b.G * b.area (b.L / 2) * b.L ^ 2)

/-- Deflection shape functions of a Timoshenko beam with flexibility ratio `φ`. -/
noncomputable def N (φ : ℝ) : Fin 4 → ℝ → ℝ :=
  ![fun x => (1 - 3 * (x / b.L) ^ 2 + 2 * (x / b.L) ^ 3 + φ * (1 - x / b.L)) / (1 + φ),
    fun x => b.L * (x / b.L - 2 * (x / b.L) ^ 2 + (x / b.L) ^ 3
                + φ / 2 * (x / b.L - (x / b.L) ^ 2)) / (1 + φ),
    fun x => (3 * (x / b.L) ^ 2 - 2 * (x / b.L) ^ 3 + φ * (x / b.L)) / (1 + φ),
    fun x => b.L * (-(x / b.L) ^ 2 + (x / b.L) ^ 3
                + φ / 2 * ((x / b.L) ^ 2 - x / b.L)) / (1 + φ)]

/-- Section-rotation shape functions. -/
noncomputable def Θ (φ : ℝ) : Fin 4 → ℝ → ℝ :=
  ![fun x => 6 / b.L * ((x / b.L) ^ 2 - x / b.L) / (1 + φ),
    fun x => (1 - 4 * (x / b.L) + 3 * (x / b.L) ^ 2 + φ * (1 - x / b.L)) / (1 + φ),
    fun x => 6 / b.L * (x / b.L - (x / b.L) ^ 2) / (1 + φ),
    fun x => (3 * (x / b.L) ^ 2 - 2 * (x / b.L) + φ * (x / b.L)) / (1 + φ)]

/-- Shear strain of shape function `a`: slope of the deflection minus section rotation. -/
noncomputable def γ (φ : ℝ) (a : Fin 4) (x : ℝ) : ℝ := deriv (b.N φ a) x - b.Θ φ a x

/-! The 8 nodal unknowns of the element are `x, y, α, β` at the left node and at the right node;
`β` is the section rotation in the x–z plane and `-α` the one in the y–z plane. -/

/-- Deflection along x (`p = 0`) or y (`p = 1`) at `z` produced by unit nodal unknown `i`, given
the plane shape functions `f`. -/
noncomputable def field (f : Fin 4 → ℝ → ℝ) (p : Fin 2) (i : Fin 8) (z : ℝ) : ℝ :=
  match p, i with
  | 0, 0 => f 0 z | 0, 3 => f 1 z | 0, 4 => f 2 z | 0, 7 => f 3 z
  | 1, 1 => f 0 z | 1, 2 => - f 1 z | 1, 5 => f 2 z | 1, 6 => - f 3 z
  | _, _ => 0

/-- Consistent translational mass: kinetic energy of the deflections. -/
noncomputable def massT (φ : ℝ) (i j : Fin 8) : ℝ :=
  ∫ z in (0)..b.L, b.rho * b.area z *
    (field (b.N φ) 0 i z * field (b.N φ) 0 j z + field (b.N φ) 1 i z * field (b.N φ) 1 j z)

/-- Consistent rotary mass: kinetic energy of the section rotations about diameters. -/
noncomputable def massR (φ : ℝ) (i j : Fin 8) : ℝ :=
  ∫ z in (0)..b.L, b.rho * b.inertia z *
    (field (b.Θ φ) 0 i z * field (b.Θ φ) 0 j z + field (b.Θ φ) 1 i z * field (b.Θ φ) 1 j z)

/-- Consistent gyroscopic matrix: polar inertia `2ρI` times the product of rotation in one plane
and rate of rotation in the other. -/
noncomputable def gyro (φ : ℝ) (i j : Fin 8) : ℝ :=
  ∫ z in (0)..b.L, 2 * b.rho * b.inertia z *
    (field (b.Θ φ) 0 i z * field (b.Θ φ) 1 j z - field (b.Θ φ) 1 i z * field (b.Θ φ) 0 j z)

/-- Bending stiffness: `E I` times the product of curvatures (derivatives of rotation). -/
noncomputable def stiffB (φ : ℝ) (i j : Fin 8) : ℝ :=
  ∫ z in (0)..b.L, b.E * b.inertia z *
    (field (fun a => deriv (b.Θ φ a)) 0 i z * field (fun a => deriv (b.Θ φ a)) 0 j z
      + field (fun a => deriv (b.Θ φ a)) 1 i z * field (fun a => deriv (b.Θ φ a)) 1 j z)

/-- Shear stiffness: `κ G A` times the product of shear strains. -/
noncomputable def stiffS (κ φ : ℝ) (i j : Fin 8) : ℝ :=
  ∫ z in (0)..b.L, κ * b.G * b.area z *
    (field (b.γ φ) 0 i z * field (b.γ φ) 0 j z + field (b.γ φ) 1 i z * field (b.γ φ) 1 j z)

/-- Geometric stiffness of the axial force: `F` times the product of slopes. -/
noncomputable def stiffF (φ : ℝ) (i j : Fin 8) : ℝ :=
  ∫ z in (0)..b.L, b.F *
    (field (fun a => deriv (b.N φ a)) 0 i z * field (fun a => deriv (b.N φ a)) 0 j z
      + field (fun a => deriv (b.N φ a)) 1 i z * field (fun a => deriv (b.N φ a)) 1 j z)

/-- Incremental stiffness of a torque `T`: moment of the torque about the rotated section normals,
with the shear-free (`φ = 0`) rotations. -/
noncomputable def stiffT (T : ℝ) (i j : Fin 8) : ℝ :=
  ∫ z in (0)..b.L, T *
    (field (fun a => deriv (b.Θ 0 a)) 0 i z * field (b.Θ 0) 1 j z
      - field (fun a => deriv (b.Θ 0 a)) 1 i z * field (b.Θ 0) 0 j z)

/-- A physically meaningful beam. -/
structure Physical : Prop where
  L_pos : 0 < b.L
  idl_nonneg : 0 ≤ b.idl
  idl_lt : b.idl < b.odl
  idr_nonneg : 0 ≤ b.idr
  idr_lt : b.idr < b.odr
  rho_pos : 0 < b.rho
  E_pos : 0 < b.E
  G_pos : 0 < b.G
  nu_gt : -(1 / 2) < b.nu

end Beam

end Ross.Spec
