import Verif.Lemmas.ShaftBuilt

/-! # C04: section and volume data of a shaft element -/

namespace Ross.Props

open Spec Real intervalIntegral ShaftLemmas

/-- A concrete tapered hollow steel element, used in the non-vacuity examples. -/
noncomputable def exMaterial : Material :=
  { name := "Steel", rho := 7810, E := 211e9, G_s := 81.2e9, Poisson := 3 / 10, color := "" }

noncomputable def exShaft : ShaftElement :=
  { L := 1 / 4, idl := 1 / 100, odl := 1 / 20, idr := 0, odr := 1 / 10, material := exMaterial,
    n := some 0, axial_force := 100, torque := 0, shear_effects := true, rotary_inertia := true,
    gyroscopic := true, shear_method_calc := "cowper", tag := none, alpha := 1, beta := 1 }

theorem exShaft_physical : exShaft.beam.Physical := by
  constructor <;> norm_num [exShaft, exMaterial, ShaftElement.beam]

theorem exShaft_built : exShaft.Built :=
  facts_built (physical_facts exShaft_physical (Or.inr rfl))

/-- **C04** volume and mass: integrals of the section area over the length. -/
theorem C04_volume (s : ShaftElement) (hs : s.Built) :
    s.volume = ∫ x in (0)..s.L, s.beam.area x ∧
      s.m = ∫ x in (0)..s.L, s.material.rho * s.beam.area x := by
  have f := built_facts hs
  have h : s.volume = ∫ x in (0)..s.L, s.beam.area x := by
    simp only [BeamLemmas.area_eq s f.A_l]
    rw [Poly.integral_mul_pe_div _ _ _ f.L]
    simp only [Poly.pintk]
    have e1 : s.a1 * s.A_l = 2 * π * (s.roj * s.delta_ro - s.rij * s.delta_ri) := by
      unfold ShaftElement.a1; exact div_mul_cancel₀ _ f.A_l
    have e2 : s.b1 * s.A_l = π * (s.delta_ro ^ 2 - s.delta_ri ^ 2) := by
      unfold ShaftElement.b1; exact div_mul_cancel₀ _ f.A_l
    have e : s.A_l * (s.L * (1 / ((0 : ℕ) + 1) + (s.a1 / ((0 + 1 : ℕ) + 1)
          + (s.b1 / ((0 + 1 + 1 : ℕ) + 1) + 0))))
        = s.L * (s.A_l + (s.a1 * s.A_l) / 2 + (s.b1 * s.A_l) / 3) := by push_cast; ring
    rw [e, e1, e2]
    simp only [ShaftElement.volume, ShaftElement.outer, ShaftElement.inner, ShaftElement.A_l,
      ShaftElement.roj, ShaftElement.delta_ro, ShaftElement.rij, ShaftElement.delta_ri,
      ShaftElement.rok, ShaftElement.rik]
    ring
  refine ⟨h, ?_⟩
  rw [integral_const_mul, ← h]
  rfl

/-- **C04** centre of gravity: first moment of area over the volume. -/
theorem C04_beam_cg (s : ShaftElement) (hs : s.Built) :
    s.beam_cg = (∫ x in (0)..s.L, x * s.beam.area x) / ∫ x in (0)..s.L, s.beam.area x := by
  have f := built_facts hs
  rw [← (C04_volume s hs).1, eq_div_iff f.volume]
  have h1 : ∀ x, x * s.beam.area x
      = s.L * s.A_l * Poly.pe [0, 1, s.a1, s.b1] (x / s.L) := by
    intro x
    rw [BeamLemmas.area_eq s f.A_l]
    have : x = s.L * (x / s.L) := by have := f.L; field_simp
    generalize x / s.L = t at *
    subst this
    simp only [Poly.pe]; ring
  simp only [h1]
  rw [Poly.integral_mul_pe_div _ _ _ f.L]
  simp only [Poly.pintk]
  have e1 : s.a1 * s.A_l = 2 * π * (s.roj * s.delta_ro - s.rij * s.delta_ri) := by
    unfold ShaftElement.a1; exact div_mul_cancel₀ _ f.A_l
  have e2 : s.b1 * s.A_l = π * (s.delta_ro ^ 2 - s.delta_ri ^ 2) := by
    unfold ShaftElement.b1; exact div_mul_cancel₀ _ f.A_l
  have e : s.L * s.A_l * (s.L * (0 / ((0 : ℕ) + 1) + (1 / ((0 + 1 : ℕ) + 1)
        + (s.a1 / ((0 + 1 + 1 : ℕ) + 1) + (s.b1 / ((0 + 1 + 1 + 1 : ℕ) + 1) + 0)))))
      = s.L ^ 2 * (s.A_l / 2 + (s.a1 * s.A_l) / 3 + (s.b1 * s.A_l) / 4) := by push_cast; ring
  rw [e, e1, e2]
  have hv : s.volume = s.L * π / 3 * s.c2 := by
    simp only [ShaftElement.volume, ShaftElement.outer, ShaftElement.inner, ShaftElement.c2,
      ShaftElement.roj, ShaftElement.rij, ShaftElement.rok, ShaftElement.rik]
    ring
  have hc : s.beam_cg * s.volume = s.L ^ 2 * π / 12 * s.c1 := by
    rw [hv, ShaftElement.beam_cg]
    have := f.c2
    field_simp
    ring
  rw [hc]
  simp only [ShaftElement.c1, ShaftElement.A_l,
    ShaftElement.roj, ShaftElement.delta_ro, ShaftElement.rij, ShaftElement.delta_ri,
    ShaftElement.rok, ShaftElement.rik]
  ring

/-- **C04** polar moment of inertia: integral of `ρ · 2 I` over the length. -/
theorem C04_Im (s : ShaftElement) (hs : s.Built) :
    s.Im = ∫ x in (0)..s.L, s.material.rho * (2 * s.beam.inertia x) := by
  have f := built_facts hs
  have h1 : ∀ x, s.material.rho * (2 * s.beam.inertia x)
      = s.material.rho * 2 * s.Ie_l * Poly.pe [1, s.a2, s.b2, s.gama, s.delta] (x / s.L) := by
    intro x; rw [BeamLemmas.inertia_eq s f.Ie_l]; ring
  simp only [h1]
  rw [Poly.integral_mul_pe_div _ _ _ f.L]
  simp only [Poly.pintk]
  have h := f.Ie_l
  have e1 : s.a2 * s.Ie_l = π * (s.roj ^ 3 * s.delta_ro - s.rij ^ 3 * s.delta_ri) := by
    unfold ShaftElement.a2; exact div_mul_cancel₀ _ h
  have e2 : s.b2 * s.Ie_l
      = 3 * π * (s.roj ^ 2 * s.delta_ro ^ 2 - s.rij ^ 2 * s.delta_ri ^ 2) / 2 := by
    unfold ShaftElement.b2; field_simp
  have e3 : s.gama * s.Ie_l = π * (s.roj * s.delta_ro ^ 3 - s.rij * s.delta_ri ^ 3) := by
    unfold ShaftElement.gama; exact div_mul_cancel₀ _ h
  have e4 : s.delta * s.Ie_l = π * (s.delta_ro ^ 4 - s.delta_ri ^ 4) / 4 := by
    unfold ShaftElement.delta; field_simp
  have e : s.material.rho * 2 * s.Ie_l * (s.L * (1 / ((0 : ℕ) + 1) + (s.a2 / ((0 + 1 : ℕ) + 1)
        + (s.b2 / ((0 + 1 + 1 : ℕ) + 1) + (s.gama / ((0 + 1 + 1 + 1 : ℕ) + 1)
        + (s.delta / ((0 + 1 + 1 + 1 + 1 : ℕ) + 1) + 0))))))
      = s.material.rho * 2 * s.L * (s.Ie_l + (s.a2 * s.Ie_l) / 2 + (s.b2 * s.Ie_l) / 3
        + (s.gama * s.Ie_l) / 4 + (s.delta * s.Ie_l) / 5) := by push_cast; ring
  rw [e, e1, e2, e3, e4]
  have hm : s.m / s.volume = s.material.rho := by
    unfold ShaftElement.m; exact mul_div_cancel_right₀ _ f.volume
  rw [ShaftElement.Im, hm]
  simp only [ShaftElement.Ie_l,
    ShaftElement.roj, ShaftElement.delta_ro, ShaftElement.rij, ShaftElement.delta_ri,
    ShaftElement.rok, ShaftElement.rik]
  ring

/-- **C04** `A` and `Ie` are the mid-span area and second moment of area. -/
theorem C04_midspan (s : ShaftElement) (hs : s.Built) :
    s.A = s.beam.area (s.L / 2) ∧ s.Ie = s.beam.inertia (s.L / 2) :=
  ⟨A_eq (built_facts hs).L (built_facts hs).A_l, Ie_eq (built_facts hs).L (built_facts hs).Ie_l⟩

/-- **C04** shear data: `phi` is the flexibility ratio of the theory and `kappa` the tabulated
shear coefficient of the selected author. -/
theorem C04_shear (s : ShaftElement) (hs : s.Built) :
    s.phi = (if s.shear_effects then
        s.beam.shearRatio (if s.shear_method_calc = "hutchinson" then
            Beam.hutchinson s.material.Poisson s.beam.ratio
          else Beam.cowper s.material.Poisson s.beam.ratio)
      else 0) :=
  phi_eq (built_facts hs)

/-- **C04** acceptance: with physical data the constructor succeeds exactly when the shear method
is one of the two documented ones (or shear effects are off). -/
theorem C04_accepts (s : ShaftElement) (hp : s.beam.Physical) :
    s.Built ↔ (s.shear_effects = true →
      s.shear_method_calc = "hutchinson" ∨ s.shear_method_calc = "cowper") := by
  constructor
  · intro h hse
    rcases ((built_facts h).shear hse).2.2 with h | h
    · exact Or.inl h.1
    · exact Or.inr h.1
  · intro h
    cases hse : s.shear_effects with
    | true => exact facts_built (physical_facts hp (h hse))
    | false =>
      have hp' : ({s with shear_method_calc := "cowper"} : ShaftElement).beam.Physical := hp
      have f := physical_facts hp' (Or.inr rfl)
      exact facts_built ⟨f.A_l, f.Ie_l, f.c2, f.EIe, f.volume, f.L, by simp [hse]⟩

/-- **C04** a constructed element carries the arguments it was given; a missing right diameter is
the left one of the same kind. -/
theorem C04_attributes {L idl odl : ℝ} {idr odr : Option ℝ} {material : Option Material}
    {n : Option ℕ} {axial_force torque : ℝ} {shear_effects rotary_inertia gyroscopic : Bool}
    {shear_method_calc : String} {tag : Option String} {alpha beta : ℝ} {s : ShaftElement}
    (h : ShaftElement.init L idl odl idr odr material n axial_force torque shear_effects
      rotary_inertia gyroscopic shear_method_calc tag alpha beta = .ok s) :
    s.L = L ∧ s.idl = idl ∧ s.odl = odl ∧ s.idr = idr.getD idl ∧ s.odr = odr.getD odl ∧
      some s.material = material ∧ s.n = n ∧ s.axial_force = axial_force ∧ s.torque = torque ∧
      s.shear_effects = shear_effects ∧ s.rotary_inertia = rotary_inertia ∧
      s.gyroscopic = gyroscopic ∧ s.shear_method_calc = shear_method_calc ∧ s.tag = tag ∧
      s.alpha = alpha ∧ s.beta = beta := by
  unfold ShaftElement.init at h
  cases material with
  | none => simp at h
  | some mat =>
    simp only at h
    split_ifs at h <;> (cases h; simp)

example : exShaft.Built ∧ exShaft.beam.Physical := ⟨exShaft_built, exShaft_physical⟩

end Ross.Props
