import Mathlib.Tactic.Linarith
import Mathlib.Tactic.Positivity
import Verif.Lemmas.BeamTables

/-! # Elements returned by the constructor -/

namespace Ross

open Spec Real

/-- `s` was returned by some successful call of `ShaftElement(...)`. -/
def ShaftElement.Built (s : ShaftElement) : Prop :=
  ∃ L idl odl idr odr material n axial_force torque shear_effects rotary_inertia gyroscopic
    shear_method_calc tag alpha beta,
    ShaftElement.init L idl odl idr odr material n axial_force torque shear_effects
      rotary_inertia gyroscopic shear_method_calc tag alpha beta = .ok s

namespace ShaftLemmas

variable {s : ShaftElement}

/-- What a successful constructor call guarantees. -/
structure Facts (s : ShaftElement) : Prop where
  A_l : s.A_l ≠ 0
  Ie_l : s.Ie_l ≠ 0
  c2 : s.c2 ≠ 0
  EIe : s.material.E * s.Ie ≠ 0
  volume : s.volume ≠ 0
  L : s.L ≠ 0
  shear : s.shear_effects = true → s.material.G_s * s.kappa * s.A * s.L ^ 2 ≠ 0 ∧
    (s.odl + s.odr) / 2 ≠ 0 ∧
    (s.shear_method_calc = "hutchinson" ∧ s.kappaDenHutchinson ≠ 0 ∨
     s.shear_method_calc = "cowper" ∧ s.kappaDenCowper ≠ 0)

theorem built_facts (h : s.Built) : Facts s := by
  obtain ⟨L, idl, odl, idr, odr, material, n, axial_force, torque, shear_effects, rotary_inertia,
    gyroscopic, shear_method_calc, tag, alpha, beta, h⟩ := h
  unfold ShaftElement.init at h
  split at h
  · exact absurd h (by simp)
  · simp only at h
    split_ifs at h with h1 h2 h3 h4 h5 h6 h7 h8 h9
    all_goals
      simp only [Except.ok.injEq] at h
      subst h
      push Not at h1
      obtain ⟨f1, f2, f3, f4, f5⟩ := h1
      refine ⟨f1, f2, f3, f4, f5, ?_, ?_⟩
      · intro hL
        apply f5
        simp only [ShaftElement.volume] at hL ⊢
        rw [hL]; ring
    · intro _; exact ⟨h6, h3, Or.inl ⟨h4, h5⟩⟩
    · intro _; exact ⟨h9, h3, Or.inr ⟨h7, h8⟩⟩
    · intro h'; exact absurd h' h2

/-- Flexibility ratio prescribed by the theory for the element's options. -/
noncomputable def specKappa (s : ShaftElement) : ℝ :=
  if s.shear_method_calc = "hutchinson" then Beam.hutchinson s.material.Poisson s.beam.ratio
  else Beam.cowper s.material.Poisson s.beam.ratio

noncomputable def specPhi (s : ShaftElement) : ℝ :=
  if s.shear_effects then s.beam.shearRatio (specKappa s) else 0

theorem kappa_eq (s : ShaftElement) : s.kappa = specKappa s := by
  unfold ShaftElement.kappa specKappa
  split_ifs
  · simp only [Beam.hutchinson, ShaftElement.kappaDenHutchinson, ShaftElement.r12,
      ShaftElement.r2, ShaftElement.rRatio, Beam.ratio, ShaftElement.beam]
    ring
  · simp only [Beam.cowper, ShaftElement.kappaDenCowper, ShaftElement.r12,
      ShaftElement.r2, ShaftElement.rRatio, Beam.ratio, ShaftElement.beam]
    ring

theorem A_eq (hL : s.L ≠ 0) (h : s.A_l ≠ 0) : s.A = s.beam.area (s.L / 2) := by
  rw [BeamLemmas.area_eq s h]
  have : s.L / 2 / s.L = 1 / 2 := by field_simp
  rw [this]
  simp only [ShaftElement.A, Poly.pe]
  ring

theorem Ie_eq (hL : s.L ≠ 0) (h : s.Ie_l ≠ 0) : s.Ie = s.beam.inertia (s.L / 2) := by
  rw [BeamLemmas.inertia_eq s h]
  have : s.L / 2 / s.L = 1 / 2 := by field_simp
  rw [this]
  simp only [ShaftElement.Ie, Poly.pe]
  ring

theorem phi_eq (h : Facts s) : s.phi = specPhi s := by
  unfold ShaftElement.phi specPhi
  split_ifs with h1
  · rw [kappa_eq, A_eq h.L h.A_l, Ie_eq h.L h.Ie_l]
    simp only [Beam.shearRatio, ShaftElement.beam]
    ring
  · rfl

theorem od_gt_id (b : Beam) (hb : b.Physical) (x : ℝ) (h0 : 0 ≤ x) (h1 : x ≤ b.L) :
    0 ≤ b.id x ∧ b.id x < b.od x := by
  have hL := hb.L_pos
  have ht0 : 0 ≤ x / b.L := div_nonneg h0 hL.le
  have ht1 : x / b.L ≤ 1 := (div_le_one hL).2 h1
  unfold Beam.id Beam.od
  generalize x / b.L = t at *
  have h := hb.idl_nonneg
  have h2 := hb.idr_nonneg
  have h3 := hb.idl_lt
  have h4 := hb.idr_lt
  refine ⟨?_, ?_⟩
  · nlinarith [mul_nonneg ht0 h2, mul_nonneg (sub_nonneg.2 ht1) h]
  · rcases eq_or_lt_of_le ht0 with h5 | h5
    · rw [← h5]; linarith
    · nlinarith [mul_pos h5 (sub_pos.2 h4), mul_nonneg (sub_nonneg.2 ht1) (sub_nonneg.2 h3.le)]

theorem area_pos (b : Beam) (hb : b.Physical) (x : ℝ) (h0 : 0 ≤ x) (h1 : x ≤ b.L) :
    0 < b.area x := by
  obtain ⟨h2, h3⟩ := od_gt_id b hb x h0 h1
  unfold Beam.area
  have : b.id x ^ 2 < b.od x ^ 2 := by gcongr
  have := mul_pos pi_pos (sub_pos.2 this)
  positivity

theorem inertia_pos (b : Beam) (hb : b.Physical) (x : ℝ) (h0 : 0 ≤ x) (h1 : x ≤ b.L) :
    0 < b.inertia x := by
  obtain ⟨h2, h3⟩ := od_gt_id b hb x h0 h1
  unfold Beam.inertia
  have : b.id x ^ 4 < b.od x ^ 4 := by gcongr
  have := mul_pos pi_pos (sub_pos.2 this)
  positivity

theorem specKappa_pos (hb : s.beam.Physical) : 0 < specKappa s := by
  have hν : -(1 / 2) < s.material.Poisson := hb.nu_gt
  unfold specKappa
  split_ifs
  · unfold Beam.hutchinson
    generalize s.material.Poisson = ν at *
    have h1 : 0 < 1 + ν := by linarith
    have h2 : 0 < 7 + 12 * ν + 4 * ν ^ 2 := by nlinarith [sq_nonneg (ν + 1 / 2)]
    have h3 : 0 < 5 + 6 * ν + 2 * ν ^ 2 := by nlinarith [sq_nonneg (ν + 1 / 2)]
    positivity
  · unfold Beam.cowper
    generalize s.material.Poisson = ν at *
    have h1 : 0 < 1 + ν := by linarith
    have h2 : 0 < 7 + 6 * ν := by linarith
    have h3 : 0 < 20 + 12 * ν := by linarith
    positivity

theorem specPhi_nonneg (hb : s.beam.Physical) : 0 ≤ specPhi s := by
  unfold specPhi
  split_ifs
  · have hk := specKappa_pos hb
    have hL : 0 < s.beam.L := hb.L_pos
    have hA := area_pos _ hb (s.beam.L / 2) (by linarith) (by linarith)
    have hI := inertia_pos _ hb (s.beam.L / 2) (by linarith) (by linarith)
    have hE := hb.E_pos
    have hG := hb.G_pos
    unfold Beam.shearRatio
    positivity
  · exact le_rfl

theorem one_add_phi_pos (h : Facts s) (hb : s.beam.Physical) : 0 < 1 + s.phi := by
  rw [phi_eq h]; linarith [specPhi_nonneg hb]

/-- Physical data are accepted by the constructor when the method is a known one. -/
theorem physical_facts (hb : s.beam.Physical) (hm : s.shear_method_calc = "hutchinson" ∨
    s.shear_method_calc = "cowper") : Facts s := by
  have hL : 0 < s.L := hb.L_pos
  have h3 : s.idl < s.odl := hb.idl_lt
  have h4 : s.idr < s.odr := hb.idr_lt
  have h1 : 0 ≤ s.idl := hb.idl_nonneg
  have h2 : 0 ≤ s.idr := hb.idr_nonneg
  have hA : s.A_l ≠ 0 := by
    have := (area_pos _ hb 0 le_rfl hb.L_pos.le).ne'
    simpa [Beam.area, Beam.od, Beam.id, ShaftElement.beam, ShaftElement.A_l] using this
  have hI : s.Ie_l ≠ 0 := by
    have := (inertia_pos _ hb 0 le_rfl hb.L_pos.le).ne'
    simpa [Beam.inertia, Beam.od, Beam.id, ShaftElement.beam, ShaftElement.Ie_l] using this
  have hc : 0 < s.outer - s.inner := by
    have a1 : s.idl ^ 2 < s.odl ^ 2 := by gcongr
    have a2 : s.idr ^ 2 < s.odr ^ 2 := by gcongr
    have a3 : s.idl * s.idr ≤ s.odl * s.odr := by gcongr; linarith
    unfold ShaftElement.outer ShaftElement.inner
    linarith
  have hIe : 0 < s.Ie := by
    rw [Ie_eq hL.ne' hI]
    exact inertia_pos _ hb (s.L / 2) (by linarith) (show s.L / 2 ≤ s.L by linarith)
  have hAm : 0 < s.A := by
    rw [A_eq hL.ne' hA]
    exact area_pos _ hb (s.L / 2) (by linarith) (show s.L / 2 ≤ s.L by linarith)
  have hE : 0 < s.material.E := hb.E_pos
  have hG : 0 < s.material.G_s := hb.G_pos
  have hk : 0 < s.kappa := by rw [kappa_eq]; exact specKappa_pos hb
  refine ⟨hA, hI, ?_, (mul_pos hE hIe).ne', ?_, hL.ne', ?_⟩
  · have : s.c2 = (s.outer - s.inner) / 4 := by
      unfold ShaftElement.c2 ShaftElement.outer ShaftElement.inner ShaftElement.roj
        ShaftElement.rok ShaftElement.rij ShaftElement.rik
      ring
    rw [this]; positivity
  · unfold ShaftElement.volume
    have := pi_pos
    positivity
  · intro _
    refine ⟨by positivity, by intro h; linarith, ?_⟩
    have hk' := hk
    rcases hm with hm | hm
    · refine Or.inl ⟨hm, fun h => ?_⟩
      simp [ShaftElement.kappa, hm, h] at hk'
    · refine Or.inr ⟨hm, fun h => ?_⟩
      simp [ShaftElement.kappa, hm, h] at hk'

/-- An element with the facts above is what the constructor returns for its own attributes. -/
theorem facts_init (h : Facts s) : ShaftElement.init s.L s.idl s.odl (some s.idr) (some s.odr)
    (some s.material) s.n s.axial_force s.torque s.shear_effects s.rotary_inertia s.gyroscopic
    s.shear_method_calc s.tag s.alpha s.beta = .ok s := by
  unfold ShaftElement.init
  simp only [Option.getD_some]
  rw [if_neg (by push Not; exact ⟨h.A_l, h.Ie_l, h.c2, h.EIe, h.volume⟩)]
  split_ifs with h1 h2 h3 h4 h5 h6 h7 h8
  all_goals first
    | rfl
    | (exfalso
       obtain ⟨f1, f2, f3⟩ := h.shear h1
       first
         | exact f2 h2
         | exact f1 h5
         | exact f1 h8
         | (rcases f3 with ⟨f3, f4⟩ | ⟨f3, f4⟩
            · first | exact f4 h4 | exact h3 f3
            · first | exact f4 h7 | exact h6 f3 | (rw [f3] at h3; simp at h3)))

theorem facts_built (h : Facts s) : s.Built := ⟨_, _, _, _, _, _, _, _, _, _, _, _, _, _, _, _,
  facts_init h⟩

end ShaftLemmas

end Ross
