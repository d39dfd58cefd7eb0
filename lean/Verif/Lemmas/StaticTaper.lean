import Verif.Spec.StaticTaper
import Verif.Props.StaticRuns

/-! # Shafts of elements that are not cylinders, under gravity -/

namespace Ross.StaticLemmas

open Ross Ross.Spec Ross.BearingLemmas Ross.Rotor Ross.RotorLemmas Ross.ShaftLemmas Ross.Props
  Ross.Shaft6Lemmas Ross.AssemblyLemmas Matrix

variable {pd pd' : Pandas} {sp : Scipy} {a : RotorArgs} {r : Rotor} {fuel fuel' : ℕ}
  {st : StaticResults}

theorem growth_eq (e : ShaftEl) (hs : e.s.Built) : growth e = e.s.A_l * (e.s.a1 + e.s.b1) := by
  have f := built_facts hs
  unfold growth
  rw [BeamLemmas.area_eq e.s f.A_l, BeamLemmas.area_eq e.s f.A_l, div_self f.L]
  simp only [Poly.pe]
  ring

/-- The weight at the ends, and where it acts. -/
theorem taper_M (e : ShaftEl) (hs : e.s.Built) (hφ : 1 + e.s.phi ≠ 0) :
    (e.s.M *ᵥ eY) 5 - e.s.m * (e.s.beam_cg / e.s.L) =
      e.s.material.rho * e.s.L * growth e / (60 * (1 + e.s.phi)) ∧
    (e.s.M *ᵥ eY) 1 - e.s.m * (1 - e.s.beam_cg / e.s.L) =
      -(e.s.material.rho * e.s.L * growth e / (60 * (1 + e.s.phi))) := by
  have f := built_facts hs
  have h5 : (e.s.M *ᵥ eY) 5 - e.s.m * (e.s.beam_cg / e.s.L) =
      e.s.material.rho * e.s.L * growth e / (60 * (1 + e.s.phi)) := by
    have hT : (e.s.Mt *ᵥ eY) 5 = e.s.m3 + e.s.m8 := by
      simp [eY, ShaftElement.Mt, mulVec, dotProduct, Fin.sum_univ_eight]
    have hR : e.s.Mr *ᵥ eY = 0 := by
      ext i; fin_cases i <;> simp [eY, ShaftElement.Mr, mulVec, dotProduct, Fin.sum_univ_eight]
    have key : e.s.material.rho * e.s.A_l * e.s.L / (1260 * (1 + e.s.phi) ^ 2) * (e.s.m3 + e.s.m8) -
        e.s.m * (e.s.beam_cg / e.s.L) = e.s.material.rho * e.s.L * growth e / (60 * (1 + e.s.phi)) := by
      have hm : e.s.m * (e.s.beam_cg / e.s.L) =
          e.s.material.rho * (e.s.A_l * e.s.L * (1 / 2 + e.s.a1 / 3 + e.s.b1 / 4)) := by
        have : e.s.m * (e.s.beam_cg / e.s.L) = e.s.material.rho * (e.s.volume * e.s.beam_cg) / e.s.L := by
          rw [ShaftElement.m]; ring
        rw [this, moment_eq e.s hs]
        have := f.L
        field_simp
      rw [hm, growth_eq e hs]
      simp only [ShaftElement.m3, ShaftElement.m8]
      field_simp
      ring
    unfold ShaftElement.M
    split_ifs
    · simp only [Matrix.add_mulVec, Matrix.smul_mulVec, hR, smul_zero, add_zero, Pi.smul_apply, hT,
        smul_eq_mul]
      exact key
    · simp only [Matrix.smul_mulVec, Pi.smul_apply, hT, smul_eq_mul]
      exact key
  have := ends_M e.s hs hφ
  exact ⟨h5, by linarith⟩

theorem weightMoment_eq (e : ShaftEl) (hs : e.s.Built) (d : ℝ) :
    weightMoment e d = gravity * e.s.m * (d - e.s.beam_cg) := by
  have f := built_facts hs
  unfold weightMoment
  have h1 : ∀ x, (d - x) * e.s.beam.area x
      = e.s.A_l * Poly.pe [d, d * e.s.a1 - e.s.L, d * e.s.b1 - e.s.L * e.s.a1, -(e.s.L * e.s.b1)] (x / e.s.L) := by
    intro x
    rw [BeamLemmas.area_eq e.s f.A_l]
    have : x = e.s.L * (x / e.s.L) := by have := f.L; field_simp
    generalize x / e.s.L = t at *
    subst this
    simp only [Poly.pe]; ring
  simp only [h1]
  rw [Poly.integral_mul_pe_div _ _ _ f.L]
  have e1 : gravity * e.s.m * (d - e.s.beam_cg) =
      gravity * e.s.material.rho * (d * e.s.volume - e.s.volume * e.s.beam_cg) := by
    rw [ShaftElement.m]; ring
  rw [e1, moment_eq e.s hs, volume_eq e.s hs]
  simp only [Poly.pintk]
  push_cast; ring

/-- The trapezoid of a uniform element against the weight of its slices. -/
theorem trapezoid (e : ShaftEl) (hs : e.s.Built) :
    weightMoment e e.s.L =
      gravity * e.s.m * (e.s.L / 2) - gravity * (e.s.material.rho * e.s.L ^ 2 * growth e * (1 / 12)) := by
  rw [weightMoment_eq e hs, growth_eq e hs]
  have e1 : gravity * e.s.m * (e.s.L - e.s.beam_cg) =
      gravity * e.s.material.rho * (e.s.L * e.s.volume - e.s.volume * e.s.beam_cg) := by
    rw [ShaftElement.m]; ring
  rw [e1, moment_eq e.s hs, ShaftElement.m, volume_eq e.s hs]
  ring

theorem shearError_off (h : init pd fuel a = some (.ok r)) {i : ℕ} (hi : shaftEnd r ≤ i) : shearError r i = 0 := by
  unfold shearError layer
  rw [List.filter_eq_nil_iff.2]
  · simp
  · intro e he
    have hlast : shaftEnd r = lastNode r.shaft + 1 := by rw [shaftEnd_last h]; rfl
    have := node_le_last (init_ok h) he
    have e : leftNode e = nodeOf e := rfl
    simp only [decide_eq_true_eq, e]
    omega

theorem nodal_taper {u R F : ℕ → ℝ} {ew : List (ℝ × ℝ)} {nf : List ℝ} (c : Core r st u R F ew nf)
    (hg : OnGround r) (hs : ∀ e ∈ r.shaft, e.s.Built ∧ 1 + e.s.phi ≠ 0)
    {j : ℕ} (hj : j < shaftEnd r + 1) :
    nf.getD j 0 = reactionAt st j - diskWeight r j + shearError r j - if j = 0 then 0 else shearError r (j - 1) := by
  have h1 := c.laws.eq (vertical (only j))
  have h2 := c.laws.react (only j)
  have h3 := c.laws.elastic (only j)
  rw [sum_only hj] at h2 h3
  rw [← h2, ← h3, weightWork_only] at h1
  rw [c.nf_eq j hj, reactionAt_eq c hg hj]
  set δ : ShaftEl → ℝ := fun e => e.s.material.rho * e.s.L * growth e / (60 * (1 + e.s.phi)) with hδ
  have e1 : (r.shaft.map fun e => (if nodeOf e = j then (e.s.M *ᵥ eY) 1 else 0) +
        if nodeOf e + 1 = j then (e.s.M *ᵥ eY) 5 else 0).sum +
        (r.shaft.map fun e => if nodeOf e = j then δ e else 0).sum =
      (r.shaft.map fun e => (if nodeOf e + 1 = j then e.s.m * (e.s.beam_cg / e.s.L) else 0) +
        if nodeOf e = j then e.s.m * (1 - e.s.beam_cg / e.s.L) else 0).sum +
      (r.shaft.map fun e => if nodeOf e + 1 = j then δ e else 0).sum := by
    rw [← List.sum_map_add, ← List.sum_map_add]
    congr 1
    refine List.map_congr_left fun e he => ?_
    obtain ⟨m1, m2⟩ := taper_M e (hs e he).1 (hs e he).2
    change _ = δ e at m1
    change _ = -δ e at m2
    split_ifs <;> linarith
  have e2 : gravity * (r.shaft.map fun e => if nodeOf e = j then δ e else 0).sum = shearError r j := by
    rw [shearError, layer, sum_filter]
    rfl
  have e3 : gravity * (r.shaft.map fun e => if nodeOf e + 1 = j then δ e else 0).sum =
      if j = 0 then 0 else shearError r (j - 1) := by
    split_ifs with h0
    · subst h0
      simp
    · rw [shearError, layer, ← sum_filter]
      congr 2
      refine List.map_congr_left fun e _ => ?_
      have : nodeOf e + 1 = j ↔ leftNode e = j - 1 := by
        have e : leftNode e = nodeOf e := rfl
        omega
      simp only [this]
      rfl
  rw [← e3, ← e2, diskWeight, ← sum_filter, gravity]
  simp only [gAcc] at h1 ⊢
  linarith

theorem elm_taper {u R F : ℕ → ℝ} {ew : List (ℝ × ℝ)} {nf : List ℝ} (c : Core r st u R F ew nf)
    (h : init pd fuel a = some (.ok r)) (hg : OnGround r) (hs : ∀ e ∈ r.shaft, e.s.Built ∧ 1 + e.s.phi ≠ 0) :
    (elmForces ew nf).length = shaftEnd r ∧ ∀ j < shaftEnd r,
      (elmForces ew nf).getD j (0, 0) = (reactionAt st j - diskWeight r j + shearError r j -
          (if j = 0 then 0 else shearError r (j - 1)),
        if j + 1 = shaftEnd r then -(reactionAt st (j + 1) - diskWeight r (j + 1) - shearError r j)
        else -layerWeight r j) := by
  refine ⟨by rw [elmForces, List.length_mapIdx, c.ew_len], fun j hj => ?_⟩
  have hlast : nf.getLast?.getD 0 = nf.getD (shaftEnd r) 0 := by
    rw [List.getLast?_eq_getElem?, List.getD_eq_getElem?_getD, c.nf_len]; rfl
  have e1 := c.ew_1 j hj
  have e2 := c.ew_2 j hj
  rw [List.getD_eq_getElem?_getD, List.getElem?_eq_getElem (by rw [c.ew_len]; exact hj)] at e1 e2
  rw [elmForces, List.getD_eq_getElem?_getD, List.getElem?_mapIdx,
    List.getElem?_eq_getElem (by rw [c.ew_len]; exact hj)]
  simp only [Option.getD_some, Option.map_some] at e1 e2 ⊢
  rw [e1, e2, hlast, c.ew_len, nodal_taper c hg hs (j := j) (by omega),
    nodal_taper c hg hs (j := shaftEnd r) (by omega), shearError_off h le_rfl, if_neg c.pos.ne']
  by_cases hj' : j + 1 = shaftEnd r
  · simp only [← hj', if_true, add_zero, Nat.add_sub_cancel]
  · simp only [hj', if_false, add_zero, zero_add]
    congr 1
    rw [layerWeight, sum_filter, gravity, gAcc]
    simp only [leftNode, nodeOf]
    rw [neg_mul]
    congr!

end Ross.StaticLemmas
