import Verif.Props.ThdForces

/-! # C95: the resultant of the pressure in a thermohydrodynamic bearing -/

namespace Ross.Props
open Real Ross.Thd Ross.Thd.THD Ross.ThdLemmas Ross.Spec.Thd Ross.Fluid

/-- How much of a cell counts. -/
noncomputable def edgeWeight (n k : ℕ) : ℝ := if k = 0 ∨ k = n - 1 then 1 / 2 else 1

/-- The pressure in Pa of pad `p`. -/
noncomputable def pressure (B : THD) (P : ℕ → ℕ → ℕ → ℝ) (p i j : ℕ) : ℝ :=
  P i j p * (B.reference_viscosity * B.speed * (B.journal_radius / B.radial_clearance) ^ 2)

/-- The angle of the middle of cell `j` of pad `p`. -/
noncomputable def middle (B : THD) (p j : ℕ) : ℝ :=
  B.thetaI p + (j + 1 / 2) * (B.betha_s_dg * (π / 180) / B.elements_circumferential)

/-- The area of a cell. -/
noncomputable def cellArea (B : THD) : ℝ :=
  B.journal_radius * (B.betha_s_dg * (π / 180) / B.elements_circumferential) * (B.axial_length / B.elements_axial)

theorem Pdim_eq (B : THD) (P : ℕ → ℕ → ℕ → ℝ) (i j p : ℕ) : B.Pdim P i j p = pressure B P p i j := by
  unfold Pdim pressure
  rw [div_pow]
  ring

theorem axial_step (B : THD) (i : ℕ) : B.axial_length * B.Z (i + 1) - B.axial_length * B.Z i = B.axial_length / B.elements_axial := by
  unfold Z dZ
  push_cast
  ring

theorem around_step {B : THD} (h2c : 2 ≤ B.elements_circumferential) (p j : ℕ) :
    B.journal_radius * B.Ytheta p (j + 1) - B.journal_radius * B.Ytheta p j =
      B.journal_radius * (B.betha_s_dg * (π / 180) / B.elements_circumferential) := by
  rw [C95_angles h2c, C95_angles h2c]
  push_cast
  ring

/-- The angles follow each other, when the pads do not overlap. -/
theorem around_mono {B : THD} (h2c : 2 ≤ B.elements_circumferential) (hn : B.n_pad ∣ 360) (harc0 : 0 ≤ B.betha_s_dg)
    (harc : B.betha_s_dg * B.n_pad ≤ 360) (q : ℕ) :
    B.Ytheta (q / B.elements_circumferential) (q % B.elements_circumferential) ≤
      B.Ytheta ((q + 1) / B.elements_circumferential) ((q + 1) % B.elements_circumferential) := by
  have hc : (0 : ℝ) < B.elements_circumferential := by exact_mod_cast (by omega : 0 < B.elements_circumferential)
  have hpi := pi_pos
  rw [C95_angles h2c, C95_angles h2c]
  generalize hnc : B.elements_circumferential = nc at *
  have hmod : q % nc < nc := Nat.mod_lt _ (by omega)
  by_cases h : q % nc + 1 < nc
  · have h1 : (q + 1) / nc = q / nc := by
      rw [Nat.succ_div, if_neg, add_zero]
      rintro ⟨k, hk⟩
      have := Nat.add_mod q 1 nc
      rw [hk, Nat.mul_mod_right, Nat.mod_eq_of_lt (by omega : 1 < nc), Nat.mod_eq_of_lt h] at this
      omega
    have h2 : (q + 1) % nc = q % nc + 1 := by
      rw [Nat.add_mod, Nat.mod_eq_of_lt (by omega : 1 < nc), Nat.mod_eq_of_lt h]
    rw [h1, h2]
    push_cast
    have : 0 ≤ B.betha_s_dg * (π / 180) / nc := by positivity
    nlinarith
  · have h0 : q % nc + 1 = nc := by omega
    have hd : nc ∣ q + 1 := ⟨q / nc + 1, by
      have := Nat.div_add_mod q nc
      rw [Nat.mul_add]
      omega⟩
    have h1 : (q + 1) / nc = q / nc + 1 := by rw [Nat.succ_div, if_pos hd]
    have h2 : (q + 1) % nc = 0 := Nat.mod_eq_zero_of_dvd hd
    have h3 : ((q % nc : ℕ) : ℝ) = nc - 1 := by
      have : ((q % nc : ℕ) : ℝ) + 1 = nc := by exact_mod_cast h0
      linarith
    rw [h1, h2, h3]
    have hn0 : 0 < B.n_pad := Nat.pos_of_dvd_of_pos hn (by norm_num)
    have hnr : (0 : ℝ) < B.n_pad := by exact_mod_cast hn0
    obtain ⟨k, hk⟩ := hn
    have hk2 : 360 / B.n_pad = k := by rw [hk]; exact Nat.mul_div_cancel_left k hn0
    have hk3 : (B.n_pad : ℝ) * k = 360 := by exact_mod_cast hk.symm
    have hk4 : B.betha_s_dg ≤ k := by
      by_contra hlt
      push Not at hlt
      nlinarith
    unfold thetaI
    rw [hk2]
    push_cast
    have e : ((nc : ℝ) - 1 + 1 / 2) * (B.betha_s_dg * (π / 180) / nc) =
        B.betha_s_dg * (π / 180) - 1 / 2 * (B.betha_s_dg * (π / 180) / nc) := by
      field_simp
      ring
    rw [e]
    have : 0 ≤ B.betha_s_dg * (π / 180) / nc := by positivity
    have : B.betha_s_dg * (π / 180) ≤ k * (π / 180) := mul_le_mul_of_nonneg_right hk4 (by positivity)
    nlinarith

theorem trapz_nonpos {m : ℕ} {y x : ℕ → ℝ} (h : ∀ q < m, y q ≤ 0) (hx : ∀ q, q + 1 < m → x q ≤ x (q + 1)) :
    trapz m y x ≤ 0 := by
  have := trapz_nonneg (m := m) (y := fun q => -y q) (x := x) (fun q hq => neg_nonneg.2 (h q hq)) hx
  unfold trapz at this ⊢
  rw [← neg_nonneg, ← Finset.sum_neg_distrib]
  refine this.trans (le_of_eq (Finset.sum_congr rfl fun q _ => ?_))
  ring

/-- C95: a pressure that is not negative pushes the journal away: when all cells that carry pressure lie on the side of
positive `x`, the force along `x` is not positive, and conversely, and likewise for `y`. -/
theorem C95_pushes {B : THD} (h2c : 2 ≤ B.elements_circumferential) (hn : B.n_pad ∣ 360) (harc0 : 0 ≤ B.betha_s_dg)
    (harc : B.betha_s_dg * B.n_pad ≤ 360) (hR : 0 ≤ B.journal_radius) (hL : 0 ≤ B.axial_length)
    (hmu : 0 ≤ B.reference_viscosity) (hw : 0 ≤ B.speed) {P : ℕ → ℕ → ℕ → ℝ}
    (hP : ∀ p < B.n_pad, ∀ i < B.elements_axial, ∀ j < B.elements_circumferential, 0 ≤ P i j p) :
    ((∀ p < B.n_pad, ∀ i < B.elements_axial, ∀ j < B.elements_circumferential, P i j p ≠ 0 → 0 ≤ cos (middle B p j)) →
      (B.resultant P).1 ≤ 0) ∧
    ((∀ p < B.n_pad, ∀ i < B.elements_axial, ∀ j < B.elements_circumferential, P i j p ≠ 0 → cos (middle B p j) ≤ 0) →
      0 ≤ (B.resultant P).1) ∧
    ((∀ p < B.n_pad, ∀ i < B.elements_axial, ∀ j < B.elements_circumferential, P i j p ≠ 0 → 0 ≤ sin (middle B p j)) →
      (B.resultant P).2 ≤ 0) ∧
    ((∀ p < B.n_pad, ∀ i < B.elements_axial, ∀ j < B.elements_circumferential, P i j p ≠ 0 → sin (middle B p j) ≤ 0) →
      0 ≤ (B.resultant P).2) := by
  have hax : ∀ q, q + 1 < B.elements_axial → B.axial_length * B.Z q ≤ B.axial_length * B.Z (q + 1) := by
    intro q _
    have := axial_step B q
    have : 0 ≤ B.axial_length / B.elements_axial := by positivity
    linarith
  have har : ∀ q, q + 1 < B.elements_circumferential * B.n_pad →
      B.journal_radius * B.Ytheta (q / B.elements_circumferential) (q % B.elements_circumferential) ≤
      B.journal_radius * B.Ytheta ((q + 1) / B.elements_circumferential) ((q + 1) % B.elements_circumferential) :=
    fun q _ => mul_le_mul_of_nonneg_left (around_mono h2c hn harc0 harc q) hR
  have hsc : 0 ≤ B.reference_viscosity * B.speed * (B.journal_radius / B.radial_clearance) ^ 2 := by positivity
  have hq : ∀ q < B.elements_circumferential * B.n_pad,
      q / B.elements_circumferential < B.n_pad ∧ q % B.elements_circumferential < B.elements_circumferential :=
    fun q hq => ⟨Nat.div_lt_of_lt_mul hq, Nat.mod_lt _ (by omega)⟩
  have pos : ∀ (f : ℝ → ℝ), (∀ p < B.n_pad, ∀ i < B.elements_axial, ∀ j < B.elements_circumferential, P i j p ≠ 0 →
      0 ≤ f (middle B p j)) → ∀ i < B.elements_axial, ∀ q < B.elements_circumferential * B.n_pad,
      0 ≤ B.Pdim P i (q % B.elements_circumferential) (q / B.elements_circumferential) *
        f (B.Ytheta (q / B.elements_circumferential) (q % B.elements_circumferential)) := by
    intro f hf i hi q hqm
    obtain ⟨h1, h2⟩ := hq q hqm
    rw [Pdim_eq, C95_angles h2c]
    unfold pressure
    by_cases h0 : P i (q % B.elements_circumferential) (q / B.elements_circumferential) = 0
    · rw [h0]
      simp
    · exact mul_nonneg (mul_nonneg (hP _ h1 i hi _ h2) hsc) (hf _ h1 i hi _ h2 h0)
  have neg : ∀ (f : ℝ → ℝ), (∀ p < B.n_pad, ∀ i < B.elements_axial, ∀ j < B.elements_circumferential, P i j p ≠ 0 →
      f (middle B p j) ≤ 0) → ∀ i < B.elements_axial, ∀ q < B.elements_circumferential * B.n_pad,
      B.Pdim P i (q % B.elements_circumferential) (q / B.elements_circumferential) *
        f (B.Ytheta (q / B.elements_circumferential) (q % B.elements_circumferential)) ≤ 0 := by
    intro f hf i hi q hqm
    have := pos (fun x => -f x) (fun p hp i hi j hj h => neg_nonneg.2 (hf p hp i hi j hj h)) i hi q hqm
    linarith
  unfold resultant
  dsimp only
  refine ⟨fun h => ?_, fun h => ?_, fun h => ?_, fun h => ?_⟩
  · exact neg_nonpos.2 (trapz_nonneg (fun i hi => trapz_nonneg (pos cos h i hi) har) hax)
  · exact neg_nonneg.2 (trapz_nonpos (fun i hi => trapz_nonpos (neg cos h i hi) har) hax)
  · exact neg_nonpos.2 (trapz_nonneg (fun i hi => trapz_nonneg (pos sin h i hi) har) hax)
  · exact neg_nonneg.2 (trapz_nonpos (fun i hi => trapz_nonpos (neg sin h i hi) har) hax)

/-- The pad of `exThd "circular" 1` is centred at π: its two cells lie on the side of negative `x`. -/
example : (∀ j < 2, cos (middle (exThd "circular" 1) 0 j) ≤ 0) ∧ (exThd "circular" 1).n_pad ∣ 360 ∧
    (exThd "circular" 1).betha_s_dg * (exThd "circular" 1).n_pad ≤ 360 := by
  refine ⟨fun j hj => ?_, by simp [exThd], by norm_num [exThd]⟩
  have hpi := pi_pos
  have h1 : (j : ℝ) ≤ 1 := by exact_mod_cast (by omega : j ≤ 1)
  have h0 : (0 : ℝ) ≤ j := Nat.cast_nonneg j
  apply cos_nonpos_of_pi_div_two_le_of_le
  · norm_num [middle, exThd, thetaI]
    nlinarith
  · norm_num [middle, exThd, thetaI]
    nlinarith

/-- Around two pads, with the groove between them. -/
theorem trapz_groove {B : THD} (h2c : 2 ≤ B.elements_circumferential) (h2 : B.n_pad = 2) (y : ℕ → ℕ → ℝ) :
    trapz (B.elements_circumferential * B.n_pad)
        (fun q => y (q / B.elements_circumferential) (q % B.elements_circumferential))
        (fun q => B.journal_radius * B.Ytheta (q / B.elements_circumferential) (q % B.elements_circumferential)) =
      trapz B.elements_circumferential (y 0) (fun j => B.journal_radius * B.Ytheta 0 j) +
      trapz B.elements_circumferential (y 1) (fun j => B.journal_radius * B.Ytheta 1 j) +
      B.journal_radius * (middle B 1 0 - middle B 0 (B.elements_circumferential - 1)) *
        ((y 0 (B.elements_circumferential - 1) + y 1 0) / 2) := by
  rw [h2]
  unfold middle
  rw [← C95_angles h2c, ← C95_angles h2c]
  generalize B.elements_circumferential = nc at *
  unfold trapz
  obtain ⟨k, rfl⟩ : ∃ k, nc = k + 1 := ⟨nc - 1, by omega⟩
  rw [show (k + 1) * 2 - 1 = (k + 1) + k from by omega, Finset.sum_range_add, Finset.sum_range_succ,
    show k + 1 - 1 = k from rfl]
  have e1 : ∀ x, x ≤ k → x / (k + 1) = 0 ∧ x % (k + 1) = x := fun x hx =>
    ⟨Nat.div_eq_of_lt (by omega), Nat.mod_eq_of_lt (by omega)⟩
  have e2 : ∀ x, x ≤ k → (k + 1 + x) / (k + 1) = 1 ∧ (k + 1 + x) % (k + 1) = x := fun x hx =>
    ⟨by rw [Nat.add_div_left _ (by omega), Nat.div_eq_of_lt (by omega)],
      by rw [Nat.add_mod_left, Nat.mod_eq_of_lt (by omega)]⟩
  have e3 := e2 0 (Nat.zero_le _)
  rw [add_zero] at e3
  dsimp only
  rw [(e1 k le_rfl).1, (e1 k le_rfl).2, e3.1, e3.2]
  have s1 : ∀ q ∈ Finset.range k, _ := fun q hq => by
    rw [Finset.mem_range] at hq
    exact (⟨e1 q (by omega), e1 (q + 1) (by omega), e2 q (by omega), e2 (q + 1) (by omega)⟩ :
      (q / (k + 1) = 0 ∧ q % (k + 1) = q) ∧ ((q + 1) / (k + 1) = 0 ∧ (q + 1) % (k + 1) = q + 1) ∧
      ((k + 1 + q) / (k + 1) = 1 ∧ (k + 1 + q) % (k + 1) = q) ∧
      ((k + 1 + (q + 1)) / (k + 1) = 1 ∧ (k + 1 + (q + 1)) % (k + 1) = q + 1))
  have t0 : ∀ a b c a' b' g : ℝ, a = a' → b = b' → c = g → a + c + b = a' + b' + g := by
    intro a b c a' b' g h1 h2 h3
    rw [h1, h2, h3]
    ring
  refine t0 _ _ _ _ _ _ (Finset.sum_congr rfl fun q hq => ?_) (Finset.sum_congr rfl fun q hq => ?_) ?_
  · rw [(s1 q hq).1.1, (s1 q hq).1.2, (s1 q hq).2.1.1, (s1 q hq).2.1.2]
  · rw [add_assoc (k + 1) q 1, (s1 q hq).2.2.1.1, (s1 q hq).2.2.1.2, (s1 q hq).2.2.2.1, (s1 q hq).2.2.2.2]
  · ring

/-- C95, partial: in a bearing with one pad the force is the resultant of the pressure on the cells, but of the cells at
the edges only a half counts, and of those at the corners a quarter. -/
theorem C95_resultant_partial {B : THD} (h2c : 2 ≤ B.elements_circumferential) (h2a : 2 ≤ B.elements_axial)
    (h1 : B.n_pad = 1) (P : ℕ → ℕ → ℕ → ℝ) :
    B.resultant P = push B.elements_axial B.elements_circumferential (cellArea B) (middle B 0)
      (fun i j => edgeWeight B.elements_axial i * edgeWeight B.elements_circumferential j * pressure B P 0 i j) := by
  have key : ∀ f : ℝ → ℝ, trapz B.elements_axial (fun i => trapz (B.elements_circumferential * B.n_pad)
        (fun q => B.Pdim P i (q % B.elements_circumferential) (q / B.elements_circumferential) *
          f (B.Ytheta (q / B.elements_circumferential) (q % B.elements_circumferential)))
        (fun q => B.journal_radius * B.Ytheta (q / B.elements_circumferential) (q % B.elements_circumferential)))
        (fun i => B.axial_length * B.Z i) =
      ∑ i ∈ Finset.range B.elements_axial, ∑ j ∈ Finset.range B.elements_circumferential,
        edgeWeight B.elements_axial i * edgeWeight B.elements_circumferential j * pressure B P 0 i j * cellArea B *
          f (middle B 0 j) := by
    intro f
    rw [trapz_uniform h2a (fun q _ => axial_step B q), h1, mul_one]
    refine Finset.sum_congr rfl fun i _ => ?_
    rw [trapz_uniform (d := B.journal_radius * (B.betha_s_dg * (π / 180) / B.elements_circumferential)) h2c,
      Finset.sum_mul, Finset.mul_sum]
    · refine Finset.sum_congr rfl fun j hj => ?_
      rw [Finset.mem_range] at hj
      rw [Nat.mod_eq_of_lt hj, Nat.div_eq_of_lt hj, Pdim_eq, C95_angles h2c]
      unfold edgeWeight cellArea middle
      ring
    · intro q hq
      rw [Nat.mod_eq_of_lt hq, Nat.div_eq_of_lt hq, Nat.mod_eq_of_lt (by omega : q < B.elements_circumferential),
        Nat.div_eq_of_lt (by omega : q < B.elements_circumferential)]
      exact around_step h2c 0 q
  unfold resultant push
  dsimp only
  rw [key cos, key sin]

/-- C95, refuted: with two cells around and along a single pad only a quarter of the resultant of the pressure is reported,
so that it is missed for every pressure with a resultant. -/
theorem C95_resultant_false {B : THD} (h2c : B.elements_circumferential = 2) (h2a : B.elements_axial = 2)
    (h1 : B.n_pad = 1) (P : ℕ → ℕ → ℕ → ℝ) :
    B.resultant P = (1 / 4 * (push 2 2 (cellArea B) (middle B 0) (pressure B P 0)).1,
      1 / 4 * (push 2 2 (cellArea B) (middle B 0) (pressure B P 0)).2) := by
  rw [C95_resultant_partial h2c.ge h2a.ge h1 P, h2c, h2a]
  unfold push edgeWeight
  simp only [Finset.sum_range_succ, Finset.sum_range_zero]
  norm_num
  constructor
  · ring
  · ring

/-- C95, refuted: with two pads the reported force is not that of the pads.  Over the groove between the pads, where there is
no film, the mean of what the adjoining cells have counts as well. -/
theorem C95_groove_false {B : THD} (h2c : 2 ≤ B.elements_circumferential) (h2a : 2 ≤ B.elements_axial)
    (h2 : B.n_pad = 2) (P : ℕ → ℕ → ℕ → ℝ) :
    let na := B.elements_axial
    let nc := B.elements_circumferential
    let pads : ℝ × ℝ :=
      push na nc (cellArea B) (middle B 0) (fun i j => edgeWeight na i * edgeWeight nc j * pressure B P 0 i j) +
      push na nc (cellArea B) (middle B 1) (fun i j => edgeWeight na i * edgeWeight nc j * pressure B P 1 i j)
    let groove := B.journal_radius * (middle B 1 0 - middle B 0 (nc - 1)) * (B.axial_length / na)
    B.resultant P =
      (pads.1 - ∑ i ∈ Finset.range na, edgeWeight na i * groove *
          ((pressure B P 0 i (nc - 1) * cos (middle B 0 (nc - 1)) + pressure B P 1 i 0 * cos (middle B 1 0)) / 2),
        pads.2 - ∑ i ∈ Finset.range na, edgeWeight na i * groove *
          ((pressure B P 0 i (nc - 1) * sin (middle B 0 (nc - 1)) + pressure B P 1 i 0 * sin (middle B 1 0)) / 2)) := by
  dsimp only
  have key : ∀ f : ℝ → ℝ, trapz B.elements_axial (fun i => trapz (B.elements_circumferential * B.n_pad)
        (fun q => B.Pdim P i (q % B.elements_circumferential) (q / B.elements_circumferential) *
          f (B.Ytheta (q / B.elements_circumferential) (q % B.elements_circumferential)))
        (fun q => B.journal_radius * B.Ytheta (q / B.elements_circumferential) (q % B.elements_circumferential)))
        (fun i => B.axial_length * B.Z i) =
      (∑ i ∈ Finset.range B.elements_axial, ∑ j ∈ Finset.range B.elements_circumferential,
        edgeWeight B.elements_axial i * edgeWeight B.elements_circumferential j * pressure B P 0 i j * cellArea B *
          f (middle B 0 j)) +
      (∑ i ∈ Finset.range B.elements_axial, ∑ j ∈ Finset.range B.elements_circumferential,
        edgeWeight B.elements_axial i * edgeWeight B.elements_circumferential j * pressure B P 1 i j * cellArea B *
          f (middle B 1 j)) +
      ∑ i ∈ Finset.range B.elements_axial, edgeWeight B.elements_axial i *
        (B.journal_radius * (middle B 1 0 - middle B 0 (B.elements_circumferential - 1)) *
          (B.axial_length / B.elements_axial)) *
        ((pressure B P 0 i (B.elements_circumferential - 1) * f (middle B 0 (B.elements_circumferential - 1)) +
          pressure B P 1 i 0 * f (middle B 1 0)) / 2) := by
    intro f
    rw [trapz_uniform h2a (fun q _ => axial_step B q), ← Finset.sum_add_distrib, ← Finset.sum_add_distrib]
    refine Finset.sum_congr rfl fun i _ => ?_
    rw [trapz_groove h2c h2 (fun p j => B.Pdim P i j p * f (B.Ytheta p j)), trapz_uniform h2c (fun q _ => around_step h2c 0 q),
      trapz_uniform h2c (fun q _ => around_step h2c 1 q), add_mul, add_mul, mul_add, mul_add, Finset.sum_mul,
      Finset.sum_mul, Finset.mul_sum, Finset.mul_sum]
    congr 1
    · congr 1
      · refine Finset.sum_congr rfl fun j _ => ?_
        rw [Pdim_eq, C95_angles h2c]
        unfold edgeWeight cellArea middle
        ring
      · refine Finset.sum_congr rfl fun j _ => ?_
        rw [Pdim_eq, C95_angles h2c]
        unfold edgeWeight cellArea middle
        ring
    · rw [Pdim_eq, Pdim_eq, C95_angles h2c, C95_angles h2c]
      unfold edgeWeight middle
      ring
  unfold resultant push
  dsimp only
  rw [key cos, key sin]
  rw [Prod.mk_add_mk]
  refine Prod.ext ?_ ?_
  · dsimp only
    ring
  · dsimp only
    ring

/-- The groove between two pads of a quarter turn has, with half a cell on both sides, the width 3π/4. -/
example : middle (exThd "circular" 2) 1 0 - middle (exThd "circular" 2) 0 1 = 3 * π / 4 := by
  norm_num [middle, thetaI, exThd]
  ring

end Ross.Props
