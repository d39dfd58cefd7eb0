import Verif.Model.Rubbing
import Verif.Spec.Rubbing
import Verif.Props.Fault

/-! # C41: the rubbing force -/

namespace Ross.Props

open Ross Ross.Spec Ross.Fault Ross.BearingLemmas Ross.Rotor Ross.RotorLemmas

variable {N : ℕ} (b : Rubbing) (R : ℝ) (y v : Fin N → ℝ) (ang : ℝ)

/-- **C41** no force while the displacement is below the clearance. -/
theorem C41_free (h : planeNorm (comp y (6 * b.posRUB), comp y (6 * b.posRUB + 1)) < b.deltaRUB) :
    b.rub R y v ang = some 0 := by
  unfold Rubbing.rub
  dsimp only
  unfold planeNorm at h
  dsimp only at h
  rw [if_neg (not_le.2 h)]
  rfl

/-- The slip velocity that `_rub` computes for the displacement `p` and the velocity `w`. -/
noncomputable def slip (R ang : ℝ) (p w : ℝ × ℝ) : ℝ :=
  (w.1 * p.1 - w.2 * p.2) / planeNorm p + ang * R

theorem planeNorm_pos {p : ℝ × ℝ} : 0 < planeNorm p ↔ p ≠ 0 := by
  unfold planeNorm
  rw [Real.sqrt_pos]
  constructor
  · rintro h rfl; simp at h
  · intro h
    by_contra h0
    apply h
    have h1 := sq_nonneg p.1
    have h2 := sq_nonneg p.2
    ext
    · exact pow_eq_zero_iff (two_ne_zero) |>.1 (le_antisymm (by linarith) h1)
    · exact pow_eq_zero_iff (two_ne_zero) |>.1 (le_antisymm (by linarith) h2)

theorem planeNorm_nonneg (p : ℝ × ℝ) : 0 ≤ planeNorm p := Real.sqrt_nonneg _

theorem arg_cos_sin {p : ℝ × ℝ} (hp : p ≠ 0) :
    Real.cos (Complex.arg ⟨p.1, p.2⟩) = p.1 / planeNorm p ∧
    Real.sin (Complex.arg ⟨p.1, p.2⟩) = p.2 / planeNorm p := by
  have hn : ‖(⟨p.1, p.2⟩ : ℂ)‖ = planeNorm p := by
    rw [Complex.norm_def, Complex.normSq_mk, planeNorm]; ring_nf
  have h0 : (⟨p.1, p.2⟩ : ℂ) ≠ 0 := by
    intro h
    rw [Complex.ext_iff] at h
    exact hp (Prod.ext h.1 h.2)
  rw [Complex.cos_arg h0, Complex.sin_arg, hn]
  exact ⟨rfl, rfl⟩

/-- **C41** in contact: the elastic force towards the centre, a force against the velocity, a friction with
components of the size `μ |N|` of the components of these two, and a torque if it is asked for; all on the
rubbing node.  Partial: that the friction is tangential and against the sliding is false
(`C41_tangent_iff`, `C41_against_false`), and a point at rest is excluded (`C41_nan`). -/
theorem C41_contact_partial (p w : ℝ × ℝ) (hp0 : p = (comp y (6 * b.posRUB), comp y (6 * b.posRUB + 1)))
    (hw0 : w = (comp v (6 * b.posRUB), comp v (6 * b.posRUB + 1)))
    (hc : b.deltaRUB ≤ planeNorm p) (hp : p ≠ 0) (hw : w ≠ 0) :
    ∃ F n f : _, b.rub R y v ang = some F ∧
      n = springForce b.kRUB b.deltaRUB p + damperForce b.cRUB w ∧
      f = ((SignType.sign (slip R ang p w) : ℝ) * -(b.miRUB * |n.1|),
        (SignType.sign (slip R ang p w) : ℝ) * (b.miRUB * |n.2|)) ∧
      ∀ i : Fin N, F i = if i.val = 6 * b.posRUB then n.1 + f.1
        else if i.val = 6 * b.posRUB + 1 then n.2 + f.2
        else if i.val = 6 * b.posRUB + 5 then
          (if b.torque then R * (planeNorm f * (p.1 / planeNorm p)) else 0)
        else 0 := by
  have hP := planeNorm_pos.2 hp
  have hW := planeNorm_pos.2 hw
  obtain ⟨c1, c2⟩ := arg_cos_sin hp
  refine ⟨_, _, _, ?_, rfl, rfl, fun i => rfl⟩
  subst hp0 hw0
  unfold Rubbing.rub
  dsimp only at c1 c2 ⊢
  have e1 : Real.sqrt (comp y (6 * b.posRUB) ^ 2 + comp y (6 * b.posRUB + 1) ^ 2) =
    planeNorm (comp y (6 * b.posRUB), comp y (6 * b.posRUB + 1)) := rfl
  have e2 : Real.sqrt (comp v (6 * b.posRUB) ^ 2 + comp v (6 * b.posRUB + 1) ^ 2) =
    planeNorm (comp v (6 * b.posRUB), comp v (6 * b.posRUB + 1)) := rfl
  rw [e1, e2, if_pos hc, c1, c2]
  have hs : ∀ z, b.stiffness_force (planeNorm (comp y (6 * b.posRUB), comp y (6 * b.posRUB + 1))) z =
      some (-(b.kRUB * (planeNorm (comp y (6 * b.posRUB), comp y (6 * b.posRUB + 1)) - b.deltaRUB) *
        (z / planeNorm (comp y (6 * b.posRUB), comp y (6 * b.posRUB + 1))))) := fun z => by
    unfold Rubbing.stiffness_force Rubbing.npDiv
    rw [abs_of_pos hP, if_neg hP.ne']
    congr 1; ring
  have hd : ∀ z, b.damping_force (planeNorm (comp v (6 * b.posRUB), comp v (6 * b.posRUB + 1))) z =
      some (-(b.cRUB * z)) := fun z => by
    unfold Rubbing.damping_force Rubbing.npDiv
    rw [abs_of_pos hW, if_neg hW.ne']
    congr 1
    field_simp
  have ht : ∀ f g z, Rubbing.torque_force R (planeNorm (comp y (6 * b.posRUB), comp y (6 * b.posRUB + 1)))
      f g z = some (R * (planeNorm (f, g) *
        (z / planeNorm (comp y (6 * b.posRUB), comp y (6 * b.posRUB + 1))))) := fun f g z => by
    unfold Rubbing.torque_force Rubbing.npDiv
    rw [abs_of_pos hP, if_neg hP.ne']
    simp only [Option.bind_eq_bind, Option.bind_some, Option.pure_def, planeNorm]
    congr 2
    ring
  have hsl : -comp v (6 * b.posRUB + 1) * (comp y (6 * b.posRUB + 1) /
        planeNorm (comp y (6 * b.posRUB), comp y (6 * b.posRUB + 1))) +
      comp v (6 * b.posRUB) * (comp y (6 * b.posRUB) /
        planeNorm (comp y (6 * b.posRUB), comp y (6 * b.posRUB + 1))) + ang * R =
      slip R ang (comp y (6 * b.posRUB), comp y (6 * b.posRUB + 1))
        (comp v (6 * b.posRUB), comp v (6 * b.posRUB + 1)) := by
    unfold slip; ring
  rw [hsl]
  simp only [hs, hd, Option.bind_eq_bind, Option.bind_some, Option.pure_def, Rubbing.tangential_force, ht]
  rcases lt_trichotomy (slip R ang (comp y (6 * b.posRUB), comp y (6 * b.posRUB + 1))
        (comp v (6 * b.posRUB), comp v (6 * b.posRUB + 1))) 0 with hz | hz | hz
  · rw [if_neg (not_lt.2 hz.le), if_pos hz, sign_neg hz]
    cases b.torque <;> simp [springForce, damperForce]
  · rw [hz, if_neg (lt_irrefl _), if_neg (lt_irrefl _)]
    simp [springForce, damperForce, planeNorm]
  · rw [if_pos hz, sign_pos hz]
    cases b.torque <;> simp [springForce, damperForce]

/-- **C41** only the rubbing node feels the force. -/
theorem C41_node {F : Fin N → ℝ} (h : b.rub R y v ang = some F) (i : Fin N) (hi : F i ≠ 0) :
    i.val = 6 * b.posRUB ∨ i.val = 6 * b.posRUB + 1 ∨ (b.torque = true ∧ i.val = 6 * b.posRUB + 5) := by
  by_cases hc : b.deltaRUB ≤ planeNorm (comp y (6 * b.posRUB), comp y (6 * b.posRUB + 1))
  · by_cases hp : ((comp y (6 * b.posRUB), comp y (6 * b.posRUB + 1)) : ℝ × ℝ) = 0
    · exfalso
      unfold Rubbing.rub at h
      dsimp only at h
      unfold planeNorm at hc
      dsimp only at hc
      rw [if_pos hc] at h
      simp only [Prod.mk_eq_zero] at hp
      simp [hp.1, hp.2, Rubbing.stiffness_force, Rubbing.npDiv] at h
    · by_cases hw : ((comp v (6 * b.posRUB), comp v (6 * b.posRUB + 1)) : ℝ × ℝ) = 0
      · exfalso
        unfold Rubbing.rub at h
        dsimp only at h
        unfold planeNorm at hc
        dsimp only at hc
        rw [if_pos hc] at h
        simp only [Prod.mk_eq_zero] at hw
        simp [hw.1, hw.2, Rubbing.damping_force, Rubbing.npDiv] at h
      · obtain ⟨F', n, f, h1, -, -, h4⟩ := C41_contact_partial b R y v ang _ _ rfl rfl hc hp hw
        rw [h] at h1
        cases h1
        rw [h4] at hi
        split_ifs at hi with a1 a2 a3 a4 <;> simp_all
  · rw [C41_free b R y v ang (not_le.1 hc)] at h
    cases h
    simp at hi

/-- **C41** fails when the point of contact is at rest, or the displacement is zero and there is no
clearance: the force is not a number. -/
theorem C41_nan (hc : b.deltaRUB ≤ planeNorm (comp y (6 * b.posRUB), comp y (6 * b.posRUB + 1))) :
    b.rub R y v ang = none ↔ ((comp y (6 * b.posRUB), comp y (6 * b.posRUB + 1)) : ℝ × ℝ) = 0 ∨
      ((comp v (6 * b.posRUB), comp v (6 * b.posRUB + 1)) : ℝ × ℝ) = 0 := by
  constructor
  · intro h
    by_contra hn
    push Not at hn
    obtain ⟨F', n, f, h1, -⟩ := C41_contact_partial b R y v ang _ _ rfl rfl hc hn.1 hn.2
    rw [h] at h1
    cases h1
  · intro h
    unfold Rubbing.rub
    dsimp only
    unfold planeNorm at hc
    dsimp only at hc
    rw [if_pos hc]
    rcases h with h | h
    · simp only [Prod.mk_eq_zero] at h
      simp [h.1, h.2, Rubbing.stiffness_force, Rubbing.npDiv]
    · simp only [Prod.mk_eq_zero] at h
      have : ∀ z, b.damping_force (Real.sqrt (0 ^ 2 + 0 ^ 2)) z = none := fun z => by
        simp [Rubbing.damping_force, Rubbing.npDiv]
      simp only [h.1, h.2, this, Option.bind_eq_bind, Option.bind_none, Option.bind_fun_none]

/-- The friction: what the coefficient of friction adds to the force. -/
def Friction (f : Fin N → ℝ) : Prop :=
  ∃ F F0, b.rub R y v ang = some F ∧ { b with miRUB := 0 }.rub R y v ang = some F0 ∧ f = F - F0

/-- **C41** the size of the friction: `μ` times the normal force while the slip velocity is not zero. -/
theorem C41_size {f : Fin N → ℝ} (hf : Friction b R y v ang f) (i j : Fin N) (p w : ℝ × ℝ)
    (hi : i.val = 6 * b.posRUB) (hj : j.val = 6 * b.posRUB + 1)
    (hp0 : p = (y i, y j)) (hw0 : w = (v i, v j)) (hc : b.deltaRUB ≤ planeNorm p) (hμ : 0 ≤ b.miRUB)
    (hs : slip R ang p w ≠ 0) :
    planeNorm (f i, f j) =
      b.miRUB * planeNorm (springForce b.kRUB b.deltaRUB p + damperForce b.cRUB w) := by
  obtain ⟨F, F0, h1, h2, rfl⟩ := hf
  have e1 : comp y (6 * b.posRUB) = y i := by
    unfold comp; rw [dif_pos (by omega)]; congr 1; exact Fin.ext hi.symm
  have e2 : comp y (6 * b.posRUB + 1) = y j := by
    unfold comp; rw [dif_pos (by omega)]; congr 1; exact Fin.ext hj.symm
  have e3 : comp v (6 * b.posRUB) = v i := by
    unfold comp; rw [dif_pos (by omega)]; congr 1; exact Fin.ext hi.symm
  have e4 : comp v (6 * b.posRUB + 1) = v j := by
    unfold comp; rw [dif_pos (by omega)]; congr 1; exact Fin.ext hj.symm
  have hne : p ≠ 0 ∧ w ≠ 0 := by
    have := mt (C41_nan b R y v ang (by rw [e1, e2, ← hp0]; exact hc)).2 (by rw [h1]; simp)
    rw [e1, e2, e3, e4, ← hp0, ← hw0] at this
    push Not at this
    exact this
  obtain ⟨G, n, g, g1, g2, g3, g4⟩ := C41_contact_partial b R y v ang p w (by rw [e1, e2, hp0]) (by rw [e3, e4, hw0])
    hc hne.1 hne.2
  obtain ⟨G', n', g', g1', g2', g3', g4'⟩ := C41_contact_partial { b with miRUB := 0 } R y v ang p w
    (by rw [e1, e2, hp0]) (by rw [e3, e4, hw0]) hc hne.1 hne.2
  rw [h1] at g1; cases g1
  rw [h2] at g1'; cases g1'
  simp only [zero_mul, neg_zero, mul_zero] at g3'
  have hn : n' = n := by rw [g2, g2']
  dsimp only at g4'
  have k1 : F i - F0 i = g.1 := by
    simp only [g4, g4', if_pos hi, hn, g3']; simp
  have k2 : F j - F0 j = g.2 := by
    have hj' : ¬ j.val = 6 * b.posRUB := by omega
    simp only [g4, g4', if_neg hj', if_pos hj, hn, g3']; simp
  simp only [Pi.sub_apply, k1, k2, ← g2]
  unfold planeNorm
  have hsq : ((SignType.sign (slip R ang p w) : ℝ)) ^ 2 = 1 := by
    rcases lt_or_gt_of_ne hs with h | h
    · rw [sign_neg h]; norm_num
    · rw [sign_pos h]; norm_num
  rw [g3]
  simp only
  rw [show ((SignType.sign (slip R ang p w) : ℝ) * -(b.miRUB * |n.1|)) ^ 2 +
    ((SignType.sign (slip R ang p w) : ℝ) * (b.miRUB * |n.2|)) ^ 2 =
    ((SignType.sign (slip R ang p w) : ℝ)) ^ 2 * (b.miRUB ^ 2 * (|n.1| ^ 2 + |n.2| ^ 2)) by ring, hsq,
    one_mul, sq_abs, sq_abs, Real.sqrt_mul (sq_nonneg _), Real.sqrt_sq hμ]

theorem mul_abs_inj {x y : ℝ} : x * |x| = y * |y| ↔ x = y := by
  constructor
  · intro h
    rcases le_total 0 x with hx | hx <;> rcases le_total 0 y with hy | hy
    · rw [abs_of_nonneg hx, abs_of_nonneg hy] at h
      exact (mul_self_inj hx hy).1 h
    · rw [abs_of_nonneg hx, abs_of_nonpos hy] at h
      nlinarith [mul_self_nonneg x, mul_self_nonneg y, mul_self_eq_zero.1 (show x * x = 0 by nlinarith [mul_self_nonneg x, mul_self_nonneg y]), mul_self_eq_zero.1 (show y * y = 0 by nlinarith [mul_self_nonneg x, mul_self_nonneg y])]
    · rw [abs_of_nonpos hx, abs_of_nonneg hy] at h
      nlinarith [mul_self_nonneg x, mul_self_nonneg y, mul_self_eq_zero.1 (show x * x = 0 by nlinarith [mul_self_nonneg x, mul_self_nonneg y]), mul_self_eq_zero.1 (show y * y = 0 by nlinarith [mul_self_nonneg x, mul_self_nonneg y])]
    · rw [abs_of_nonpos hx, abs_of_nonpos hy] at h
      have := (mul_self_inj (neg_nonneg.2 hx) (neg_nonneg.2 hy)).1 (by linarith)
      linarith
  · rintro rfl; rfl

/-- **C41** fails: without damping the friction is tangential only when the two components of the
displacement are equal. -/
theorem C41_tangent_iff {f : Fin N → ℝ} (hf : Friction b R y v ang f) (i j : Fin N) (p w : ℝ × ℝ)
    (hi : i.val = 6 * b.posRUB) (hj : j.val = 6 * b.posRUB + 1)
    (hp0 : p = (y i, y j)) (hw0 : w = (v i, v j)) (hc : b.deltaRUB < planeNorm p) (hμ : 0 < b.miRUB)
    (hk : 0 < b.kRUB) (hcr : b.cRUB = 0) (hs : slip R ang p w ≠ 0) :
    planeDot (f i, f j) p = 0 ↔ p.1 = p.2 := by
  obtain ⟨F, F0, h1, h2, rfl⟩ := hf
  have e1 : comp y (6 * b.posRUB) = y i := by
    unfold comp; rw [dif_pos (by omega)]; congr 1; exact Fin.ext hi.symm
  have e2 : comp y (6 * b.posRUB + 1) = y j := by
    unfold comp; rw [dif_pos (by omega)]; congr 1; exact Fin.ext hj.symm
  have e3 : comp v (6 * b.posRUB) = v i := by
    unfold comp; rw [dif_pos (by omega)]; congr 1; exact Fin.ext hi.symm
  have e4 : comp v (6 * b.posRUB + 1) = v j := by
    unfold comp; rw [dif_pos (by omega)]; congr 1; exact Fin.ext hj.symm
  have hne : p ≠ 0 ∧ w ≠ 0 := by
    have := mt (C41_nan b R y v ang (by rw [e1, e2, ← hp0]; exact hc.le)).2 (by rw [h1]; simp)
    rw [e1, e2, e3, e4, ← hp0, ← hw0] at this
    push Not at this
    exact this
  obtain ⟨G, n, g, g1, g2, g3, g4⟩ := C41_contact_partial b R y v ang p w (by rw [e1, e2, hp0]) (by rw [e3, e4, hw0])
    hc.le hne.1 hne.2
  obtain ⟨G', n', g', g1', g2', g3', g4'⟩ := C41_contact_partial { b with miRUB := 0 } R y v ang p w
    (by rw [e1, e2, hp0]) (by rw [e3, e4, hw0]) hc.le hne.1 hne.2
  rw [h1] at g1; cases g1
  rw [h2] at g1'; cases g1'
  simp only [zero_mul, neg_zero, mul_zero] at g3'
  have hn : n' = n := by rw [g2, g2']
  dsimp only at g4'
  have k1 : F i - F0 i = g.1 := by
    simp only [g4, g4', if_pos hi, hn, g3']; simp
  have k2 : F j - F0 j = g.2 := by
    have hj' : ¬ j.val = 6 * b.posRUB := by omega
    simp only [g4, g4', if_neg hj', if_pos hj, hn, g3']; simp
  have hP := planeNorm_pos.2 hne.1
  have hA : 0 < b.kRUB * (planeNorm p - b.deltaRUB) / planeNorm p :=
    div_pos (mul_pos hk (by linarith)) hP
  have a1 : |n.1| = b.kRUB * (planeNorm p - b.deltaRUB) / planeNorm p * |p.1| := by
    rw [g2, hcr]
    simp only [springForce, damperForce, Prod.fst_add, zero_mul, neg_zero, add_zero, abs_neg]
    rw [show b.kRUB * (planeNorm p - b.deltaRUB) * (p.1 / planeNorm p) =
      b.kRUB * (planeNorm p - b.deltaRUB) / planeNorm p * p.1 by ring, abs_mul, abs_of_pos hA]
  have a2 : |n.2| = b.kRUB * (planeNorm p - b.deltaRUB) / planeNorm p * |p.2| := by
    rw [g2, hcr]
    simp only [springForce, damperForce, Prod.snd_add, zero_mul, neg_zero, add_zero, abs_neg]
    rw [show b.kRUB * (planeNorm p - b.deltaRUB) * (p.2 / planeNorm p) =
      b.kRUB * (planeNorm p - b.deltaRUB) / planeNorm p * p.2 by ring, abs_mul, abs_of_pos hA]
  have hsg : ((SignType.sign (slip R ang p w) : ℝ)) ≠ 0 := by
    rcases lt_or_gt_of_ne hs with h | h
    · rw [sign_neg h]; norm_num
    · rw [sign_pos h]; norm_num
  simp only [Pi.sub_apply, k1, k2, planeDot, g3, a1, a2]
  generalize b.kRUB * (planeNorm p - b.deltaRUB) / planeNorm p = A at hA
  generalize (SignType.sign (slip R ang p w) : ℝ) = σ at hsg
  rw [← mul_abs_inj (x := p.1) (y := p.2)]
  have hne' : σ * b.miRUB * A ≠ 0 := mul_ne_zero (mul_ne_zero hsg hμ.ne') hA.ne'
  constructor
  · intro h
    refine mul_left_cancel₀ hne' ?_
    linear_combination -h
  · intro h
    linear_combination -(σ * b.miRUB * A) * h

/-- A rub at the first node of the example: radius 1, clearance 1, displacement 2 along `x`. -/
noncomputable def exRub : Rubbing := ⟨exFault, 1, 1000, 10, 0.5, 0, true⟩

noncomputable def exY : Fin 12 → ℝ := fun i => if i.val = 0 then 2 else 0
noncomputable def exV : Fin 12 → ℝ := fun i => if i.val = 0 then 1 else if i.val = 1 then 9 else 0

theorem exNorm : planeNorm (2, 0) = 2 := by
  unfold planeNorm
  rw [Real.sqrt_eq_iff_mul_self_eq] <;> norm_num

/-- **C41** fails: the friction can push the rotor along the direction in which its surface slides on the
stator, whichever way the rotor turns.  The point of contact is on the `x` axis, so the surface slides
along `y`, with the velocity `9 ± 5`. -/
theorem C41_against_false : ∃ f, Friction exRub 1 exY exV 5 f ∧
    0 < planeDot (f 0, f 1) (quarter (2, 0)) * (planeDot (exV 0, exV 1) (quarter (2, 0)) / 2 + 5 * 1) ∧
    0 < planeDot (f 0, f 1) (quarter (2, 0)) * (planeDot (exV 0, exV 1) (quarter (2, 0)) / 2 - 5 * 1) := by
  have hy : ((comp exY (6 * exRub.posRUB), comp exY (6 * exRub.posRUB + 1)) : ℝ × ℝ) = (2, 0) := by
    simp [comp, exY, exRub]
  have hv : ((comp exV (6 * exRub.posRUB), comp exV (6 * exRub.posRUB + 1)) : ℝ × ℝ) = (1, 9) := by
    simp [comp, exV, exRub]
  obtain ⟨F, n, f, h1, h2, h3, h4⟩ := C41_contact_partial exRub 1 exY exV 5 (2, 0) (1, 9) hy.symm hv.symm
    (by rw [exNorm]; norm_num [exRub]) (by simp) (by simp)
  obtain ⟨F', n', f', h1', h2', h3', h4'⟩ := C41_contact_partial { exRub with miRUB := 0 } 1 exY exV 5 (2, 0) (1, 9)
    hy.symm hv.symm (by rw [exNorm]; norm_num [exRub]) (by simp) (by simp)
  refine ⟨F - F', ⟨F, F', h1, h1', rfl⟩, ?_⟩
  have hs : (0 : ℝ) < slip 1 5 (2, 0) (1, 9) := by unfold slip; rw [exNorm]; norm_num
  have hn : n.2 = -90 := by
    rw [h2]; norm_num [springForce, damperForce, exRub]
  have hn' : n'.2 = -90 := by
    rw [h2']; norm_num [springForce, damperForce, exRub]
  have k : F 1 - F' 1 = 45 := by
    have j0 : ¬ (1 : Fin 12).val = 6 * exRub.posRUB := by simp [exRub]
    have j1 : (1 : Fin 12).val = 6 * exRub.posRUB + 1 := by simp [exRub]
    dsimp only at h4'
    simp only [h4, h4', if_neg j0, if_pos j1, h3, h3', sign_pos hs]
    simp only [hn, hn']
    norm_num [exRub]
  simp only [planeDot, quarter, Pi.sub_apply, k]
  norm_num [exV]

/-- The hypotheses of `C41_tangent_iff` and `C41_size` are met. -/
example : ∃ f, Friction { exRub with cRUB := 0 } 1 exY exV 5 f ∧ slip 1 5 (2, 0) (1, 9) ≠ 0 ∧
    exRub.deltaRUB < planeNorm (exY 0, exY 1) := by
  have hy : ((comp exY (6 * exRub.posRUB), comp exY (6 * exRub.posRUB + 1)) : ℝ × ℝ) = (2, 0) := by
    simp [comp, exY, exRub]
  have hv : ((comp exV (6 * exRub.posRUB), comp exV (6 * exRub.posRUB + 1)) : ℝ × ℝ) = (1, 9) := by
    simp [comp, exV, exRub]
  obtain ⟨F, n, f, h1, h2, h3, h4⟩ := C41_contact_partial { exRub with cRUB := 0 } 1 exY exV 5 (2, 0) (1, 9) hy.symm
    hv.symm (by rw [exNorm]; norm_num [exRub]) (by simp) (by simp)
  obtain ⟨F', n', f', h1', h2', h3', h4'⟩ := C41_contact_partial { exRub with cRUB := 0, miRUB := 0 } 1 exY exV 5
    (2, 0) (1, 9) hy.symm hv.symm (by rw [exNorm]; norm_num [exRub]) (by simp) (by simp)
  refine ⟨F - F', ⟨F, F', h1, h1', rfl⟩, ?_, ?_⟩
  · unfold slip; rw [exNorm]; norm_num
  · have : ((exY 0, exY 1) : ℝ × ℝ) = (2, 0) := by simp [exY]
    rw [this, exNorm]; norm_num [exRub]

/-- **C41** in a run: what the integrator is given is `C55` with the rubbing force at the node, unless a
force was not a number. -/
theorem C41_run {ei : Eigh} {r : Rotor} {res : Result r.ndof} (h : b.run ei r = .ok (some res)) :
    b.args.unbalance_magnitude.length = b.args.unbalance_phase.length ∧
    r.disks.length = b.args.unbalance_magnitude.length ∧
    ∃ e, r.shaft[b.posRUB]? = some e ∧ 6 * b.posRUB + 5 < r.ndof ∧
    Fault.run ei r b.args .rk4 (.ok (false, fun y v i nan =>
      match b.rub (e.s.o_d / 2) y v (b.args.Omega (b.args.time i)) with
      | some F => (F, nan)
      | none => (0, true))) = .ok (res, false) := by
  unfold Rubbing.run at h
  obtain ⟨_, h1, h⟩ := bind_ok.1 h
  obtain ⟨_, h2, h⟩ := bind_ok.1 h
  obtain ⟨R, h3, h⟩ := bind_ok.1 h
  obtain ⟨res', h4, h⟩ := bind_ok.1 h
  unfold Args.check at h1
  unfold checkDisks at h2
  split_ifs at h1 h2 with c1 c2
  unfold Rubbing.radius at h3
  cases he : r.shaft[b.posRUB]? with
  | none => rw [he] at h3; simp at h3
  | some e =>
    rw [he] at h3
    cases h3
    push Not at c1 c2
    refine ⟨c1, c2, e, rfl, ?_⟩
    obtain ⟨res1, nan⟩ := res'
    cases nan with
    | true => simp [pure, Except.pure] at h
    | false =>
      simp [pure, Except.pure] at h
      subst h
      split_ifs at h4 with hN
      · obtain ⟨_, _, _, _, -, -, -, h5, -⟩ := run_ok' h4
        cases h5
      · exact ⟨by omega, h4⟩

/-- The rubbing of the example rotor runs; the first node starts in the clearance. -/
example : ∃ ei r res, EighLower ei ∧ init exPandas 10 sixArgs = some (.ok r) ∧ exRub.run ei r = .ok res := by
  obtain ⟨ei, hE⟩ := eighLower_exists
  obtain ⟨r, h, hf, hp, h6, hnd, hend, hdk, hsh, he⟩ := six_facts
  obtain ⟨res, hres⟩ := C55_runs (m := .rk4) (a := exFault) h hf (hp _) h6 (he _) hnd.ge
    (by rw [hdk]; simp) hE (by norm_num [exFault]) (by norm_num [exFault])
    (false, fun y v i nan =>
      match exRub.rub (exShaft.o_d / 2) y v (exFault.Omega (exFault.time i)) with
      | some F => (F, nan)
      | none => (0, true))
  refine ⟨ei, r, if res.2 then none else some res.1, hE, h, ?_⟩
  unfold Rubbing.run
  refine bind_ok.2 ⟨(), by simp [Args.check, exRub, exFault], bind_ok.2 ⟨(), by simp [checkDisks, hdk, exRub, exFault],
    bind_ok.2 ⟨exShaft.o_d / 2, ?_, bind_ok.2 ⟨res, ?_, rfl⟩⟩⟩⟩
  · unfold Rubbing.radius
    rw [hsh]; rfl
  · rw [if_neg (by simp [exRub, hnd])]
    exact hres

end Ross.Props
