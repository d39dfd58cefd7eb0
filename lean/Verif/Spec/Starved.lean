import Verif.Spec.Thd

/-!
# Conservation of mass in a film that is filled in part

The notation is that of `Verif.Spec.Thd`; `θ` is the fraction of the gap that is filled with oil.
-/

namespace Ross.Spec.Thd

/-- Flow around the axis, through a face with the thickness `h`: what the journal drags along where the gap is filled to
`θ`, and what the pressure drives. -/
noncomputable def aroundFilled (β θ h mu s : ℝ) : ℝ := θ * (h / (2 * β)) - h ^ 3 / (12 * mu * β ^ 2) * s

/-- The slope of the pressure across the face before cell `j`, where the pressure at the entry is `inj`. -/
noncomputable def slopeEntry (inj d : ℝ) (p : ℕ → ℝ) (j : ℕ) : ℝ :=
  if j = 0 then slope inj (p j) (d / 2) else slope (p (j - 1)) (p j) d

/-- The filling of what the journal drags into cell `j`: of the groove, or of the cell before. -/
noncomputable def fillBefore (g : ℝ) (θ : ℕ → ℝ) (j : ℕ) : ℝ := if j = 0 then g else θ (j - 1)

/-- What flows out of cell `i`, `j` of a pad that begins at the angle `t0` and has the angle `β`, and by how much the oil in
it becomes more. -/
noncomputable def starvedExcess (na nc : ℕ) (t0 β κ g inj : ℝ) (h h' : ℝ → ℝ) (mu P θ : ℕ → ℕ → ℝ) (i j : ℕ) : ℝ :=
  (aroundFilled β (θ i j) (h (t0 + (j + 1) * (β / nc))) (meanAfter nc (mu i) j) (slopeAfter nc (1 / nc) (P i) j) -
      aroundFilled β (fillBefore g (θ i) j) (h (t0 + j * (β / nc))) (meanBefore (mu i) j)
        (slopeEntry inj (1 / nc) (P i) j)) * (1 / na) +
    (along κ (h (t0 + (j + 1 / 2) * (β / nc))) (meanAfter na (fun i => mu i j) i)
        (slopeAfter na (1 / na) (fun i => P i j) i) -
      along κ (h (t0 + (j + 1 / 2) * (β / nc))) (meanBefore (fun i => mu i j) i)
        (slopeBefore (1 / na) (fun i => P i j) i)) * (1 / nc) +
    θ i j * h' (t0 + (j + 1 / 2) * (β / nc)) * (1 / nc * (1 / na))

/-- What flows through the faces of a cell, per unit of the differences of pressure. -/
noncomputable def conductance (na nc : ℕ) (t0 β κ : ℝ) (h : ℝ → ℝ) (mu : ℕ → ℕ → ℝ) (i j : ℕ) : ℝ :=
  (h (t0 + (j + 1) * (β / nc)) ^ 3 / (12 * meanAfter nc (mu i) j * β ^ 2) +
      h (t0 + j * (β / nc)) ^ 3 / (12 * meanBefore (mu i) j * β ^ 2)) * ((1 / na) / (1 / nc)) +
    (κ * h (t0 + (j + 1 / 2) * (β / nc)) ^ 3 / (12 * meanAfter na (fun i => mu i j) i) +
      κ * h (t0 + (j + 1 / 2) * (β / nc)) ^ 3 / (12 * meanBefore (fun i => mu i j) i)) * ((1 / nc) / (1 / na))

/-- What a full cell `j` loses with the journal that drags oil out of it, and with a gap that becomes wider. -/
noncomputable def taken (na nc : ℕ) (t0 β : ℝ) (h h' : ℝ → ℝ) (j : ℕ) : ℝ :=
  h (t0 + (j + 1) * (β / nc)) / (2 * β) * (1 / na) + h' (t0 + (j + 1 / 2) * (β / nc)) * (1 / nc * (1 / na))

/-- What the journal drags into it from a full cell or groove. -/
noncomputable def given (na nc : ℕ) (t0 β : ℝ) (h : ℝ → ℝ) (j : ℕ) : ℝ :=
  h (t0 + j * (β / nc)) / (2 * β) * (1 / na)

end Ross.Spec.Thd
