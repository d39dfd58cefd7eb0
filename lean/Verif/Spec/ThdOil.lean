import Verif.Spec.Thd

/-!
# Conservation of mass in a film that is not full of oil
-/

namespace Ross.Spec.Thd

/-- Flow of oil around the axis, through a face with the thickness `h`: the journal drags along what comes out of the cell
before the face, of which the part `θ` is oil, and the pressure drives the rest. -/
noncomputable def oilAround (β θ h mu s : ℝ) : ℝ := θ * (h / (2 * β)) - h ^ 3 / (12 * mu * β ^ 2) * s

/-- The part that is oil in the cell before `j`; before the first one it is that in the groove. -/
def oilBefore (θ0 : ℝ) (θ : ℕ → ℝ) (j : ℕ) : ℝ := if j = 0 then θ0 else θ (j - 1)

/-- What flows out of a cell of a pad as in `padExcess`, and by how much its oil becomes more, when the part `θ i j` of the
film is oil, and the part `θ0` in the groove before the pad. -/
noncomputable def oilExcess (na nc : ℕ) (t0 β κ : ℝ) (h h' : ℝ → ℝ) (θ0 : ℝ) (θ mu P : ℕ → ℕ → ℝ) (i j : ℕ) : ℝ :=
  (oilAround β (θ i j) (h (t0 + (j + 1) * (β / nc))) (meanAfter nc (mu i) j) (slopeAfter nc (1 / nc) (P i) j) -
      oilAround β (oilBefore θ0 (θ i) j) (h (t0 + j * (β / nc))) (meanBefore (mu i) j)
        (slopeBefore (1 / nc) (P i) j)) * (1 / na) +
    (along κ (h (t0 + (j + 1 / 2) * (β / nc))) (meanAfter na (fun i => mu i j) i)
        (slopeAfter na (1 / na) (fun i => P i j) i) -
      along κ (h (t0 + (j + 1 / 2) * (β / nc))) (meanBefore (fun i => mu i j) i)
        (slopeBefore (1 / na) (fun i => P i j) i)) * (1 / nc) +
    θ i j * h' (t0 + (j + 1 / 2) * (β / nc)) * (1 / nc * (1 / na))

end Ross.Spec.Thd
