import Mathlib.Analysis.SpecialFunctions.Integrals.Basic
import Verif.Spec.FluidFilm

/-!
# The force of a film on the rotor
-/

namespace Ross.Spec.Fluid

open Real

/-- The direction at the angle `t` from the largest gap.  The centre of the rotor is displaced towards `3π/2 + a`, so
that the largest gap is at `π/2 + a`. -/
noncomputable def outward (a t : ℝ) : ℝ × ℝ := (cos (t + π / 2 + a), sin (t + π / 2 + a))

/-- The force on a rotor of radius `R` and length `L` of the pressure `P`, acting on the part of the surface up to the
angle `T`: pressure pushes against the outward direction. -/
noncomputable def filmForce (R L T a : ℝ) (P : ℝ → ℝ → ℝ) : ℝ × ℝ :=
  (-∫ z in (0)..L, ∫ t in (0)..T, P z t * R * (outward a t).1,
   -∫ z in (0)..L, ∫ t in (0)..T, P z t * R * (outward a t).2)

/-- A short bearing whose rotor moves with the velocity `v`: the gap closes at the rate at which the surface moves
outward, and `h³ d²p/dz² = 6 μ (ω dh/dt + 2 dh/dτ)` for the angle `t` and the time `τ`. -/
structure MovingFilm (mu om L a : ℝ) (v : ℝ × ℝ) (h : ℝ → ℝ) (p p1 p2 : ℝ → ℝ → ℝ) (h' : ℝ → ℝ) : Prop where
  first : ∀ z t, HasDerivAt (fun z => p z t) (p1 z t) z
  second : ∀ z t, HasDerivAt (fun z => p1 z t) (p2 z t) z
  thickness : ∀ t, HasDerivAt h (h' t) t
  equation : ∀ z t, h t ^ 3 * p2 z t =
    6 * mu * (om * h' t - 2 * (v.1 * (outward a t).1 + v.2 * (outward a t).2))
  start : ∀ t, p 0 t = 0
  finish : ∀ t, p L t = 0

/-- Weights of a rule of integration: it is linear in the samples, as Simpson's rule is. -/
def RuleOk (simpson : ℕ → (ℕ → ℝ) → (ℕ → ℝ) → ℝ) (w : ℕ → (ℕ → ℝ) → ℕ → ℝ) : Prop :=
  ∀ n y x, simpson n y x = ∑ i ∈ Finset.range n, w n x i * y i

end Ross.Spec.Fluid
