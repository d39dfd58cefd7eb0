import Verif.Spec.Shape

/-!
# Specification of figures of mode shapes
-/

namespace Ross.Spec

open Polynomial

/-- The lines `X` and `Y` have at `z` the displacements and the slopes that the vector has at node `n`. -/
def FitsAt (nd : ℕ) (v : List ℂ) (n : ℕ) (z : ℝ) (X Y : ℂ[X]) : Prop :=
  v[nd * n]? = some (X.eval (z : ℂ)) ∧ v[nd * n + 1]? = some (Y.eval (z : ℂ)) ∧
  v[nd * n + nd / 2]? = some (-Y.derivative.eval (z : ℂ)) ∧
  v[nd * n + nd / 2 + 1]? = some (X.derivative.eval (z : ℂ))

/-- Between the nodes `n` and `n + 1`, the shaft is bent to the lines `X` and `Y` of degree three: those with the
displacements and slopes of both nodes. -/
def BentTo (nd : ℕ) (v : List ℂ) (pos : List ℝ) (n : ℕ) (X Y : ℂ[X]) : Prop :=
  X.natDegree ≤ 3 ∧ Y.natDegree ≤ 3 ∧ (∀ z, pos[n]? = some z → FitsAt nd v n z X Y) ∧
    ∀ z, pos[n + 1]? = some z → FitsAt nd v (n + 1) z X Y

/-- `(x, y)`, seen in the direction `θ`, is the farthest of the first 180 of the sampled points of an orbit. -/
def Tip (ru rv : ℂ) (x y θ : ℝ) : Prop :=
  ∃ i < 180, x = coord ru (sample i) ∧ y = coord rv (sample i) ∧
    (∀ j < 180, radius ru rv (sample j) ≤ radius ru rv (sample i)) ∧ Direction x y θ

/-- An orbit as it is drawn: 350 of its 360 sampled points. -/
def Drawn (ru rv : ℂ) (x y : List ℝ) : Prop :=
  x.length = 350 ∧ y.length = 350 ∧
    ∀ i < 350, x[i]? = some (coord ru (sample i)) ∧ y[i]? = some (coord rv (sample i))

/-- The mode that a number stands for, when there are `M`: negative numbers count from the end. -/
def ModeNumber (M : ℕ) (i : ℤ) (j : ℕ) : Prop := j < M ∧ (i = j ∨ i = (j : ℤ) - M)

/-- The frequency that is asked for, with its name in titles: damped, undamped, or the speed. -/
def AskedFrequency (kind : String) (wd wn speed : ℝ) (name : String) (w : ℝ) : Prop :=
  kind = "wd" ∧ name = "ω<sub>d</sub>" ∧ w = wd ∨ kind = "wn" ∧ name = "ω<sub>n</sub>" ∧ w = wn ∨
    kind = "speed" ∧ name = "Speed" ∧ w = speed

/-- The damping that is asked for, with its name in titles: the logarithmic decrement, unless it is the damping
ratio. -/
def AskedDamping (kind : String) (ratio dec : ℝ) (name : String) (d : ℝ) : Prop :=
  kind = "damping_ratio" ∧ name = "Damping ratio" ∧ d = ratio ∨
    kind ≠ "damping_ratio" ∧ name = "Log. Dec." ∧ d = dec

end Ross.Spec
