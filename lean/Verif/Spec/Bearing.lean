import Mathlib.Algebra.Polynomial.Degree.Defs
import Mathlib.Algebra.Polynomial.Eval.Defs
import Mathlib.Data.Fin.Tuple.Basic
import Verif.Model.Bearing

/-! # Specification of bearings: interpolation and support matrices -/

namespace Ross.Spec

open Matrix

/-- What is assumed about scipy (its documentation and input checks), for lists of numbers:

* `UnivariateSpline(x, y)` needs as many `x` as `y`, more points than its degree 3 and
  non-decreasing `x`, and accepts strictly increasing `x`; constant data gives a constant.
* `interp1d(x, y, kind=k)` for `k = 1, 2` through exactly `k + 1` distinct abscissae is the polynomial
  of degree at most `k` through the points; unequal lengths raise. -/
structure ScipyContract (sp : Scipy) : Prop where
  spline_length : ∀ f l, f.length ≠ l.length → sp.univariateSpline f l = none
  spline_short : ∀ f l, f.length ≤ 3 → sp.univariateSpline f l = none
  spline_unsorted : ∀ f l, ¬ f.Pairwise (· ≤ ·) → sp.univariateSpline f l = none
  spline_defined : ∀ f l, f.length = l.length → 3 < f.length → f.Pairwise (· < ·) →
    (sp.univariateSpline f l).isSome
  spline_const : ∀ f x g, sp.univariateSpline f (List.replicate f.length x) = some g →
    g = fun _ => x
  interp_length : ∀ k f l, f.length ≠ l.length → sp.interp1d k f l = none
  interp_poly : ∀ k f l, k = 1 ∨ k = 2 → f.length = k + 1 → l.length = k + 1 → f.Nodup →
    ∃ p : Polynomial ℝ, p.natDegree ≤ k ∧ sp.interp1d k f l = some (fun x => p.eval x) ∧
      l = f.map (fun x => p.eval x)

/-- The function of frequency that a coefficient argument denotes. -/
def Denotes (sp : Scipy) (frequency : Option (List ℝ)) : Coef → (ℝ → ℝ) → Prop
  | .scalar x, g => g = fun _ => x
  | .list [x], g => g = fun _ => x
  | .list l, g => ∃ f, frequency = some f ∧ l.length = f.length ∧
      if l.length ≤ 3 then
        ∃ p : Polynomial ℝ, p.natDegree ≤ l.length - 1 ∧ (g = fun x => p.eval x) ∧
          l = f.map (fun x => p.eval x)
      else sp.univariateSpline f l = some g

/-- A coefficient argument has the right length for the frequency argument. -/
def Consistent (frequency : Option (List ℝ)) (c : Coef) : Prop :=
  match frequency, c with
  | none, .scalar _ => True
  | none, .list l => l.length = 1
  | some f, .scalar _ => f ≠ []
  | some f, .list l => f ≠ [] ∧ l.length = f.length

/-- The twelve coefficients of a bearing after applying the documented defaults: the `yy` value
defaults to the `xx` value, the masses default to zero. -/
structure Coefs12 where
  kxx : Coef
  kxy : Coef
  kyx : Coef
  kyy : Coef
  cxx : Coef
  cxy : Coef
  cyx : Coef
  cyy : Coef
  mxx : Coef
  mxy : Coef
  myx : Coef
  myy : Coef

/-- See `Coefs12`. -/
def defaults (a : BearingArgs) : Coefs12 where
  kxx := a.kxx
  kxy := a.kxy
  kyx := a.kyx
  kyy := a.kyy.getD a.kxx
  cxx := a.cxx
  cxy := a.cxy
  cyx := a.cyx
  cyy := a.cyy.getD a.cxx
  mxx := a.mxx.getD (.scalar 0)
  mxy := a.mxy
  myx := a.myx
  myy := a.myy.getD (a.mxx.getD (.scalar 0))

/-- All of them. -/
def Coefs12.toList (c : Coefs12) : List Coef :=
  [c.kxx, c.kyy, c.kxy, c.kyx, c.cxx, c.cyy, c.cxy, c.cyx, c.mxx, c.myy, c.mxy, c.myx]

/-- `r` is the matrix of a support with coefficient matrix `A`: to ground when there is no linked
node; otherwise the force on the first node is `A (u₁ - u₂)` and the second node feels the opposite
force. -/
def IsSupport {k : ℕ} (n_link : Option ℕ) (A : Matrix (Fin k) (Fin k) ℝ) (r : LMat) : Prop :=
  match n_link with
  | none => r = ⟨k, A⟩
  | some _ => ∃ B : Matrix (Fin (k + k)) (Fin (k + k)) ℝ, r = ⟨k + k, B⟩ ∧
      ∀ u₁ u₂ : Fin k → ℝ,
        B *ᵥ Fin.append u₁ u₂ = Fin.append (A *ᵥ (u₁ - u₂)) (-(A *ᵥ (u₁ - u₂)))

/-- The frequencies are usable by the spline: there are none, at most three, or they increase. -/
def Increasing : Option (List ℝ) → Prop
  | none => True
  | some f => f.length ≤ 3 ∨ f.Pairwise (· < ·)

/-- No frequency is repeated. -/
def Distinct : Option (List ℝ) → Prop
  | none => True
  | some f => f.Nodup

end Ross.Spec
