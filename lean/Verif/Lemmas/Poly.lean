import Mathlib.Analysis.SpecialFunctions.Integrals.Basic
import Mathlib.Tactic.Ring
import Mathlib.Tactic.FieldSimp

/-! # Polynomials as coefficient lists: evaluation, derivative, integral -/

namespace Ross.Poly

open intervalIntegral

/-- Evaluate. -/
noncomputable def pe : List ℝ → ℝ → ℝ
  | [], _ => 0
  | a :: p, x => a + x * pe p x

/-- Integral over `[0,1]` of `x^k` times the polynomial. -/
noncomputable def pintk : List ℝ → ℕ → ℝ
  | [], _ => 0
  | a :: p, k => a / (k + 1) + pintk p (k + 1)

/-- Scale. -/
noncomputable def psmul (a : ℝ) : List ℝ → List ℝ
  | [] => []
  | b :: p => a * b :: psmul a p

/-- Add. -/
noncomputable def padd : List ℝ → List ℝ → List ℝ
  | [], q => q
  | p, [] => p
  | a :: p, b :: q => (a + b) :: padd p q

/-- Multiply. -/
noncomputable def pmul : List ℝ → List ℝ → List ℝ
  | [], _ => []
  | a :: p, q => padd (psmul a q) (0 :: pmul p q)

/-- Derivative, starting at degree `k`. -/
noncomputable def pderk : List ℝ → ℕ → List ℝ
  | [], _ => []
  | a :: p, k => (k * a) :: pderk p (k + 1)

/-- Derivative. -/
noncomputable def pder : List ℝ → List ℝ
  | [] => []
  | _ :: p => pderk p 1

theorem pe_psmul (a : ℝ) (p : List ℝ) (x : ℝ) : pe (psmul a p) x = a * pe p x := by
  induction p with
  | nil => simp [psmul, pe]
  | cons b p ih => simp only [psmul, pe, ih]; ring

theorem pe_padd (p q : List ℝ) (x : ℝ) : pe (padd p q) x = pe p x + pe q x := by
  induction p generalizing q with
  | nil => simp [padd, pe]
  | cons a p ih =>
    cases q with
    | nil => simp [padd, pe]
    | cons b q => simp only [padd, pe, ih]; ring

theorem pe_pmul (p q : List ℝ) (x : ℝ) : pe (pmul p q) x = pe p x * pe q x := by
  induction p with
  | nil => simp [pmul, pe]
  | cons a p ih => simp only [pmul, pe_padd, pe_psmul, pe, ih]; ring

@[fun_prop]
theorem continuous_pe (p : List ℝ) : Continuous (pe p) := by
  induction p with
  | nil => simpa [pe] using continuous_const
  | cons a p ih => simp only [pe]; exact continuous_const.add (continuous_id.mul ih)

theorem integral_pow_pe (p : List ℝ) (k : ℕ) :
    ∫ x in (0 : ℝ)..1, x ^ k * pe p x = pintk p k := by
  induction p generalizing k with
  | nil => simp [pe, pintk]
  | cons a p ih =>
    have h : ∀ x : ℝ, x ^ k * pe (a :: p) x = a * x ^ k + x ^ (k + 1) * pe p x := by
      intro x; simp only [pe]; ring
    simp only [h]
    rw [integral_add, ih, pintk, integral_const_mul, integral_pow]
    · simp; ring
    · exact (by fun_prop : Continuous fun x : ℝ => a * x ^ k).intervalIntegrable _ _
    · exact (by fun_prop : Continuous fun x : ℝ => x ^ (k + 1) * pe p x).intervalIntegrable _ _

theorem integral_pe_div (p : List ℝ) (L : ℝ) (hL : L ≠ 0) :
    ∫ x in (0 : ℝ)..L, pe p (x / L) = L * pintk p 0 := by
  rw [integral_comp_div (fun x => pe p x) hL]
  have := integral_pow_pe p 0
  simp only [pow_zero, one_mul] at this
  rw [zero_div, div_self hL, this, smul_eq_mul]

theorem integral_mul_pe_div (c : ℝ) (p : List ℝ) (L : ℝ) (hL : L ≠ 0) :
    ∫ x in (0 : ℝ)..L, c * pe p (x / L) = c * (L * pintk p 0) := by
  rw [integral_const_mul, integral_pe_div _ _ hL]

theorem hasDerivAt_pow_pe (p : List ℝ) (k : ℕ) (x : ℝ) :
    HasDerivAt (fun x => x ^ (k + 1) * pe p x) (x ^ k * pe (pderk p (k + 1)) x) x := by
  induction p generalizing k with
  | nil => simpa [pe, pderk] using hasDerivAt_const x (0 : ℝ)
  | cons a p ih =>
    have h : (fun x : ℝ => x ^ (k + 1) * pe (a :: p) x)
        = fun x => a * x ^ (k + 1) + x ^ (k + 1 + 1) * pe p x := by
      funext x; simp only [pe]; ring
    rw [h]
    have h1 := ((hasDerivAt_pow (k + 1) x).const_mul a).add (ih (k + 1))
    have h2 : x ^ k * pe (pderk (a :: p) (k + 1)) x
        = a * (((k + 1 : ℕ) : ℝ) * x ^ (k + 1 - 1)) + x ^ (k + 1) * pe (pderk p (k + 1 + 1)) x := by
      rw [pderk, pe, Nat.add_sub_cancel]
      ring
    rw [h2]
    exact h1

theorem hasDerivAt_pe (p : List ℝ) (x : ℝ) : HasDerivAt (pe p) (pe (pder p) x) x := by
  cases p with
  | nil => simpa [pe, pder, funext_iff] using hasDerivAt_const x (0 : ℝ)
  | cons a p =>
    have h := (hasDerivAt_pow_pe p 0 x).const_add a
    simp only [pow_zero, one_mul, zero_add, pow_one] at h
    exact h

theorem hasDerivAt_pe_div (p : List ℝ) (L x : ℝ) :
    HasDerivAt (fun x => pe p (x / L)) (pe (pder p) (x / L) / L) x := by
  have h := (hasDerivAt_pe p (x / L)).comp x ((hasDerivAt_id x).div_const L)
  simp only [mul_one_div] at h
  exact h

theorem hasDerivAt_mul_pe_div (c : ℝ) (p : List ℝ) (L x : ℝ) :
    HasDerivAt (fun x => c * pe p (x / L)) (c * (pe (pder p) (x / L) / L)) x :=
  (hasDerivAt_pe_div p L x).const_mul c

end Ross.Poly
