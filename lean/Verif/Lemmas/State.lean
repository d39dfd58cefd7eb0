import Mathlib.LinearAlgebra.Matrix.NonsingularInverse
import Mathlib.LinearAlgebra.Matrix.Block
import Mathlib.Analysis.Complex.Basic
import Verif.Model.Assembly
import Verif.Lemmas.Bearing

/-! # The state matrix -/

namespace Ross.StateLemmas

open Ross Ross.BearingLemmas Matrix

theorem laSolve_ok {N : ℕ} {ι : Type} {A : Matrix (Fin N) (Fin N) ℝ} {B X : Matrix (Fin N) ι ℝ} :
    Rotor.laSolve A B = .ok X ↔ A.det ≠ 0 ∧ A * X = B := by
  unfold Rotor.laSolve
  by_cases h : A.det = 0
  · simp [h]
  · rw [if_neg h]
    have hu : IsUnit A.det := isUnit_iff_ne_zero.2 h
    constructor
    · intro e
      have e := Except.ok.inj e
      subst e
      exact ⟨h, by rw [← Matrix.mul_assoc, Matrix.mul_nonsing_inv _ hu, Matrix.one_mul]⟩
    · rintro ⟨-, rfl⟩
      rw [← Matrix.mul_assoc, Matrix.nonsing_inv_mul _ hu, Matrix.one_mul]

variable {r : Rotor} {Ω : ℝ} {f : Option ℝ} {sync : Bool}

theorem det_neg_ne {N : ℕ} {M : Matrix (Fin N) (Fin N) ℝ} : (-M).det ≠ 0 ↔ M.det ≠ 0 := by
  rw [Matrix.det_neg, mul_ne_zero_iff]
  exact ⟨fun h => h.2, fun h => ⟨pow_ne_zero _ (by norm_num), h⟩⟩

theorem A_ok {A : Matrix (Fin r.ndof ⊕ Fin r.ndof) (Fin r.ndof ⊕ Fin r.ndof) ℝ} :
    r.A Ω f sync = .ok A ↔ ∃ M K C G, r.M (some (f.getD Ω)) sync = .ok M ∧ r.K (f.getD Ω) = .ok K ∧
      r.C (f.getD Ω) = .ok C ∧ r.G = .ok G ∧ M.det ≠ 0 ∧
      ∃ X Y, M * X = -K ∧ M * Y = -(C + Ω • G) ∧ A = fromBlocks 0 1 X Y := by
  unfold Rotor.A
  constructor
  · intro h
    obtain ⟨M, hM, h⟩ := bind_ok.1 h
    obtain ⟨K, hK, h⟩ := bind_ok.1 h
    obtain ⟨X, hX, h⟩ := bind_ok.1 h
    obtain ⟨C, hC, h⟩ := bind_ok.1 h
    obtain ⟨G, hG, h⟩ := bind_ok.1 h
    obtain ⟨Y, hY, h⟩ := bind_ok.1 h
    rw [laSolve_ok] at hX hY
    refine ⟨M, K, C, G, hM, hK, hC, hG, det_neg_ne.1 hX.1, X, Y, ?_, ?_, (Except.ok.inj h).symm⟩
    · rw [← hX.2]; simp
    · rw [← hY.2]; simp
  · rintro ⟨M, K, C, G, hM, hK, hC, hG, hd, X, Y, hX, hY, rfl⟩
    refine bind_ok.2 ⟨M, hM, bind_ok.2 ⟨K, hK, bind_ok.2 ⟨X, laSolve_ok.2 ⟨det_neg_ne.2 hd, ?_⟩,
      bind_ok.2 ⟨C, hC, bind_ok.2 ⟨G, hG, bind_ok.2 ⟨Y, laSolve_ok.2 ⟨det_neg_ne.2 hd, ?_⟩, rfl⟩⟩⟩⟩⟩⟩
    · simp [hX]
    · simp [hY]

theorem mulVec_inj {N : ℕ} {R : Type} [Field R] {M : Matrix (Fin N) (Fin N) R} (hd : M.det ≠ 0)
    {a b : Fin N → R} (h : M *ᵥ a = M *ᵥ b) : a = b := by
  have := congrArg (M⁻¹ *ᵥ ·) h
  simpa [Matrix.mulVec_mulVec, Matrix.nonsing_inv_mul _ (isUnit_iff_ne_zero.2 hd)] using this

/-- One row block of the state equation. -/
theorem block_row {N : ℕ} {R : Type} [Field R] {M K D X Y : Matrix (Fin N) (Fin N) R}
    (hd : M.det ≠ 0) (hX : M * X = -K) (hY : M * Y = -D) (q v q' v' : Fin N → R) :
    fromBlocks 0 1 X Y *ᵥ Sum.elim q v = Sum.elim q' v' ↔
      q' = v ∧ M *ᵥ v' + D *ᵥ v + K *ᵥ q = 0 := by
  rw [fromBlocks_mulVec]
  have e : (Sum.elim ((0 : Matrix (Fin N) (Fin N) R) *ᵥ (Sum.elim q v ∘ Sum.inl) +
      (1 : Matrix (Fin N) (Fin N) R) *ᵥ (Sum.elim q v ∘ Sum.inr))
      (X *ᵥ (Sum.elim q v ∘ Sum.inl) + Y *ᵥ (Sum.elim q v ∘ Sum.inr))) =
      Sum.elim v (X *ᵥ q + Y *ᵥ v) := by simp
  rw [e, Sum.elim_eq_iff]
  have e2 : M *ᵥ (X *ᵥ q + Y *ᵥ v) = -(K *ᵥ q) - D *ᵥ v := by
    rw [mulVec_add, mulVec_mulVec, mulVec_mulVec, hX, hY, neg_mulVec, neg_mulVec]; abel
  constructor
  · rintro ⟨rfl, rfl⟩
    refine ⟨rfl, ?_⟩
    rw [e2]; abel
  · rintro ⟨rfl, h⟩
    refine ⟨rfl, mulVec_inj hd ?_⟩
    rw [e2]
    rw [← sub_eq_zero, ← neg_eq_zero, ← h]; abel

end Ross.StateLemmas
