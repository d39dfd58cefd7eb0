import Mathlib.Analysis.Matrix.Order
import Mathlib.Analysis.Matrix.Spectrum
import Mathlib.LinearAlgebra.Dimension.Constructions
import Mathlib.LinearAlgebra.FiniteDimensional.Lemmas
import Verif.Lemmas.Response

/-! # Matrices that are skew-symmetric in an energy inner product are diagonalisable -/

namespace Ross.DynamicsLemmas

open Ross Ross.Spec Matrix Rotor
open scoped MatrixOrder ComplexOrder

theorem skew_diag {n : Type} [Fintype n] [DecidableEq n] {A E : Matrix n n ℂ} (hE : E.PosDef)
    (hs : (E * A)ᴴ = -(E * A)) :
    ∃ (P : Matrix n n ℂ) (d : n → ℝ), P.det ≠ 0 ∧ A * P = P * diagonal fun k => Complex.I * (d k : ℂ) := by
  obtain ⟨B, hB⟩ := CStarAlgebra.nonneg_iff_eq_star_mul_self.mp hE.posSemidef.nonneg
  rw [star_eq_conjTranspose] at hB
  have hEd : E.det ≠ 0 := (hE.posSemidef.posDef_iff_det_ne_zero).1 hE
  have hBd : B.det ≠ 0 := by
    intro h0
    rw [hB, det_mul, h0, mul_zero] at hEd
    exact hEd rfl
  have hu : IsUnit B.det := isUnit_iff_ne_zero.2 hBd
  have hu' : IsUnit Bᴴ.det := by rw [det_conjTranspose]; exact hu.star
  set T := Complex.I • (B * A * B⁻¹) with hT
  have hTh : T.IsHermitian := by
    unfold Matrix.IsHermitian
    have e : Bᴴ⁻¹ * (Aᴴ * (Bᴴ * B)) * B⁻¹ = -(B * A * B⁻¹) := by
      have e1 : Aᴴ * (Bᴴ * B) = -(Bᴴ * (B * A)) := by
        have := hs
        rw [hB, conjTranspose_mul, conjTranspose_mul, conjTranspose_conjTranspose] at this
        rw [this, Matrix.mul_assoc]
      rw [e1, Matrix.mul_neg, ← Matrix.mul_assoc Bᴴ⁻¹, Matrix.nonsing_inv_mul _ hu', Matrix.one_mul, Matrix.neg_mul]
    have e2 : Bᴴ⁻¹ * (Aᴴ * (Bᴴ * B)) * B⁻¹ = Bᴴ⁻¹ * (Aᴴ * Bᴴ) := by
      rw [← Matrix.mul_assoc Aᴴ, ← Matrix.mul_assoc Bᴴ⁻¹, Matrix.mul_assoc _ B, Matrix.mul_nonsing_inv _ hu,
        Matrix.mul_one]
    rw [hT, conjTranspose_smul, conjTranspose_mul, conjTranspose_mul, conjTranspose_nonsing_inv, ← e2, e]
    simp
  set U : Matrix n n ℂ := (hTh.eigenvectorUnitary : Matrix n n ℂ) with hU
  have hTU : T * U = U * diagonal fun k => (hTh.eigenvalues k : ℂ) := by
    ext i j
    have := congrFun (hTh.mulVec_eigenvectorBasis j) i
    rw [Matrix.mul_diagonal]
    simp only [mulVec, dotProduct, Pi.smul_apply, Complex.real_smul] at this
    rw [Matrix.mul_apply, mul_comm]
    exact this
  have hUd : U.det ≠ 0 := by
    intro h0
    have h1 : star U * U = 1 := Unitary.coe_star_mul_self hTh.eigenvectorUnitary
    have := congrArg det h1
    rw [det_mul, h0, mul_zero, det_one] at this
    exact zero_ne_one this
  refine ⟨B⁻¹ * U, fun k => -hTh.eigenvalues k, ?_, ?_⟩
  · rw [det_mul]
    refine mul_ne_zero ?_ hUd
    rw [det_nonsing_inv]
    simpa using hBd
  · have hA : A * B⁻¹ = -(Complex.I • (B⁻¹ * T)) := by
      rw [hT, Matrix.mul_smul, smul_smul, Complex.I_mul_I, ← Matrix.mul_assoc, ← Matrix.mul_assoc,
        Matrix.nonsing_inv_mul _ hu, Matrix.one_mul]
      simp
    rw [← Matrix.mul_assoc, hA, Matrix.neg_mul, Matrix.smul_mul, Matrix.mul_assoc, hTU, ← Matrix.mul_assoc]
    ext i j
    simp only [Matrix.neg_apply, Matrix.smul_apply, Matrix.mul_diagonal, smul_eq_mul]
    push_cast
    ring

variable {N : ℕ}

/-- The eigenvectors are independent exactly if they span everything. -/
theorem columns_det_iff {l : List (Pair N)} (hl : l.length = N + N) :
    (columns l).det ≠ 0 ↔ Submodule.span ℂ {x | ∃ p ∈ l, p.2 = x} = ⊤ := by
  have hr : Set.range (columns l).col = {x | ∃ p ∈ l, p.2 = x} := by
    ext x
    constructor
    · rintro ⟨q, rfl⟩
      exact ⟨_, getD_mem hl q, rfl⟩
    · rintro ⟨p, hp, rfl⟩
      obtain ⟨k, hk, rfl⟩ := List.getElem_of_mem hp
      refine ⟨finSumFinEquiv.symm ⟨k, by omega⟩, ?_⟩
      funext i
      simp [columns, List.getD_eq_getElem?_getD, List.getElem?_eq_getElem hk]
  rw [← isUnit_iff_ne_zero, ← Matrix.isUnit_iff_isUnit_det, ← Matrix.linearIndependent_cols_iff_isUnit, ← hr]
  have hc : Fintype.card (Fin N ⊕ Fin N) = Module.finrank ℂ (Fin N ⊕ Fin N → ℂ) := by simp
  constructor
  · intro h
    exact h.span_eq_top_of_card_eq_finrank' hc
  · intro h
    exact linearIndependent_of_top_le_span_of_card_eq_finrank h.ge hc

/-- The columns of a diagonalising matrix as a list of eigenpairs. -/
theorem eig_of_diag {A : Matrix (Fin N ⊕ Fin N) (Fin N ⊕ Fin N) ℝ} {P : Matrix (Fin N ⊕ Fin N) (Fin N ⊕ Fin N) ℂ}
    {d : Fin N ⊕ Fin N → ℂ} (hP : P.det ≠ 0) (h : cplx A * P = P * diagonal d) :
    ∃ l : List (Pair N), EigOk A l ∧ (columns l).det ≠ 0 ∧ ∀ p ∈ l, ∃ k, p.1 = d k := by
  have hu : IsUnit P.det := isUnit_iff_ne_zero.2 hP
  let l : List (Pair N) := List.ofFn fun k : Fin (N + N) =>
    (d (finSumFinEquiv.symm k), fun i => P i (finSumFinEquiv.symm k))
  have hlen : l.length = N + N := by simp [l]
  have hcol : columns l = P := by
    ext i q
    have hq : (finSumFinEquiv q : ℕ) < l.length := by rw [hlen]; exact Fin.is_lt _
    rw [columns, List.getD_eq_getElem?_getD, List.getElem?_eq_getElem hq, Option.getD_some]
    simp [l]
  have hroots : (cplx A).charpoly.roots = Finset.univ.val.map d := by
    have e : cplx A = P * diagonal d * P⁻¹ := by
      rw [← h, Matrix.mul_assoc, Matrix.mul_nonsing_inv _ hu, Matrix.mul_one]
    have e2 : (cplx A).charpoly = (diagonal d).charpoly := by
      rw [e, Matrix.charpoly_mul_comm, ← Matrix.mul_assoc, Matrix.nonsing_inv_mul _ hu, Matrix.one_mul]
    rw [e2, charpoly_diagonal, Polynomial.roots_prod]
    · simp
    · exact Finset.prod_ne_zero_iff.2 fun k _ => Polynomial.X_sub_C_ne_zero _
  refine ⟨l, ⟨?_, ?_⟩, by rw [hcol]; exact hP, ?_⟩
  · rw [hroots]
    have e1 : l.map Prod.fst = List.ofFn fun k : Fin (N + N) => d (finSumFinEquiv.symm k) := by
      simp [l, List.map_ofFn, Function.comp_def]
    rw [e1, List.ofFn_eq_map, ← Multiset.map_coe]
    have e2 : ((List.finRange (N + N) : List (Fin (N + N))) : Multiset (Fin (N + N))) = Finset.univ.val := rfl
    rw [e2]
    have e3 : (Finset.univ : Finset (Fin N ⊕ Fin N)) = Finset.univ.map finSumFinEquiv.symm.toEmbedding :=
      (Finset.map_univ_equiv _).symm
    rw [e3, Finset.map_val, Multiset.map_map]
    rfl
  · intro p hp
    obtain ⟨k, rfl⟩ := List.mem_ofFn.1 hp
    set q := finSumFinEquiv.symm k with hq
    refine ⟨fun h0 => hP ?_, ?_⟩
    · exact Matrix.det_eq_zero_of_column_eq_zero q fun i => congrFun h0 i
    · funext i
      have := congrFun (congrFun h i) q
      rw [Matrix.mul_diagonal, Matrix.mul_apply] at this
      simp only [mulVec, dotProduct, Pi.smul_apply, smul_eq_mul]
      rw [this, mul_comm]
  · intro p hp
    obtain ⟨k, rfl⟩ := List.mem_ofFn.1 hp
    exact ⟨_, rfl⟩

/-- A complete list of independent eigenvectors is what `eig` returns. -/
theorem eigOk_of {A : Matrix (Fin N ⊕ Fin N) (Fin N ⊕ Fin N) ℝ} {l : List (Pair N)} (hl : l.length = N + N)
    (hv : ∀ p ∈ l, IsEigen A p.1 p.2) (hd : (columns l).det ≠ 0) : EigOk A l := by
  refine ⟨?_, hv⟩
  have h := mul_columns hl hv
  set d : Fin N ⊕ Fin N → ℂ := fun q => evAt l (finSumFinEquiv q) with hdd
  have hu : IsUnit (columns l).det := isUnit_iff_ne_zero.2 hd
  have e : cplx A = columns l * diagonal d * (columns l)⁻¹ := by
    rw [← h, Matrix.mul_assoc, Matrix.mul_nonsing_inv _ hu, Matrix.mul_one]
  have e2 : (cplx A).charpoly = (diagonal d).charpoly := by
    rw [e, Matrix.charpoly_mul_comm, ← Matrix.mul_assoc, Matrix.nonsing_inv_mul _ hu, Matrix.one_mul]
  have hroots : (cplx A).charpoly.roots = Finset.univ.val.map d := by
    rw [e2, charpoly_diagonal, Polynomial.roots_prod]
    · simp
    · exact Finset.prod_ne_zero_iff.2 fun k _ => Polynomial.X_sub_C_ne_zero _
  rw [hroots]
  have e1 : l.map Prod.fst = List.ofFn fun k : Fin (N + N) => d (finSumFinEquiv.symm k) := by
    apply List.ext_getElem
    · simp [hl]
    · intro i h1 h2
      have h3 : i < l.length := by simpa using h1
      simp [hdd, evAt, List.getD_eq_getElem?_getD, List.getElem?_eq_getElem h3]
  rw [e1, List.ofFn_eq_map, ← Multiset.map_coe]
  have e2 : ((List.finRange (N + N) : List (Fin (N + N))) : Multiset (Fin (N + N))) = Finset.univ.val := rfl
  rw [e2]
  have e3 : (Finset.univ : Finset (Fin N ⊕ Fin N)) = Finset.univ.map finSumFinEquiv.symm.toEmbedding :=
    (Finset.map_univ_equiv _).symm
  rw [e3, Finset.map_val, Multiset.map_map]
  rfl

end Ross.DynamicsLemmas
