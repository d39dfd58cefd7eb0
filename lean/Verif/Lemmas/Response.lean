import Mathlib.Algebra.BigOperators.Fin
import Verif.Lemmas.Dynamics

/-! # The modal sum of the frequency response -/

namespace Ross.DynamicsLemmas

open Ross Ross.Spec Ross.BearingLemmas Matrix Rotor

variable {N : ℕ}

/-- Eigenvalue `k` of a list of eigenpairs. -/
def evAt (l : List (Pair N)) (k : ℕ) : ℂ := (l.getD k (0, 0)).1

/-- Column `k` of the eigenvectors times row `k` of their inverse. -/
noncomputable def proj (l : List (Pair N)) (k : ℕ) : Matrix (Fin N ⊕ Fin N) (Fin N ⊕ Fin N) ℂ :=
  fun i j => ofIdx (columns l i) k * ofIdx (fun q => (columns l)⁻¹ q j) k

/-- Contribution of eigenpair `k` to the transfer matrix. -/
noncomputable def contrib (s : Lti N) (speed : ℝ) (l : List (Pair N)) (k : ℕ) : Matrix (Fin N) (Fin N) ℂ :=
  (1 / (Complex.I * speed - evAt l k)) • (toC s.C * proj l k * toC s.B)

def selCols (l : List (Pair N)) (idx : List ℕ) : Matrix (Fin N ⊕ Fin N) (Fin idx.length) ℂ :=
  fun i k => ofIdx (columns l i) idx[k]

noncomputable def selRows (l : List (Pair N)) (idx : List ℕ) : Matrix (Fin idx.length) (Fin N ⊕ Fin N) ℂ :=
  fun k j => ofIdx (fun i => (columns l)⁻¹ i j) idx[k]

theorem laInv_ok {n : Type} [Fintype n] [DecidableEq n] {A B : Matrix n n ℂ} :
    laInv A = .ok B ↔ A.det ≠ 0 ∧ B = A⁻¹ := by
  unfold laInv
  by_cases h : A.det = 0
  · simp [h]
  · rw [if_neg h]
    constructor
    · intro e; exact ⟨h, (Except.ok.inj e).symm⟩
    · rintro ⟨-, rfl⟩; rfl

theorem list_fin_sum {α : Type} [AddCommMonoid α] (idx : List ℕ) (f : ℕ → α) :
    ∑ k : Fin idx.length, f idx[k] = (idx.map f).sum := by
  rw [← List.sum_ofFn]
  congr 1
  exact List.ofFn_getElem_eq_map idx f

theorem modalSum_ok {s : Lti N} {ω : ℝ} {l : List (Pair N)} {modes : Option (List ℤ)}
    {H : Matrix (Fin N) (Fin N) ℂ} :
    modalSum s ω l modes = .ok H ↔ l.length = N + N ∧ (columns l).det ≠ 0 ∧
      ∃ idx, modeIdx N modes = .ok idx ∧ H = (idx.map (contrib s ω l)).sum + toC s.D := by
  have key : ∀ idx : List ℕ,
      toC s.C * selCols l idx *
        diagonal (fun k : Fin idx.length => 1 / (Complex.I * ω - (l.getD idx[k] (0, 0)).1)) *
        selRows l idx *
        toC s.B = (idx.map (contrib s ω l)).sum := by
    intro idx
    have e : selCols l idx *
        diagonal (fun k : Fin idx.length => 1 / (Complex.I * ω - (l.getD idx[k] (0, 0)).1)) *
        selRows l idx =
        ∑ k : Fin idx.length, (1 / (Complex.I * ω - evAt l idx[k])) • proj l idx[k] := by
      ext i j
      rw [Matrix.mul_apply, Matrix.sum_apply]
      refine Finset.sum_congr rfl fun k _ => ?_
      rw [Matrix.mul_diagonal, Matrix.smul_apply, smul_eq_mul, proj, evAt, selCols, selRows]
      ring
    rw [Matrix.mul_assoc (toC s.C), Matrix.mul_assoc (toC s.C), e, Matrix.mul_sum, Matrix.sum_mul,
      ← list_fin_sum]
    refine Finset.sum_congr rfl fun k _ => ?_
    rw [contrib, Matrix.mul_smul, Matrix.smul_mul]
  unfold modalSum
  by_cases hl : l.length = N + N
  · rw [if_neg (by simpa using hl)]
    constructor
    · intro h
      obtain ⟨Q, hQ, h⟩ := bind_ok.1 h
      obtain ⟨idx, hi, h⟩ := bind_ok.1 h
      obtain ⟨hd, rfl⟩ := laInv_ok.1 hQ
      refine ⟨hl, hd, idx, hi, ?_⟩
      rw [← key]
      exact (Except.ok.inj h).symm
    · rintro ⟨-, hd, idx, hi, rfl⟩
      refine bind_ok.2 ⟨_, laInv_ok.2 ⟨hd, rfl⟩, bind_ok.2 ⟨idx, hi, ?_⟩⟩
      rw [← key]
      rfl
  · rw [if_pos hl]
    simp [hl]

theorem ofIdx_equiv {α : Type} [Zero α] (f : Fin N ⊕ Fin N → α) (q : Fin N ⊕ Fin N) :
    ofIdx f (finSumFinEquiv q) = f q := by
  unfold ofIdx
  rw [dif_pos (Fin.is_lt _)]
  simp

theorem sum_range_equiv {α : Type} [AddCommMonoid α] (f : ℕ → α) :
    ((List.range (2 * N)).map f).sum = ∑ q : Fin N ⊕ Fin N, f (finSumFinEquiv q) := by
  rw [Equiv.sum_comp finSumFinEquiv (fun k : Fin (N + N) => f k), two_mul, Fin.sum_univ_eq_sum_range f,
    Finset.sum_range]
  rw [← List.sum_ofFn]
  congr 1
  apply List.ext_getElem
  · simp
  · intro i h1 h2; simp

/-- `toC` is `cplx`. -/
theorem toC_eq {m n : Type} (A : Matrix m n ℝ) : toC A = cplx A := rfl

variable {l : List (Pair N)} {A : Matrix (Fin N ⊕ Fin N) (Fin N ⊕ Fin N) ℝ}

theorem getD_mem (hl : l.length = N + N) (q : Fin N ⊕ Fin N) : l.getD (finSumFinEquiv q) (0, 0) ∈ l := by
  have : (finSumFinEquiv q : ℕ) < l.length := by rw [hl]; exact Fin.is_lt _
  rw [List.getD_eq_getElem?_getD, List.getElem?_eq_getElem this]
  exact List.getElem_mem _

theorem mul_columns (hl : l.length = N + N) (hv : ∀ p ∈ l, IsEigen A p.1 p.2) :
    cplx A * columns l = columns l * diagonal fun q : Fin N ⊕ Fin N => evAt l (finSumFinEquiv q) := by
  ext i q
  have := congrFun (hv _ (getD_mem hl q)).2 i
  rw [Matrix.mul_diagonal, Matrix.mul_apply]
  simp only [Pi.smul_apply, smul_eq_mul, mulVec, dotProduct] at this
  rw [mul_comm]
  exact this

/-- The sum of all contributions is `C (s - A)⁻¹ B`. -/
theorem full_sum {s : Lti N} {ω : ℝ} (hl : l.length = N + N) (hd : (columns l).det ≠ 0)
    (hv : ∀ p ∈ l, IsEigen A p.1 p.2) (hne : ∀ p ∈ l, p.1 ≠ Complex.I * ω) :
    ∃ S, ((Complex.I * ω) • (1 : Matrix _ _ ℂ) - cplx A) * S = 1 ∧
      ((List.range (2 * N)).map (contrib s ω l)).sum = toC s.C * S * toC s.B := by
  set P := columns l with hP
  have hu : IsUnit P.det := isUnit_iff_ne_zero.2 hd
  let d : Fin N ⊕ Fin N → ℂ := fun q => 1 / (Complex.I * ω - evAt l (finSumFinEquiv q))
  refine ⟨P * diagonal d * P⁻¹, ?_, ?_⟩
  · have e : ((Complex.I * ω) • (1 : Matrix _ _ ℂ) - cplx A) * P =
        P * diagonal fun q : Fin N ⊕ Fin N => Complex.I * ω - evAt l (finSumFinEquiv q) := by
      rw [sub_mul, mul_columns hl hv, smul_mul_assoc, one_mul, ← diagonal_sub, mul_sub]
      congr 1
      ext i j; simp [mul_comm]
    rw [← Matrix.mul_assoc, ← Matrix.mul_assoc, e, Matrix.mul_assoc P, diagonal_mul_diagonal]
    have : (fun q : Fin N ⊕ Fin N => (Complex.I * ω - evAt l (finSumFinEquiv q)) * d q) = fun _ => 1 := by
      funext q
      have := hne _ (getD_mem hl q)
      exact mul_one_div_cancel (sub_ne_zero.2 (Ne.symm this))
    rw [this, diagonal_one, Matrix.mul_one, Matrix.mul_nonsing_inv _ hu]
  · rw [sum_range_equiv]
    have : P * diagonal d * P⁻¹ = ∑ q : Fin N ⊕ Fin N, d q • proj l (finSumFinEquiv q) := by
      ext i j
      rw [Matrix.mul_apply, Matrix.sum_apply]
      refine Finset.sum_congr rfl fun q _ => ?_
      rw [Matrix.mul_diagonal, Matrix.smul_apply, smul_eq_mul, proj, ofIdx_equiv, ofIdx_equiv]
      ring
    rw [this, Matrix.mul_sum, Matrix.sum_mul]
    refine Finset.sum_congr rfl fun q _ => ?_
    rw [contrib, Matrix.mul_smul, Matrix.smul_mul]

/-- `P` is the projector on the eigenvectors of `A` with the simple eigenvalue `s`. -/
theorem proj_spec (hl : l.length = N + N) (hd : (columns l).det ≠ 0) (hv : ∀ p ∈ l, IsEigen A p.1 p.2)
    (hn : (l.map Prod.fst).Nodup) {k : ℕ} (hk : k < 2 * N) (μ : ℂ) (x : Fin N ⊕ Fin N → ℂ)
    (hx : cplx A *ᵥ x = μ • x) : proj l k *ᵥ x = if μ = evAt l k then x else 0 := by
  set P := columns l with hP
  have hu : IsUnit P.det := isUnit_iff_ne_zero.2 hd
  obtain ⟨q, rfl⟩ : ∃ q : Fin N ⊕ Fin N, k = finSumFinEquiv q :=
    ⟨finSumFinEquiv.symm ⟨k, by omega⟩, by simp⟩
  -- coordinates of `x`
  set y := P⁻¹ *ᵥ x with hy
  have hxy : P *ᵥ y = x := by rw [hy, mulVec_mulVec, Matrix.mul_nonsing_inv _ hu, one_mulVec]
  have hcoord : ∀ q : Fin N ⊕ Fin N, y q ≠ 0 → evAt l (finSumFinEquiv q) = μ := by
    intro q hq
    have e : P *ᵥ ((diagonal fun q : Fin N ⊕ Fin N => evAt l (finSumFinEquiv q)) *ᵥ y) = P *ᵥ (μ • y) := by
      rw [mulVec_mulVec, ← mul_columns hl hv, ← mulVec_mulVec, ← hP, hxy, hx, mulVec_smul, hxy]
    have e2 := congrFun (congrArg (P⁻¹ *ᵥ ·) e) q
    simp only [mulVec_mulVec, Matrix.nonsing_inv_mul _ hu, one_mulVec] at e2
    rw [Matrix.nonsing_inv_mul_cancel_left _ _ hu] at e2
    rw [mulVec_diagonal, Pi.smul_apply, smul_eq_mul] at e2
    exact mul_right_cancel₀ hq e2
  have hinj : ∀ q q' : Fin N ⊕ Fin N, evAt l (finSumFinEquiv q) = evAt l (finSumFinEquiv q') → q = q' := by
    intro q q' h
    have h1 : (finSumFinEquiv q : ℕ) < (l.map Prod.fst).length := by
      rw [List.length_map, hl]; exact Fin.is_lt _
    have h2 : (finSumFinEquiv q' : ℕ) < (l.map Prod.fst).length := by
      rw [List.length_map, hl]; exact Fin.is_lt _
    have := (List.Nodup.getElem_inj_iff hn (hi := h1) (hj := h2)).1 (by
      simp only [List.getElem_map]
      unfold evAt at h
      rw [List.getD_eq_getElem?_getD, List.getD_eq_getElem?_getD, List.getElem?_eq_getElem (by simpa using h1),
        List.getElem?_eq_getElem (by simpa using h2)] at h
      simpa using h)
    exact finSumFinEquiv.injective (Fin.ext this)
  have hproj : proj l (finSumFinEquiv q) *ᵥ x = fun i => P i q * y q := by
    funext i
    simp only [mulVec, dotProduct, proj, ofIdx_equiv, hy]
    rw [Finset.mul_sum]
    exact Finset.sum_congr rfl fun j _ => by rw [hP]; ring
  rw [hproj]
  split_ifs with h
  · rw [← hxy]
    funext i
    rw [mulVec, dotProduct, Finset.sum_eq_single q]
    · intro q' _ hq'
      by_contra hc
      have : y q' ≠ 0 := fun h0 => hc (by rw [h0, mul_zero])
      exact hq' (hinj _ _ ((hcoord q' this).trans h))
    · simp
  · funext i
    have : y q = 0 := by
      by_contra hc
      exact h (hcoord q hc).symm
    simp [this]

theorem eigen_conj {s : ℂ} {x : Fin N ⊕ Fin N → ℂ} (h : cplx A *ᵥ x = s • x) :
    (cplx A *ᵥ fun i => starRingEnd ℂ (x i)) = starRingEnd ℂ s • fun i => starRingEnd ℂ (x i) := by
  funext i
  have := congrArg (starRingEnd ℂ) (congrFun h i)
  simp only [mulVec, dotProduct, map_sum, map_mul, Pi.smul_apply, smul_eq_mul, cplx, map_apply,
    Complex.conj_ofReal] at this ⊢
  exact this

/-- The projector of the conjugate eigenvalue is the conjugate projector. -/
theorem proj_conj (hl : l.length = N + N) (hd : (columns l).det ≠ 0) (hv : ∀ p ∈ l, IsEigen A p.1 p.2)
    (hn : (l.map Prod.fst).Nodup) {k k' : ℕ} (hk : k < 2 * N) (hk' : k' < 2 * N)
    (hc : evAt l k' = starRingEnd ℂ (evAt l k)) : proj l k' = (proj l k).map (starRingEnd ℂ) := by
  have hu : IsUnit (columns l).det := isUnit_iff_ne_zero.2 hd
  have key : proj l k' * columns l = (proj l k).map (starRingEnd ℂ) * columns l := by
    ext i q
    have he := (hv _ (getD_mem hl q)).2
    have h1 := congrFun (proj_spec hl hd hv hn hk' _ _ he) i
    have h2 := congrArg (starRingEnd ℂ) (congrFun (proj_spec hl hd hv hn hk _ _ (eigen_conj he)) i)
    rw [Matrix.mul_apply, Matrix.mul_apply]
    have e1 : ∑ j, proj l k' i j * columns l j q = (proj l k' *ᵥ (l.getD (finSumFinEquiv q) (0, 0)).2) i := rfl
    have e2 : ∑ j, (proj l k).map (starRingEnd ℂ) i j * columns l j q = starRingEnd ℂ ((proj l k *ᵥ fun i =>
        starRingEnd ℂ ((l.getD (finSumFinEquiv q) (0, 0)).2 i)) i) := by
      simp only [mulVec, dotProduct, map_sum, map_mul, Complex.conj_conj, map_apply]
      rfl
    rw [e1, e2, h1, h2, hc]
    by_cases h : (l.getD (finSumFinEquiv q) (0, 0)).1 = starRingEnd ℂ (evAt l k)
    · rw [if_pos h, if_pos (by rw [h, Complex.conj_conj])]
      simp
    · rw [if_neg h, if_neg fun h' => h (by rw [← h', Complex.conj_conj])]
      simp
  have := congrArg (· * (columns l)⁻¹) key
  simpa [Matrix.mul_assoc, Matrix.mul_nonsing_inv _ hu] using this

end Ross.DynamicsLemmas
