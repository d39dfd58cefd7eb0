import Mathlib.LinearAlgebra.Eigenspace.Basic
import Mathlib.LinearAlgebra.Matrix.NonsingularInverse
import Verif.Props.Response

/-! # C25: selecting modes in the frequency response -/

namespace Ross.Props

open Ross Ross.Spec Ross.BearingLemmas Ross.DynamicsLemmas Ross.StateLemmas Matrix Rotor

variable {r : Rotor} {la : Lapack} {ω : ℝ} {N : ℕ}

/-- Eigenvectors of distinct eigenvalues form an invertible matrix. -/
theorem columns_det {l : List (Pair N)} {A : Matrix (Fin N ⊕ Fin N) (Fin N ⊕ Fin N) ℝ}
    (hl : l.length = N + N) (hv : ∀ p ∈ l, IsEigen A p.1 p.2) (hn : (l.map Prod.fst).Nodup) :
    (columns l).det ≠ 0 := by
  rw [← isUnit_iff_ne_zero, ← Matrix.isUnit_iff_isUnit_det, ← Matrix.linearIndependent_cols_iff_isUnit]
  refine Module.End.eigenvectors_linearIndependent' (toLin' (cplx A))
    (fun q : Fin N ⊕ Fin N => evAt l (finSumFinEquiv q)) ?_ _ fun q => ?_
  · intro q q' h
    have h1 : (finSumFinEquiv q : ℕ) < (l.map Prod.fst).length := by
      rw [List.length_map, hl]; exact Fin.is_lt _
    have h2 : (finSumFinEquiv q' : ℕ) < (l.map Prod.fst).length := by
      rw [List.length_map, hl]; exact Fin.is_lt _
    have := (List.Nodup.getElem_inj_iff hn (hi := h1) (hj := h2)).1 (by
      simp only [List.getElem_map]
      simp only [evAt] at h
      rw [List.getD_eq_getElem?_getD, List.getD_eq_getElem?_getD, List.getElem?_eq_getElem (by simpa using h1),
        List.getElem?_eq_getElem (by simpa using h2)] at h
      simpa using h)
    exact finSumFinEquiv.injective (Fin.ext this)
  · have := hv _ (getD_mem hl q)
    refine ⟨?_, fun h0 => this.1 ?_⟩
    · rw [Module.End.mem_eigenspace_iff, toLin'_apply]
      exact this.2
    · exact h0

theorem modeIdx_some {sel : List ℕ} (h0 : sel ≠ []) (hm : sel.length ≤ 2 * N) (hs : ∀ k ∈ sel, k < 2 * N) :
    modeIdx N (some (sel.map Int.ofNat)) =
      .ok (sel ++ (List.range (2 * N)).drop (2 * N - sel.length)) := by
  have h1 : (sel.map Int.ofNat).mapM (wrap (2 * N)) = .ok sel := by
    rw [mapM_ok_iff, List.map_map]
    refine List.map_congr_left fun k hk => ?_
    have := hs k hk
    simp only [Function.comp_apply, wrap]
    rw [if_pos ⟨by simp, by simp only [Int.ofNat_eq_natCast]; push_cast; omega⟩]
    rfl
  unfold modeIdx
  have h2 : ¬ ((sel.map Int.ofNat).length = 0 ∨ 2 * N < (sel.map Int.ofNat).length) := by
    rw [List.length_map, List.length_eq_zero_iff]
    push Not
    exact ⟨h0, hm⟩
  simp only [if_neg h2, h1, bind, Except.bind]
  rw [List.length_map]

theorem sum_list_range {α : Type} [AddCommMonoid α] (f : ℕ → α) (m : ℕ) :
    ((List.range m).map f).sum = ∑ k ∈ Finset.range m, f k := by
  induction m with
  | zero => simp
  | succ m ih => rw [List.range_succ, Finset.sum_range_succ, ← ih]; simp

theorem sum_drop {α : Type} [AddCommMonoid α] (f : ℕ → α) {m n : ℕ} (h : m ≤ n) :
    (((List.range n).drop (n - m)).map f).sum = ∑ k ∈ Finset.range m, f (n - 1 - k) := by
  rw [List.range_eq_range', List.drop_range', List.range'_eq_map_range, List.map_map, sum_list_range]
  have e : n - (n - m) = m := by omega
  rw [e, ← Finset.sum_range_reflect]
  refine Finset.sum_congr rfl fun k hk => ?_
  have := Finset.mem_range.1 hk
  simp only [Function.comp_apply]
  congr 1
  omega

/-- The modes of a rotor in the order of `run_modal`: eigenvalues `s k` with ascending imaginary parts which
together with their conjugates are all eigenvalues, and their spectral projectors. -/
structure SortedModes {N : ℕ} (A : Matrix (Fin N ⊕ Fin N) (Fin N ⊕ Fin N) ℝ) (s : ℕ → ℂ)
    (P : ℕ → Matrix (Fin N ⊕ Fin N) (Fin N ⊕ Fin N) ℂ) : Prop where
  all : (((List.range N).map s ++ (List.range N).map fun k => starRingEnd ℂ (s k) : List ℂ) : Multiset ℂ) =
    (cplx A).charpoly.roots
  pos : ∀ k < N, 0 < (caround10 (s k)).im
  ascending : ∀ j k, j < k → k < N → (caround10 (s j)).im < (caround10 (s k)).im
  projector : ∀ k < N, IsProjector A (s k) (P k)

/-- The residue in the displacements of the mode with projector `P`. -/
noncomputable def residue {N : ℕ} (M : Matrix (Fin N) (Fin N) ℝ) (P : Matrix (Fin N ⊕ Fin N) (Fin N ⊕ Fin N) ℂ) :
    Matrix (Fin N) (Fin N) ℂ := P.toBlocks₁₂ * cplx M⁻¹

theorem evAt_sorted {l m : List (Pair N)} {idx : List ℕ} (hm : m = idx.map fun i => l.getD i (0, 0))
    {k : ℕ} (hk : k < idx.length) : evAt m k = (l.map Prod.fst).getD (idx.getD k 0) 0 := by
  subst hm
  unfold evAt
  rw [List.getD_eq_getElem?_getD, List.getElem?_map, List.getElem?_eq_getElem hk,
    List.getD_eq_getElem?_getD (l := idx), List.getElem?_eq_getElem hk]
  simp only [Option.map_some, Option.getD_some]
  rw [List.getD_eq_getElem?_getD, List.getD_eq_getElem?_getD, List.getElem?_map]
  cases l[idx[k]]? <;> rfl

/-- What `transfer_matrix` works with when the eigenvalues have distinct imaginary parts. -/
theorem modes_setup (hla : LapackOk la)
    {A : Matrix (Fin r.ndof ⊕ Fin r.ndof) (Fin r.ndof ⊕ Fin r.ndof) ℝ} (hA : r.A ω = .ok A)
    {M : Matrix (Fin r.ndof) (Fin r.ndof) ℝ} (hM : r.M (some ω) = .ok M)
    (hd : ((la.eig A).map fun p => (caround10 p.1).im).Nodup) (hN : 0 < r.ndof) :
    ∃ s l, r.lti ω = .ok s ∧ r.eigen la ω 12 none true false = .ok l ∧ l.length = r.ndof + r.ndof ∧
      (columns l).det ≠ 0 ∧ toC s.D = 0 ∧
      (∀ k, toC s.C * proj l k * toC s.B = residue M (proj l k)) ∧
      SortedModes A (evAt l) (proj l) ∧
      ∀ k < r.ndof, evAt l (2 * r.ndof - 1 - k) = starRingEnd ℂ (evAt l k) ∧
        proj l (2 * r.ndof - 1 - k) = (proj l k).map (starRingEnd ℂ) := by
  obtain ⟨hc, hlen⟩ := eig_conj (hla.eig A)
  obtain ⟨s, hs⟩ := lti_exists hA
  obtain ⟨M', K, C, B2, hM', -, -, hA', hB2, hB, hCm, hD⟩ := lti_ok hs
  rw [hM] at hM'; cases hM'
  rw [hA] at hA'; 
  have hsA : A = s.A := by injection hA'
  have hne : la.eig A ≠ [] := by intro h; rw [h] at hlen; simp at hlen; omega
  obtain ⟨idx, hidx, hperm, hb, -⟩ := C36_index (l := (la.eig A).map Prod.fst) (n := r.ndof) (by simpa using hlen)
  have hsort : sorted (la.eig A) = .ok (idx.map fun i => (la.eig A).getD i (0, 0)) := by
    unfold sorted
    rw [hidx]
    simp only [bind, Except.bind]
    rw [if_neg hne]
  set l := idx.map fun i => (la.eig A).getD i (0, 0) with hl
  have hpl := (sorted_ok hsort).1
  have hll : l.length = r.ndof + r.ndof := by rw [hpl.length_eq, hlen]; omega
  have hil : idx.length = r.ndof + r.ndof := by rw [← hll, hl, List.length_map]
  have hv : ∀ p ∈ l, IsEigen A p.1 p.2 := fun p hp => (hla.eig A).vectors p (hpl.mem_iff.1 hp)
  have hn : (l.map Prod.fst).Nodup := by
    rw [(hpl.map Prod.fst).nodup_iff]
    have : ((la.eig A).map fun p => (caround10 p.1).im) = ((la.eig A).map Prod.fst).map fun z => (caround10 z).im := by
      rw [List.map_map]; rfl
    rw [this] at hd
    exact hd.of_map _
  have hdet := columns_det hll hv hn
  have hd' : (((la.eig A).map Prod.fst).map fun z => (caround10 z).im).Nodup := by
    rw [List.map_map]; exact hd
  have hev : ∀ k < 2 * r.ndof, evAt l k = ((la.eig A).map Prod.fst).getD (idx.getD k 0) 0 :=
    fun k hk => evAt_sorted hl (by omega)
  have hconj : ∀ k < r.ndof, evAt l (2 * r.ndof - 1 - k) = starRingEnd ℂ (evAt l k) := by
    intro k hk
    rw [hev _ (by omega), hev _ (by omega)]
    exact C36_distinct (by simpa using hlen) hc hd' hidx hk
  have hmap : l.map Prod.fst = (List.range (2 * r.ndof)).map (evAt l) := by
    apply List.ext_getElem
    · simp [hll]; omega
    · intro i h1 h2
      have : i < l.length := by simpa using h1
      simp [evAt, List.getD_eq_getElem?_getD, List.getElem?_eq_getElem this]
  have hinj : ∀ j k, j < 2 * r.ndof → k < 2 * r.ndof → (caround10 (evAt l j)).im = (caround10 (evAt l k)).im →
      j = k := by
    intro j k hj hk he
    have h2 : (l.map fun p => (caround10 p.1).im).Nodup := (hpl.map _).nodup_iff.2 hd
    have h3 : (l.map fun p => (caround10 p.1).im) = (List.range (2 * r.ndof)).map fun k => (caround10 (evAt l k)).im := by
      have e1 : (l.map fun p => (caround10 p.1).im) = (l.map Prod.fst).map fun z => (caround10 z).im := by
        rw [List.map_map (l := l)]; rfl
      rw [e1, hmap, List.map_map]; rfl
    rw [h3] at h2
    exact (List.inj_on_of_nodup_map h2) (List.mem_range.2 hj) (List.mem_range.2 hk) he
  refine ⟨s, l, hs, ?_, hll, hdet, by rw [hD]; ext i j; simp [toC], fun k => ?_, ⟨?_, ?_, ?_, ?_⟩, fun k hk => ⟨hconj k hk, ?_⟩⟩
  · unfold eigen
    simp only [hA, bind, Except.bind, Bool.false_eq_true, if_false, if_true]
    exact hsort
  · rw [hB, hCm, residue]
    have hB2' : M⁻¹ = B2 := Matrix.inv_eq_right_inv hB2
    rw [hB2']
    have e1 : toC (fromCols (1 : Matrix (Fin r.ndof) (Fin r.ndof) ℝ) (0 : Matrix (Fin r.ndof) (Fin r.ndof) ℝ)) =
        fromCols 1 0 := by
      ext i (j | j) <;> simp [toC, Matrix.one_apply, apply_ite]
    have e2 : toC (fromRows (0 : Matrix (Fin r.ndof) (Fin r.ndof) ℝ) B2) = fromRows 0 (cplx B2) := by
      ext (i | i) j <;> simp [toC, cplx]
    rw [e1, e2]
    conv_lhs => rw [← fromBlocks_toBlocks (proj l k)]
    rw [fromCols_mul_fromBlocks, fromCols_mul_fromRows]
    simp
  · rw [← (hla.eig A).values, Multiset.coe_eq_coe]
    refine List.Perm.trans ?_ (hpl.map Prod.fst)
    rw [hmap]
    have e : List.range (2 * r.ndof) = List.range r.ndof ++ (List.range' r.ndof r.ndof) := by
      rw [two_mul, List.range_eq_range', List.range_eq_range', ← List.range'_append_1]; simp
    rw [e, List.map_append]
    refine List.Perm.append_left _ ?_
    have e2 : (List.range r.ndof).map (fun k => starRingEnd ℂ (evAt l k)) =
        ((List.range' r.ndof r.ndof).map (evAt l)).reverse := by
      apply List.ext_getElem
      · simp
      · intro i h1 h2
        simp only [List.length_map, List.length_range] at h1
        rw [List.getElem_reverse]
        simp only [List.getElem_map, List.getElem_range, List.getElem_range', List.length_map, List.length_range']
        rw [← hconj i h1]
        congr 1
        omega
    rw [e2]
    exact List.reverse_perm _
  · intro k hk
    have h1 := C36_conj (by simpa using hlen) hc hidx hk
    rw [← hev _ (by omega), ← hev _ (by omega)] at h1
    refine lt_of_le_of_ne h1.1 fun h0 => ?_
    have := hinj k (2 * r.ndof - 1 - k) (by omega) (by omega) (by rw [h1.2, ← h0, neg_zero])
    omega
  · intro j k hjk hk
    have := hb j k hjk (.inl hk)
    rw [← hev _ (by omega), ← hev _ (by omega)] at this
    refine lt_of_le_of_ne ?_ fun h0 => absurd (hinj _ _ (by omega) (by omega) h0) (by omega)
    rcases this with h | h
    · exact h.le
    · exact h.1.le
  · intro k hk μ x hx
    have := proj_spec hll hdet hv hn (k := k) (by omega) μ x hx
    exact ⟨fun h => by rw [this, if_pos h], fun h => by rw [this, if_neg h]⟩
  · exact proj_conj hll hdet hv hn (by omega) (by omega) (hconj k hk)

theorem residue_conj {M : Matrix (Fin N) (Fin N) ℝ} {P : Matrix (Fin N ⊕ Fin N) (Fin N ⊕ Fin N) ℂ} :
    residue M (P.map (starRingEnd ℂ)) = (residue M P).map (starRingEnd ℂ) := by
  ext i j
  simp [residue, Matrix.mul_apply, toBlocks₁₂, cplx]

/-- **C25** What a selection of modes computes when the imaginary parts of the eigenvalues are distinct: the selected
modes, and the conjugates not of these but of the first modes, as many. -/
theorem C25_selected (hla : LapackOk la)
    {A : Matrix (Fin r.ndof ⊕ Fin r.ndof) (Fin r.ndof ⊕ Fin r.ndof) ℝ} (hA : r.A ω = .ok A)
    {M : Matrix (Fin r.ndof) (Fin r.ndof) ℝ} (hM : r.M (some ω) = .ok M)
    (hd : ((la.eig A).map fun p => (caround10 p.1).im).Nodup) (hN : 0 < r.ndof) :
    ∃ s P, SortedModes A s P ∧
      (∀ sel : List ℕ, sel ≠ [] → sel.length ≤ r.ndof → (∀ k ∈ sel, k < r.ndof) →
        r.transfer_matrix la ω none (some (sel.map Int.ofNat)) =
          .ok ((sel.map fun k => (1 / (Complex.I * ω - s k)) • residue M (P k)).sum +
            ∑ k ∈ Finset.range sel.length,
              (1 / (Complex.I * ω - starRingEnd ℂ (s k))) • (residue M (P k)).map (starRingEnd ℂ))) ∧
      r.transfer_matrix la ω = .ok (∑ k ∈ Finset.range r.ndof, modeResponse ω (s k) (residue M (P k))) := by
  obtain ⟨s, l, hs, hl, hlen, hdet, hD, hR, hm, hc⟩ := modes_setup hla hA hM hd hN
  have hcon : ∀ k, contrib s ω l k = (1 / (Complex.I * ω - evAt l k)) • residue M (proj l k) := fun k => by
    rw [DynamicsLemmas.contrib, hR]
  have hcon' : ∀ k < r.ndof, contrib s ω l (2 * r.ndof - 1 - k) =
      (1 / (Complex.I * ω - starRingEnd ℂ (evAt l k))) • (residue M (proj l k)).map (starRingEnd ℂ) := fun k hk => by
    rw [hcon, (hc k hk).1, (hc k hk).2, residue_conj]
  refine ⟨evAt l, proj l, hm, fun sel h0 h1 h2 => ?_, ?_⟩
  · unfold transfer_matrix
    simp only [hs, hl, bind, Except.bind]
    rw [modalSum_ok]
    refine ⟨hlen, hdet, _, modeIdx_some h0 (by omega) (fun k hk => by have := h2 k hk; omega), ?_⟩
    rw [hD, add_zero, List.map_append, List.sum_append, sum_drop _ (by omega)]
    congr 1
    · congr 1
      exact List.map_congr_left fun k _ => (hcon k).symm
    · exact Finset.sum_congr rfl fun k hk => (hcon' k (by have := Finset.mem_range.1 hk; omega)).symm
  · unfold transfer_matrix
    simp only [hs, hl, bind, Except.bind]
    rw [modalSum_ok]
    refine ⟨hlen, hdet, _, rfl, ?_⟩
    have e : (List.range (2 * r.ndof)) =
        List.range r.ndof ++ (List.range (2 * r.ndof)).drop (2 * r.ndof - r.ndof) := by
      have h3 : 2 * r.ndof - r.ndof = r.ndof := by omega
      have h4 := List.take_append_drop r.ndof (List.range (2 * r.ndof))
      rw [List.take_range, min_eq_left (by omega)] at h4
      rw [h3, h4]
    rw [hD, add_zero, e, List.map_append, List.sum_append, sum_drop _ (by omega), sum_list_range,
      ← Finset.sum_add_distrib]
    refine Finset.sum_congr rfl fun k hk => ?_
    rw [hcon' k (Finset.mem_range.1 hk), hcon, modeResponse]

/-- **C25** Partial: selecting the first `m` modes keeps exactly these, each with its complex conjugate; all modes
give the complete response. Missing: other selections, for which the claim fails (`C25_selected`, `C25_false`). -/
theorem C25_first_partial (hla : LapackOk la)
    {A : Matrix (Fin r.ndof ⊕ Fin r.ndof) (Fin r.ndof ⊕ Fin r.ndof) ℝ} (hA : r.A ω = .ok A)
    {M : Matrix (Fin r.ndof) (Fin r.ndof) ℝ} (hM : r.M (some ω) = .ok M)
    (hd : ((la.eig A).map fun p => (caround10 p.1).im).Nodup) (hN : 0 < r.ndof) :
    ∃ s P, SortedModes A s P ∧
      (∀ m, 0 < m → m ≤ r.ndof →
        r.transfer_matrix la ω none (some ((List.range m).map Int.ofNat)) =
          .ok (∑ k ∈ Finset.range m, modeResponse ω (s k) (residue M (P k)))) ∧
      r.transfer_matrix la ω = .ok (∑ k ∈ Finset.range r.ndof, modeResponse ω (s k) (residue M (P k))) := by
  obtain ⟨s, P, hm, h1, h2⟩ := C25_selected hla hA hM hd hN
  refine ⟨s, P, hm, fun m hm0 hmN => ?_, h2⟩
  rw [h1 (List.range m) (by rw [ne_eq, List.range_eq_nil]; omega) (by simpa using hmN)
    (fun k hk => by have := List.mem_range.1 hk; omega), sum_list_range, List.length_range, ← Finset.sum_add_distrib]
  rfl

/-- Two uncoupled oscillators with eigenvalues `± j` and `± 2 j`. -/
noncomputable def twoOsc : Lti 2 where
  A := fromBlocks 0 1 !![-1, 0; 0, -4] 0
  B := fromRows 0 1
  C := fromCols 1 0
  D := 0

/-- Their eigenpairs in the order of `run_modal`. -/
noncomputable def twoPairs : List (Pair 2) :=
  [(Complex.I, Sum.elim ![1, 0] ![Complex.I, 0]), (2 * Complex.I, Sum.elim ![0, 1] ![0, 2 * Complex.I]),
   (-(2 * Complex.I), Sum.elim ![0, 1] ![0, -(2 * Complex.I)]), (-Complex.I, Sum.elim ![1, 0] ![-Complex.I, 0])]

theorem twoPairs_eigen : ∀ p ∈ twoPairs, IsEigen twoOsc.A p.1 p.2 := by
  have h : ∀ (a b c d s : ℂ), (a ≠ 0 ∨ b ≠ 0) → c = s * a → d = s * b → -a = s * c → -4 * b = s * d →
      IsEigen twoOsc.A s (Sum.elim ![a, b] ![c, d]) := by
    intro a b c d s hab hc hd h1 h2
    refine ⟨fun h0 => ?_, ?_⟩
    · have ha := congrFun h0 (Sum.inl 0)
      have hb := congrFun h0 (Sum.inl 1)
      simp at ha hb
      rcases hab with h | h
      · exact h ha
      · exact h hb
    · have hA : cplx twoOsc.A = fromBlocks 0 1 !![-1, 0; 0, -4] 0 := by
        ext (i | i) (j | j) <;> fin_cases i <;> fin_cases j <;> simp [twoOsc, cplx]
      rw [hA, fromBlocks_mulVec]
      funext i
      rcases i with i | i <;> fin_cases i
      · simpa using hc
      · simpa using hd
      · simpa [mulVec, dotProduct, Fin.sum_univ_two] using h1
      · rw [neg_mul, mul_comm 4] at h2
        simpa [mulVec, dotProduct, Fin.sum_univ_two] using h2
  intro p hp
  simp only [twoPairs, List.mem_cons, List.not_mem_nil, or_false] at hp
  have hI := Complex.I_mul_I
  rcases hp with rfl | rfl | rfl | rfl
  · exact h _ _ _ _ _ (.inl one_ne_zero) (by ring) (by ring) (by rw [hI]) (by ring)
  · exact h _ _ _ _ _ (.inr one_ne_zero) (by ring) (by ring) (by ring) (by linear_combination -4 * hI)
  · exact h _ _ _ _ _ (.inr one_ne_zero) (by ring) (by ring) (by ring) (by linear_combination -4 * hI)
  · exact h _ _ _ _ _ (.inl one_ne_zero) (by ring) (by ring) (by linear_combination -hI) (by ring)

/-- Inverse of the matrix of eigenvectors. -/
noncomputable def twoInv : Matrix (Fin 2 ⊕ Fin 2) (Fin 2 ⊕ Fin 2) ℂ :=
  fromBlocks !![1 / 2, 0; 0, 1 / 2] !![-(Complex.I / 2), 0; 0, -(Complex.I / 4)]
    !![0, 1 / 2; 1 / 2, 0] !![0, Complex.I / 4; Complex.I / 2, 0]

theorem twoPairs_columns : columns twoPairs = fromBlocks !![1, 0; 0, 1] !![0, 1; 1, 0]
    !![Complex.I, 0; 0, 2 * Complex.I] !![0, -Complex.I; -(2 * Complex.I), 0] := by
  ext (i | i) (j | j) <;> fin_cases i <;> fin_cases j <;> rfl

theorem twoPairs_inv : columns twoPairs * twoInv = 1 := by
  have hI := Complex.I_mul_I
  rw [twoPairs_columns, twoInv, fromBlocks_multiply, ← fromBlocks_one]
  congr 1
  · ext i j; fin_cases i <;> fin_cases j <;> simp [Matrix.mul_apply, Fin.sum_univ_two] <;> norm_num
  · ext i j; fin_cases i <;> fin_cases j <;> simp [Matrix.mul_apply, Fin.sum_univ_two]
  · ext i j; fin_cases i <;> fin_cases j <;> simp [Matrix.mul_apply, Fin.sum_univ_two]
  · ext i j; fin_cases i <;> fin_cases j <;> simp [Matrix.mul_apply, Fin.sum_univ_two]
    · linear_combination -hI
    · linear_combination -hI

/-- **C25** is false in general: selecting only the second mode of two uncoupled oscillators gives a response in the
first oscillator, where that mode and its conjugate have none. -/
theorem C25_false : (∀ p ∈ twoPairs, IsEigen twoOsc.A p.1 p.2) ∧ (twoPairs.map Prod.fst).Nodup ∧
    ∃ H, modalSum twoOsc 0 twoPairs (some [1]) = .ok H ∧
      ∀ P, IsProjector twoOsc.A (2 * Complex.I) P → H ≠ modeResponse 0 (2 * Complex.I) (residue 1 P) := by
  have hI := Complex.I_ne_zero
  refine ⟨twoPairs_eigen, ?_, ?_⟩
  · simp only [twoPairs, List.map_cons, List.map_nil, List.nodup_cons, List.mem_cons, List.not_mem_nil, or_false,
      not_or, Complex.ext_iff]
    norm_num
  have hinv : (columns twoPairs)⁻¹ = twoInv := Matrix.inv_eq_right_inv twoPairs_inv
  have hdet : (columns twoPairs).det ≠ 0 := by
    intro h0
    have := congrArg det twoPairs_inv
    rw [det_mul, h0, zero_mul, det_one] at this
    exact zero_ne_one this
  refine ⟨_, modalSum_ok.2 ⟨rfl, hdet, [1, 3], rfl, rfl⟩, fun P hP h => ?_⟩
  have h00 := congrFun (congrFun h 0) 0
  have hCB : ∀ X : Matrix (Fin 2 ⊕ Fin 2) (Fin 2 ⊕ Fin 2) ℂ,
      (toC twoOsc.C * X * toC twoOsc.B) 0 0 = X (Sum.inl 0) (Sum.inr 0) := by
    intro X
    simp [twoOsc, toC, Matrix.mul_apply, Fin.sum_univ_two]
  have hp1 : proj twoPairs 1 (Sum.inl 0) (Sum.inr 0) = 0 := by
    have e := ofIdx_equiv (columns twoPairs (Sum.inl 0)) (Sum.inl 1)
    have : ((finSumFinEquiv (Sum.inl 1 : Fin 2 ⊕ Fin 2) : Fin (2 + 2)) : ℕ) = 1 := rfl
    rw [this] at e
    rw [proj, e, twoPairs_columns]
    simp
  have hp3 : proj twoPairs 3 (Sum.inl 0) (Sum.inr 0) = Complex.I / 2 := by
    have e := ofIdx_equiv (columns twoPairs (Sum.inl 0)) (Sum.inr 1)
    have e' := ofIdx_equiv (fun q => (columns twoPairs)⁻¹ q (Sum.inr 0)) (Sum.inr 1)
    have : ((finSumFinEquiv (Sum.inr 1 : Fin 2 ⊕ Fin 2) : Fin (2 + 2)) : ℕ) = 3 := rfl
    rw [this] at e e'
    rw [proj, e, e', hinv, twoPairs_columns]
    simp [twoInv]
  have hR : residue 1 P 0 0 = 0 := by
    have e1 := (hP _ _ (twoPairs_eigen (Complex.I, Sum.elim ![1, 0] ![Complex.I, 0]) (by simp [twoPairs])).2).2
      (by simp [Complex.ext_iff])
    have e2 := (hP _ _ (twoPairs_eigen (-Complex.I, Sum.elim ![1, 0] ![-Complex.I, 0]) (by simp [twoPairs])).2).2
      (by simp [Complex.ext_iff]; norm_num)
    have f1 := congrFun e1 (Sum.inl 0)
    have f2 := congrFun e2 (Sum.inl 0)
    simp [mulVec, dotProduct, Fin.sum_univ_two] at f1 f2
    have : P (Sum.inl 0) (Sum.inr 0) = 0 := by
      have : P (Sum.inl 0) (Sum.inr 0) * (2 * Complex.I) = 0 := by linear_combination f1 - f2
      simpa using this
    simp [residue, Matrix.mul_apply, toBlocks₁₂, cplx, Fin.sum_univ_two, this]
  simp only [List.map_cons, List.map_nil, List.sum_cons, List.sum_nil, add_zero, Matrix.add_apply,
    DynamicsLemmas.contrib, Matrix.smul_apply, hCB, hp1, hp3, modeResponse, hR, Matrix.map_apply, map_zero, smul_zero,
    zero_add] at h00
  simp [evAt, twoPairs, toC, twoOsc] at h00

end Ross.Props
