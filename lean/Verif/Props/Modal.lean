import Mathlib.FieldTheory.IsAlgClosed.Basic
import Mathlib.Analysis.Complex.Polynomial.Basic
import Mathlib.LinearAlgebra.Matrix.Charpoly.Coeff
import Mathlib.LinearAlgebra.Matrix.Charpoly.Eigs
import Mathlib.LinearAlgebra.Matrix.ToLinearEquiv
import Mathlib.Analysis.SpecialFunctions.Exp
import Verif.Lemmas.Dynamics
import Verif.Props.Stability

/-! # C36, C48: order of the eigenvalues, modal quantities -/

namespace Ross.Props

open Ross Ross.Spec Ross.BearingLemmas Ross.DynamicsLemmas Ross.StateLemmas Matrix Rotor

variable {r : Rotor} {la : Lapack} {N : ℕ}

/-- `z` comes before `w`: by imaginary part, then by absolute value. -/
def Before (z w : ℂ) : Prop := z.im < w.im ∨ z.im = w.im ∧ ‖z‖ ≤ ‖w‖

theorem lexLe_before {z w : ℂ} (h : lexLe z w = true) : Before (caround10 z) (caround10 w) := by
  unfold lexLe at h
  simp only [decide_eq_true_eq] at h
  exact h

/-- The entries of `drop ++ take`, the two halves swapped. -/
theorem swap_getD {α : Type} {l : List α} {n k : ℕ} (h : l.length = 2 * n) (hk : k < 2 * n) (d : α) :
    (l.drop n ++ l.take n).getD k d = l.getD (if k < n then n + k else k - n) d := by
  rw [List.getD_eq_getElem?_getD, List.getD_eq_getElem?_getD]
  congr 1
  split_ifs with hkn
  · rw [List.getElem?_append_left (by rw [List.length_drop]; omega), List.getElem?_drop]
  · rw [List.getElem?_append_right (by rw [List.length_drop]; omega), List.length_drop,
      List.getElem?_take_of_lt (by omega)]
    congr 1; omega

theorem getD_asc (l : List ℂ) (i : ℕ) (h : i < l.length) : (asc l).getD i 0 = l.getD ((lexsort l).getD i 0) 0 := by
  unfold asc
  rw [List.getD_eq_getElem?_getD, List.getElem?_map, List.getD_eq_getElem?_getD (l := lexsort l),
    List.getElem?_eq_getElem (by simpa using h)]
  simp

theorem asc_before {l : List ℂ} {i j : ℕ} (hij : i < j) (hj : j < l.length) :
    Before (caround10 ((asc l).getD i 0)) (caround10 ((asc l).getD j 0)) := by
  have := List.pairwise_iff_getElem.1 (asc_sorted l) i j (by rw [asc_length]; omega) (by simpa using hj) hij
  have e : ∀ k (hk : k < (asc l).length), (asc l).getD k 0 = (asc l)[k] := fun k hk => by
    rw [List.getD_eq_getElem?_getD, List.getElem?_eq_getElem hk, Option.getD_some]
  rw [e i (by rw [asc_length]; omega), e j (by simpa using hj)]
  exact lexLe_before this

/-- **C36** The order is a permutation; rounded to ten decimals, each half ascends by imaginary part, then
by absolute value, and the second half is below the first. -/
theorem C36_index {l : List ℂ} {n : ℕ} (h : l.length = 2 * n) : ∃ idx, index l = .ok idx ∧
    idx.Perm (List.range l.length) ∧
    (∀ i j, i < j → (j < n ∨ n ≤ i ∧ j < 2 * n) →
      Before (caround10 (l.getD (idx.getD i 0) 0)) (caround10 (l.getD (idx.getD j 0) 0))) ∧
    ∀ i j, i < n → n ≤ j → j < 2 * n →
      (caround10 (l.getD (idx.getD j 0) 0)).im ≤ (caround10 (l.getD (idx.getD i 0) 0)).im := by
  refine ⟨_, index_ok h, ?_, fun i j hij hc => ?_, fun i j hi hj hj2 => ?_⟩
  · refine List.Perm.trans List.perm_append_comm ?_
    rw [List.take_append_drop]
    exact lexsort_perm l
  · rw [swap_getD (by simpa using h) (by omega), swap_getD (by simpa using h) (by omega),
      ← getD_asc l _ (by split_ifs <;> omega), ← getD_asc l _ (by split_ifs <;> omega)]
    exact asc_before (by split_ifs <;> omega) (by split_ifs <;> omega)
  · rw [swap_getD (by simpa using h) (by omega), swap_getD (by simpa using h) (by omega),
      ← getD_asc l _ (by split_ifs <;> omega), ← getD_asc l _ (by split_ifs <;> omega)]
    rcases asc_before (l := l) (i := if j < n then n + j else j - n) (j := if i < n then n + i else i - n)
      (by split_ifs <;> omega) (by split_ifs <;> omega) with h | h
    · exact h.le
    · exact h.1.le

/-- **C36** an odd number of eigenvalues is refused. -/
theorem C36_odd {l : List ℂ} {n : ℕ} (h : l.length = 2 * n + 1) : index l = .error .valueError :=
  index_odd h

/-- **C36** when the spectrum is closed under conjugation the rounded imaginary parts in the first half are
not negative, and those of the second half are their negatives in reverse order. -/
theorem C36_conj {l : List ℂ} {n : ℕ} (h : l.length = 2 * n) (hc : ConjClosed l) {idx : List ℕ}
    (hi : index l = .ok idx) {k : ℕ} (hk : k < n) :
    0 ≤ (caround10 (l.getD (idx.getD k 0) 0)).im ∧
    (caround10 (l.getD (idx.getD (2 * n - 1 - k) 0) 0)).im = -(caround10 (l.getD (idx.getD k 0) 0)).im := by
  rw [index_ok h] at hi
  cases hi
  have hm : ∀ k < 2 * n, (caround10 ((asc l).getD (2 * n - 1 - k) 0)).im =
      -(caround10 ((asc l).getD k 0)).im := by
    intro k hk
    have e := congrArg (fun m : List ℝ => m.getD (2 * n - 1 - k) 0) (asc_mirror hc)
    simp only [List.getD_eq_getElem?_getD, List.getElem?_map] at e ⊢
    rw [List.getElem?_reverse (by simp; omega)] at e
    rw [List.getElem?_map] at e
    have e1 : ((asc l).map fun z => (caround10 z).im).length - 1 - (2 * n - 1 - k) = k := by
      simp [h]; omega
    rw [e1, List.getElem?_eq_getElem (i := k) (by rw [asc_length]; omega),
      List.getElem?_eq_getElem (i := 2 * n - 1 - k) (by rw [asc_length]; omega)] at e
    rw [List.getElem?_eq_getElem (i := k) (by rw [asc_length]; omega),
      List.getElem?_eq_getElem (i := 2 * n - 1 - k) (by rw [asc_length]; omega)]
    exact e.symm
  rw [swap_getD (by simpa using h) (by omega), swap_getD (by simpa using h) (by omega),
    if_pos hk, if_neg (by omega), ← getD_asc l _ (by omega), ← getD_asc l _ (by omega)]
  have h1 := hm (n + k) (by omega)
  have e1 : 2 * n - 1 - (n + k) = n - 1 - k := by omega
  have e2 : 2 * n - 1 - k - n = n - 1 - k := by omega
  rw [e1] at h1
  rw [e2]
  refine ⟨?_, h1⟩
  have h2 : (caround10 ((asc l).getD (n - 1 - k) 0)).im ≤ (caround10 ((asc l).getD (n + k) 0)).im := by
    rcases asc_before (l := l) (i := n - 1 - k) (j := n + k) (by omega) (by omega) with h | h
    · exact h.le
    · exact h.1.le
  linarith

/-- **C36** if moreover the rounded imaginary parts are distinct, the second half consists of the conjugates of
the first in reverse order. -/
theorem C36_distinct {l : List ℂ} {n : ℕ} (h : l.length = 2 * n) (hc : ConjClosed l)
    (hd : (l.map fun z => (caround10 z).im).Nodup) {idx : List ℕ} (hi : index l = .ok idx) {k : ℕ}
    (hk : k < n) :
    l.getD (idx.getD (2 * n - 1 - k) 0) 0 = starRingEnd ℂ (l.getD (idx.getD k 0) 0) := by
  rw [index_ok h] at hi
  cases hi
  rw [swap_getD (by simpa using h) (by omega), swap_getD (by simpa using h) (by omega),
    if_pos hk, if_neg (by omega), ← getD_asc l _ (by omega), ← getD_asc l _ (by omega)]
  have e := congrArg (fun m : List ℂ => m.getD (2 * n - 1 - k - n) 0) (asc_conj hc hd)
  simp only [List.getD_eq_getElem?_getD, List.getElem?_map] at e ⊢
  rw [List.getElem?_reverse (by simp; omega)] at e
  have e1 : (asc l).length - 1 - (2 * n - 1 - k - n) = n + k := by simp [h]; omega
  rw [e1, List.getElem?_eq_getElem (i := n + k) (by rw [asc_length]; omega),
    List.getElem?_eq_getElem (i := 2 * n - 1 - k - n) (by rw [asc_length]; omega)] at e
  rw [List.getElem?_eq_getElem (i := n + k) (by rw [asc_length]; omega),
    List.getElem?_eq_getElem (i := 2 * n - 1 - k - n) (by rw [asc_length]; omega)]
  exact e.symm

theorem conjClosed_pair {z : ℂ} {l : List ℂ} (h : ConjClosed l) : ConjClosed (z :: starRingEnd ℂ z :: l) := by
  unfold ConjClosed at *
  simp only [List.map_cons, Complex.conj_conj]
  exact List.Perm.trans (List.Perm.swap _ _ _) (.cons _ (.cons _ h))

/-- Three eigenvalue pairs with distinct imaginary parts, in no particular order. -/
example : ∃ l : List ℂ, l.length = 2 * 3 ∧ ConjClosed l ∧ (l.map fun z => (caround10 z).im).Nodup := by
  have e : ∀ n : ℤ, around10 n = n := by
    intro n
    have : ((n : ℝ) * 10 ^ 10) = ((n * 10 ^ 10 : ℤ) : ℝ) := by push_cast; ring
    unfold around10 rint
    rw [this, Int.floor_intCast]
    simp
    ring
  have e1 := e 1; have e2 := e 2; have e3 := e 3
  push_cast at e1 e2 e3
  refine ⟨[⟨-1, 2⟩, starRingEnd ℂ ⟨-1, 2⟩, ⟨-5, -3⟩, starRingEnd ℂ ⟨-5, -3⟩, ⟨0, 1⟩, starRingEnd ℂ ⟨0, 1⟩], rfl,
    conjClosed_pair (conjClosed_pair (conjClosed_pair (by simp [ConjClosed]))), ?_⟩
  simp [caround10, around10_neg, e1, e2, e3]
  norm_num

/-- **C36** without rounding the first half can contain a negative imaginary part. -/
theorem C36_exact_false : ∃ l : List ℂ, l.length = 2 ∧ ConjClosed l ∧ ∃ idx, index l = .ok idx ∧
    (l.getD (idx.getD 0 0) 0).im < 0 := by
  have hr : around10 ((10 ^ 12)⁻¹) = 0 := by
    have : ⌊((10 ^ 12)⁻¹ * 10 ^ 10 : ℝ)⌋ = 0 := by rw [Int.floor_eq_iff]; norm_num
    unfold around10 rint
    rw [this]; norm_num
  have h0 : around10 0 = 0 := by simp [around10, rint]
  let z : ℂ := ⟨0, (10 ^ 12)⁻¹⟩
  have hz : caround10 z = 0 := by
    apply Complex.ext <;> simp [caround10, z, h0, hr]
  have hz' : caround10 (starRingEnd ℂ z) = 0 := by
    apply Complex.ext <;> simp [caround10, z, h0, hr, around10_neg]
  refine ⟨[z, starRingEnd ℂ z], rfl, conjClosed_pair (by simp [ConjClosed]), _, index_ok (n := 1) rfl, ?_⟩
  have hl : lexsort [z, starRingEnd ℂ z] = [0, 1] := by
    unfold lexsort
    show List.mergeSort [0, 1] _ = _
    apply List.mergeSort_of_pairwise
    simp [lexLe, hz, hz']
  rw [hl]
  simp [z]

/-- The eigenvalues of a real matrix are closed under conjugation, and there are `2 N` of them. -/
theorem eig_conj {A : Matrix (Fin N ⊕ Fin N) (Fin N ⊕ Fin N) ℝ} {l : List (Pair N)} (h : EigOk A l) :
    ConjClosed (l.map Prod.fst) ∧ l.length = 2 * N := by
  constructor
  · unfold ConjClosed
    rw [← Multiset.coe_eq_coe, ← Multiset.map_coe, h.values]
    have hs : (cplx A).charpoly.Splits := IsAlgClosed.splits _
    rw [← hs.roots_map (starRingEnd ℂ), ← Matrix.charpoly_map]
    congr 2
    ext i j; simp [cplx]
  · have := congrArg Multiset.card h.values
    rw [IsAlgClosed.card_roots_eq_natDegree, Matrix.charpoly_natDegree_eq_dim] at this
    simp at this
    omega

/-- Solvers as assumed exist. -/
theorem lapack_exists : ∃ la, LapackOk la := by
  have key : ∀ {N : ℕ} (A : Matrix (Fin N ⊕ Fin N) (Fin N ⊕ Fin N) ℝ), ∃ l : List (Pair N), EigOk A l := by
    intro N A
    have hv : ∀ s ∈ (cplx A).charpoly.roots, ∃ x, IsEigen A s x := by
      intro s hs
      have h0 : (s • (1 : Matrix _ _ ℂ) - cplx A).det = 0 := by
        have := (Polynomial.mem_roots'.1 hs).2
        rw [Polynomial.IsRoot, Matrix.eval_charpoly] at this
        rwa [Matrix.smul_one_eq_diagonal]
      obtain ⟨x, hx, hx'⟩ := Matrix.exists_mulVec_eq_zero_iff.2 h0
      refine ⟨x, hx, ?_⟩
      rw [sub_mulVec, smul_mulVec, one_mulVec, sub_eq_zero] at hx'
      exact hx'.symm
    choose! f hf using hv
    refine ⟨(cplx A).charpoly.roots.toList.map fun s => (s, f s), ?_, ?_⟩
    · rw [List.map_map]
      simp [Function.comp_def]
    · intro p hp
      obtain ⟨s, hs, rfl⟩ := List.mem_map.1 hp
      exact hf s (Multiset.mem_toList.1 hs)
  choose f hf using @key
  exact ⟨⟨fun A => f A, fun _ _ => none⟩, fun A => hf A, fun _ _ _ h => by simp at h⟩

/-- Sorting changes only the order. -/
theorem sorted_ok {l m : List (Pair N)} (h : sorted l = .ok m) : m.Perm l ∧
    ∃ idx, index (l.map Prod.fst) = .ok idx ∧ m = idx.map fun i => l.getD i (0, 0) := by
  unfold sorted at h
  obtain ⟨idx, hi, h⟩ := bind_ok.1 h
  have he : (l.map Prod.fst).length % 2 = 0 := by
    by_contra hc
    rw [index_odd (n := (l.map Prod.fst).length / 2) (by omega)] at hi
    cases hi
  obtain ⟨idx', hi', hp, -⟩ := C36_index (l := l.map Prod.fst) (n := (l.map Prod.fst).length / 2) (by omega)
  rw [hi] at hi'
  cases hi'
  by_cases hl : l = []
  · rw [if_pos hl] at h; cases h
  · rw [if_neg hl] at h
    cases h
    refine ⟨?_, idx, hi, rfl⟩
    have := hp.map fun i => l.getD i (0, 0)
    rwa [List.length_map, map_getD_range] at this

/-- **C36** `_eigen` with `sparse=False` returns what the solver returns, in the order of `C36_index`. -/
theorem C36_eigen {Ω : ℝ} {n : ℕ} {f : Option ℝ} {l : List (Pair r.ndof)}
    (h : r.eigen la Ω n f true false false = .ok l) : ∃ A, r.A Ω f = .ok A ∧ l.Perm (la.eig A) ∧
      ∃ idx, index ((la.eig A).map Prod.fst) = .ok idx ∧ l = idx.map fun i => (la.eig A).getD i (0, 0) := by
  unfold eigen at h
  obtain ⟨A, hA, h⟩ := bind_ok.1 h
  simp only [Bool.false_eq_true, if_false, if_true] at h
  exact ⟨A, hA, sorted_ok h⟩

/-- **C48** every eigenpair that `_eigen` returns, sorted or not, dense or sparse, synchronous or not, is one of
the state matrix. -/
theorem C48_eigen (hla : LapackOk la) {Ω : ℝ} {n : ℕ} {f : Option ℝ} {sorted_ sparse sync : Bool}
    {l : List (Pair r.ndof)} (h : r.eigen la Ω n f sorted_ sparse sync = .ok l) :
    ∃ A, r.A Ω f sync = .ok A ∧ ∀ p ∈ l, IsEigen A p.1 p.2 := by
  unfold eigen at h
  obtain ⟨A, hA, h⟩ := bind_ok.1 h
  refine ⟨A, hA, ?_⟩
  set m := (if sync = true then
      ((la.eig A).filter fun p => decide (p.1.im ≠ 0)).filter fun p => decide (|p.1.re / p.1.im| < 1000)
    else if sparse = true then
      match la.eigs A (2 * n) with
      | some l => l.filter fun p => decide (0.1 < ‖p.1‖)
      | none => la.eig A
    else la.eig A) with hm
  have hm' : ∀ p ∈ m, IsEigen A p.1 p.2 := by
    intro p hp
    rw [hm] at hp
    have h1 := (hla.eig A).vectors
    cases sync
    · cases sparse
      · exact h1 p hp
      · cases he : la.eigs A (2 * n) with
        | none => simp [he] at hp; exact h1 p hp
        | some l => simp [he] at hp; exact hla.eigs A _ _ he p hp.1
    · simp at hp
      exact h1 p hp.1
  cases sorted_
  · cases h; exact hm'
  · exact fun p hp => hm' p ((sorted_ok h).1.mem_iff.1 hp)

/-- **C48** The natural frequencies, damped frequencies and damping ratios of `run_modal` describe the eigenvalues,
one each for the first `num_modes // 2` of them: `λ = -ζ ωn + j ωd`, `ωd² = (1 - ζ²) ωn²`, `ζ` is positive for
decaying and negative for growing modes; each mode shape `(v, λ v)` is a mode of the rotor. -/
theorem C48_modal (hla : LapackOk la) {Ω : ℝ} {n : ℕ} {sparse : Bool} {m : Modal r.ndof}
    (h : r.run_modal la Ω n sparse = .ok m)
    {M K C G : Matrix (Fin r.ndof) (Fin r.ndof) ℝ} (hM : r.M (some Ω) = .ok M) (hK : r.K Ω = .ok K)
    (hC : r.C Ω = .ok C) (hG : r.G = .ok G) :
    m.evectors.length = m.evalues.length ∧
    (∀ k < m.evalues.length, ∃ v, m.evectors.getD k 0 = Sum.elim v (m.evalues.getD k 0 • v) ∧
      IsMode M (C + Ω • G) K (m.evalues.getD k 0) v) ∧
    m.wn.length = min (n / 2) m.evalues.length ∧ m.wd.length = m.wn.length ∧
    m.damping_ratio.length = m.wn.length ∧ m.log_dec.length = m.wn.length ∧
    ∀ k < m.wn.length, ∃ z ωn ωd ζ δ, m.evalues[k]? = some z ∧ m.wn[k]? = some ωn ∧ m.wd[k]? = some ωd ∧
      m.damping_ratio[k]? = some ζ ∧ m.log_dec[k]? = some δ ∧
      0 ≤ ωn ∧ z = -(ζ : ℂ) * ωn + Complex.I * ωd ∧ ωd ^ 2 = (1 - ζ ^ 2) * ωn ^ 2 ∧
      (0 < ζ ↔ z.re < 0) ∧ (ζ < 0 ↔ 0 < z.re) ∧
      (0 < ωd → ∀ t : ℝ, ‖Complex.exp (z * t)‖ =
        Real.exp δ * ‖Complex.exp (z * (t + 2 * Real.pi / ωd : ℝ))‖) := by
  unfold run_modal at h
  obtain ⟨l, hl, h⟩ := bind_ok.1 h
  cases h
  obtain ⟨A, hA, hv⟩ := C48_eigen hla hl
  simp only [List.length_map, List.length_take]
  refine ⟨trivial, fun k hk => ?_, trivial, trivial, trivial, trivial, fun k hk => ?_⟩
  · have hp := hv _ (List.getElem_mem hk)
    rw [C23_eigen (f := none) (sync := false) hA hM hK hC hG] at hp
    have e1 : (l.map Prod.snd).getD k 0 = l[k].2 := by
      rw [List.getD_eq_getElem?_getD, List.getElem?_map, List.getElem?_eq_getElem hk]; rfl
    have e2 : (l.map Prod.fst).getD k 0 = l[k].1 := by
      rw [List.getD_eq_getElem?_getD, List.getElem?_map, List.getElem?_eq_getElem hk]; rfl
    rw [e1, e2]
    exact hp
  · have hk1 : k < n / 2 := by omega
    have hk2 : k < l.length := by omega
    set z := l[k].1 with hz
    refine ⟨z, ‖z‖, z.im, -z.re / ‖z‖,
      2 * Real.pi * (-z.re / ‖z‖) / Real.sqrt (1 - (-z.re / ‖z‖) ^ 2), ?_, ?_, ?_, ?_, ?_, norm_nonneg _, ?_⟩
    · simp [hk2, hz]
    · simp [hk1, hk2, hz]
    · simp [hk1, hk2, hz]
    · simp [hk1, hk2, hz]
    · rw [List.getElem?_map, List.getElem?_take_of_lt hk1, List.getElem?_map, List.getElem?_map,
        List.getElem?_eq_getElem hk2]
      rfl
    · have hn : ‖z‖ ^ 2 = z.re ^ 2 + z.im ^ 2 := by
        rw [Complex.sq_norm, Complex.normSq_apply]; ring
      by_cases h0 : z = 0
      · simp [h0]
      · have hp : 0 < ‖z‖ := norm_pos_iff.2 h0
        have hne := hp.ne'
        refine ⟨?_, ?_, ?_, ?_, ?_⟩
        · apply Complex.ext <;> simp [hne]
        · field_simp
          rw [hn]; ring
        · rw [div_pos_iff_of_pos_right hp]; constructor <;> intro <;> linarith
        · rw [div_lt_iff₀ hp, zero_mul]; constructor <;> intro <;> linarith
        · intro hd t
          have hs : Real.sqrt (1 - (-z.re / ‖z‖) ^ 2) = z.im / ‖z‖ := by
            have e : 1 - (-z.re / ‖z‖) ^ 2 = (z.im / ‖z‖) ^ 2 := by
              field_simp
              rw [hn]; ring
            rw [e, Real.sqrt_sq (div_pos hd hp).le]
          rw [hs, Complex.norm_exp, Complex.norm_exp, ← Real.exp_add]
          congr 1
          simp
          field_simp
          ring

end Ross.Props
