import Verif.Lemmas.Assembly
import Verif.Lemmas.Slots

/-! # Assembled matrices of constructed rotors -/

namespace Ross.AssemblyLemmas

open Ross Ross.Spec Ross.BearingLemmas Ross.Rotor Ross.RotorLemmas

variable {pd : Pandas} {a : RotorArgs} {r : Rotor}

theorem zip_contrib {mat : Elm → Res LMat} {l : List (Elm × Dict DofKey ℕ)} {Es : List LMat}
    (h : l.map (fun x => mat x.1) = Es.map .ok) (x y : ℕ → ℝ) :
    ((l.zip Es).map fun z => elemBilin z.1.2.values z.2.2 x y) =
      l.map fun z => contrib mat z x y := by
  induction l generalizing Es with
  | nil => simp
  | cons z t ih =>
    cases Es with
    | nil => simp at h
    | cons E Es =>
      simp only [List.map_cons, List.cons.injEq] at h
      simp only [List.zip_cons_cons, List.map_cons, ih h.2]
      congr 1
      unfold contrib
      rw [h.1]

theorem assemble_sum {N : ℕ} {mat : Elm → Res LMat} {l : List (Elm × Dict DofKey ℕ)}
    {B : Matrix (Fin N) (Fin N) ℝ} (hd : ∀ x ∈ l, x.2.values.Nodup)
    (h : assemble N mat l = .ok B) :
    (∀ z ∈ l, ∃ E, mat z.1 = .ok E ∧ E.1 = z.2.values.length ∧ ∀ d ∈ z.2.values, d < N) ∧
      ∀ x y, bilin B x y = (l.map fun z => contrib mat z x y).sum := by
  obtain ⟨Es, h1, h2, h3, h4⟩ := assemble_ok hd h
  refine ⟨?_, fun x y => by rw [h4, zip_contrib h1]⟩
  intro z hz
  obtain ⟨i, hi, rfl⟩ := List.mem_iff_getElem.1 hz
  have hl : l.length = Es.length := by simpa using congrArg List.length h1
  have hi' : i < Es.length := by omega
  refine ⟨Es[i], ?_, ?_, h2 _ hz⟩
  · have : (l.map fun x => mat x.1)[i]'(by simpa using hi) = (Es.map Except.ok)[i]'(by simpa using hi') := by
      simp only [h1]
    simpa using this
  · have : (l[i], Es[i]) ∈ l.zip Es := by
      rw [List.mem_iff_getElem]
      exact ⟨i, by simp [hl, hi'], by simp⟩
    exact h3 _ this

theorem assemble_iff {N : ℕ} {mat : Elm → Res LMat} {l : List (Elm × Dict DofKey ℕ)}
    (hd : ∀ x ∈ l, x.2.values.Nodup) :
    (∃ B, assemble N mat l = .ok B) ↔
      ∀ z ∈ l, ∃ E, mat z.1 = .ok E ∧ E.1 = z.2.values.length ∧ ∀ d ∈ z.2.values, d < N := by
  constructor
  · rintro ⟨B, hB⟩; exact (assemble_sum hd hB).1
  · intro h
    refine assemble_exists (fun x hx => ?_) (fun x hx => ?_)
    · obtain ⟨E, h1, h2, -⟩ := h x hx; exact ⟨E, h1, h2⟩
    · obtain ⟨E, -, -, h3⟩ := h x hx; exact h3

theorem keep_nodup (hb : Built pd a r) (ignore : List (Option String)) :
    ∀ x ∈ r.keep ignore, x.2.values.Nodup := fun _ hx =>
  values_nodup hb (List.mem_of_mem_filter hx)

theorem elemBilin_symm {k : ℕ} {dofs : List ℕ} {E : Matrix (Fin k) (Fin k) ℝ} (h : E.transpose = E)
    (x y : ℕ → ℝ) : elemBilin dofs E x y = elemBilin dofs E y x := by
  unfold elemBilin
  rw [Finset.sum_comm]
  refine Finset.sum_congr rfl fun p _ => Finset.sum_congr rfl fun q _ => ?_
  have : E q p = E p q := congrFun (congrFun h p) q
  rw [this]; ring

theorem elemBilin_skew {k : ℕ} {dofs : List ℕ} {E : Matrix (Fin k) (Fin k) ℝ} (h : E.transpose = -E)
    (x y : ℕ → ℝ) : elemBilin dofs E x y = -elemBilin dofs E y x := by
  unfold elemBilin
  rw [Finset.sum_comm, ← Finset.sum_neg_distrib]
  refine Finset.sum_congr rfl fun p _ => ?_
  rw [← Finset.sum_neg_distrib]
  refine Finset.sum_congr rfl fun q _ => ?_
  have : E q p = -E p q := congrFun (congrFun h p) q
  rw [this]; ring

theorem bilin_transpose {N : ℕ} (A : Matrix (Fin N) (Fin N) ℝ) (x y : ℕ → ℝ) :
    bilin A.transpose x y = bilin A y x := by
  unfold bilin
  rw [Finset.sum_comm]
  refine Finset.sum_congr rfl fun p _ => Finset.sum_congr rfl fun q _ => ?_
  rw [Matrix.transpose_apply]; ring

theorem bilin_neg {N : ℕ} (A : Matrix (Fin N) (Fin N) ℝ) (x y : ℕ → ℝ) :
    bilin (-A) x y = -bilin A x y := by
  unfold bilin
  rw [← Finset.sum_neg_distrib]
  refine Finset.sum_congr rfl fun p _ => ?_
  rw [← Finset.sum_neg_distrib]
  refine Finset.sum_congr rfl fun q _ => ?_
  rw [Matrix.neg_apply]; ring

theorem assemble_symm {N : ℕ} {mat : Elm → Res LMat} {l : List (Elm × Dict DofKey ℕ)}
    {B : Matrix (Fin N) (Fin N) ℝ} (hd : ∀ x ∈ l, x.2.values.Nodup)
    (h : assemble N mat l = .ok B)
    (hs : ∀ z ∈ l, ∀ E, mat z.1 = .ok E → E.2.transpose = E.2) : B.transpose = B := by
  obtain ⟨h1, h2⟩ := assemble_sum hd h
  refine bilin_ext fun x y => ?_
  rw [bilin_transpose, h2, h2]
  congr 1
  refine List.map_congr_left fun z hz => ?_
  obtain ⟨E, hE, -⟩ := h1 z hz
  unfold contrib
  rw [hE]
  exact elemBilin_symm (hs z hz E hE) _ _

theorem assemble_skew {N : ℕ} {mat : Elm → Res LMat} {l : List (Elm × Dict DofKey ℕ)}
    {B : Matrix (Fin N) (Fin N) ℝ} (hd : ∀ x ∈ l, x.2.values.Nodup)
    (h : assemble N mat l = .ok B)
    (hs : ∀ z ∈ l, ∀ E, mat z.1 = .ok E → E.2.transpose = -E.2) : B.transpose = -B := by
  obtain ⟨h1, h2⟩ := assemble_sum hd h
  refine bilin_ext fun x y => ?_
  rw [bilin_transpose, bilin_neg, h2, h2]
  rw [List.sum_neg, List.map_map]
  congr 1
  refine List.map_congr_left fun z hz => ?_
  obtain ⟨E, hE, -⟩ := h1 z hz
  simp only [Function.comp]
  unfold contrib
  rw [hE]
  exact elemBilin_skew (hs z hz E hE) _ _

/-! ### Permuted arguments -/

theorem mapIdx_id {α : Type*} (l : List α) (f : ℕ → α → α) (h : ∀ i, ∀ x ∈ l, f i x = x) :
    l.mapIdx f = l := by
  apply List.ext_getElem
  · simp
  · intro i h1 h2
    simp only [List.getElem_mapIdx]
    exact h i _ (List.getElem_mem _)

theorem mapM_perm {α β : Type} {f : α → Res β} {l l' : List α} {r r' : List β} (hp : l.Perm l')
    (h : l.mapM f = .ok r) (h' : l'.mapM f = .ok r') : r.Perm r' := by
  rw [mapM_ok_iff] at h h'
  have := hp.map f
  rw [h, h'] at this
  have h2 := this.filterMap (fun x => x.toOption)
  simpa [List.filterMap_map, Function.comp_def, Except.toOption] using h2

end Ross.AssemblyLemmas
