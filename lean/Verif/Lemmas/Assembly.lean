import Verif.Model.Assembly
import Verif.Spec.Rotor
import Verif.Lemmas.Bearing
import Verif.Lemmas.ListRes

/-! # Scatter-add and the fold over elements -/

namespace Ross.AssemblyLemmas

open Ross Ross.Spec Ross.BearingLemmas Matrix

theorem lastIdx_some {l : List ℕ} {i p : ℕ} (h : lastIdx l i = some p) : l[p]? = some i := by
  induction l generalizing p with
  | nil => simp [lastIdx] at h
  | cons a t ih =>
    unfold lastIdx at h
    cases h1 : lastIdx t i with
    | some q =>
      rw [h1] at h
      simp only [Option.some.injEq] at h
      subst h
      simpa using ih h1
    | none =>
      rw [h1] at h
      by_cases h2 : a = i
      · simp only [h2, if_true, Option.some.injEq] at h
        subst h; simp [h2]
      · simp [h2] at h

theorem lastIdx_none {l : List ℕ} {i : ℕ} (h : lastIdx l i = none) : i ∉ l := by
  induction l with
  | nil => simp
  | cons a t ih =>
    unfold lastIdx at h
    cases h1 : lastIdx t i with
    | some q => rw [h1] at h; simp at h
    | none =>
      rw [h1] at h
      by_cases h2 : a = i
      · simp [h2] at h
      · simp only [List.mem_cons, not_or]
        exact ⟨fun e => h2 e.symm, ih h1⟩

theorem lastIdx_of_nodup {l : List ℕ} (hl : l.Nodup) {i p : ℕ} (h : l[p]? = some i) :
    lastIdx l i = some p := by
  cases h1 : lastIdx l i with
  | none =>
    exact absurd (List.mem_of_getElem? h) (lastIdx_none h1)
  | some q =>
    have h2 := lastIdx_some h1
    obtain ⟨hp, hp'⟩ := List.getElem?_eq_some_iff.1 h
    obtain ⟨hq, hq'⟩ := List.getElem?_eq_some_iff.1 h2
    have : q = p := (List.Nodup.getElem_inj_iff hl).1 (hq'.trans hp'.symm)
    rw [this]

/-- The entries that `ixAdd` adds. -/
noncomputable def scat (dofs : List ℕ) (E : LMat) (i j : ℕ) : ℝ :=
  match lastIdx dofs i, lastIdx dofs j with
  | some p, some q => E.ent p q
  | _, _ => 0

theorem ixAdd_ok {N : ℕ} {A B : Matrix (Fin N) (Fin N) ℝ} {dofs : List ℕ} {E : LMat} :
    ixAdd A dofs E = .ok B ↔
      (∀ d ∈ dofs, d < N) ∧ E.1 = dofs.length ∧ B = fun i j => A i j + scat dofs E i j := by
  unfold ixAdd
  by_cases h1 : dofs.any (fun d => N ≤ d)
  · rw [if_pos h1]
    constructor
    · intro h; cases h
    · rintro ⟨h2, -, -⟩
      obtain ⟨d, hd, hd'⟩ := List.any_eq_true.1 h1
      have := h2 d hd
      simp at hd'; omega
  · rw [if_neg h1]
    have h1' : ∀ d ∈ dofs, d < N := by
      intro d hd
      by_contra hc
      exact h1 (List.any_eq_true.2 ⟨d, hd, by simpa using hc⟩)
    have hB : (fun i j : Fin N => match lastIdx dofs i, lastIdx dofs j with
        | some p, some q => A i j + E.ent p q
        | _, _ => A i j) = fun i j : Fin N => A i j + scat dofs E i j := by
      funext i j
      unfold scat
      cases lastIdx dofs i <;> cases lastIdx dofs j <;> simp
    by_cases h2 : E.1 ≠ dofs.length
    · rw [if_pos h2]
      constructor
      · intro h; cases h
      · rintro ⟨-, h3, -⟩; exact absurd h3 h2
    · rw [if_neg h2]
      push Not at h2
      constructor
      · intro h
        have h' := Except.ok.inj h
        exact ⟨h1', h2, h'.symm.trans hB⟩
      · rintro ⟨-, -, rfl⟩
        exact congrArg Except.ok hB

/-- The bilinear form of the scattered entries is that of the element. -/
theorem bilin_scat {N : ℕ} {dofs : List ℕ} {E : LMat} (hd : dofs.Nodup) (hN : ∀ d ∈ dofs, d < N)
    (hE : E.1 = dofs.length) (x y : ℕ → ℝ) :
    ∑ i : Fin N, ∑ j : Fin N, x i * scat dofs E i j * y j = elemBilin dofs E.2 x y := by
  obtain ⟨k, E⟩ := E
  simp only at hE
  subst hE
  -- the global index of a local one
  let f : Fin dofs.length → Fin N := fun p => ⟨dofs[p], hN _ (List.getElem_mem _)⟩
  have hf : Function.Injective f := by
    intro p q h
    have : dofs[p] = dofs[q] := congrArg Fin.val h
    exact Fin.ext ((List.Nodup.getElem_inj_iff hd).1 this)
  have hout : ∀ i : Fin N, (∀ p, f p ≠ i) → lastIdx dofs i = none := by
    intro i hi
    cases h : lastIdx dofs i with
    | none => rfl
    | some p =>
      obtain ⟨hp, hp'⟩ := List.getElem?_eq_some_iff.1 (lastIdx_some h)
      exact absurd (Fin.ext hp') (hi ⟨p, hp⟩)
  have hin : ∀ p : Fin dofs.length, lastIdx dofs (f p).val = some p.val := fun p =>
    lastIdx_of_nodup hd (by simp [f])
  have hsum : ∀ g : Fin N → ℝ, (∀ i, (∀ p, f p ≠ i) → g i = 0) → ∑ i, g i = ∑ p, g (f p) := by
    intro g hg
    rw [← Finset.sum_image (s := Finset.univ) (g := f) (f := g) (fun a _ b _ h => hf h)]
    refine (Finset.sum_subset (Finset.subset_univ _) ?_).symm
    intro i _ hi
    refine hg i fun p hp => hi ?_
    exact Finset.mem_image.2 ⟨p, Finset.mem_univ _, hp⟩
  rw [hsum (fun i => ∑ j : Fin N, x i * scat dofs ⟨_, E⟩ i j * y j)]
  · unfold elemBilin
    refine Finset.sum_congr rfl fun p _ => ?_
    rw [hsum (fun j => x (f p) * scat dofs ⟨_, E⟩ (f p) j * y j)]
    · refine Finset.sum_congr rfl fun q _ => ?_
      simp only [scat, hin]
      simp [LMat.ent, f]
    · intro j hj
      simp [scat, hin, hout j hj]
  · intro i hi
    refine Finset.sum_eq_zero fun j _ => ?_
    simp [scat, hout i hi]

theorem bilin_add {N : ℕ} (A : Matrix (Fin N) (Fin N) ℝ) (S : Fin N → Fin N → ℝ) (x y : ℕ → ℝ) :
    bilin (fun i j => A i j + S i j : Matrix (Fin N) (Fin N) ℝ) x y =
      bilin A x y + ∑ i : Fin N, ∑ j : Fin N, x i * S i j * y j := by
  unfold bilin
  rw [← Finset.sum_add_distrib]
  refine Finset.sum_congr rfl fun i _ => ?_
  rw [← Finset.sum_add_distrib]
  exact Finset.sum_congr rfl fun j _ => by ring

theorem assembleFrom_ok {N : ℕ} {mat : Elm → Res LMat} {l : List (Elm × Dict DofKey ℕ)}
    {A B : Matrix (Fin N) (Fin N) ℝ}
    (hd : ∀ x ∈ l, x.2.values.Nodup)
    (h : l.foldlM (fun A x => do
      let E ← mat x.1
      ixAdd A x.2.values E) A = .ok B) :
    ∃ Es : List LMat, l.map (fun x => mat x.1) = Es.map .ok ∧
      (∀ x ∈ l, ∀ d ∈ x.2.values, d < N) ∧
      (∀ x ∈ l.zip Es, x.2.1 = x.1.2.values.length) ∧
      ∀ x y, bilin B x y = bilin A x y +
        ((l.zip Es).map fun z => elemBilin z.1.2.values z.2.2 x y).sum := by
  induction l generalizing A with
  | nil =>
    simp only [List.foldlM_nil, pure, Except.pure, Except.ok.injEq] at h
    subst h
    exact ⟨[], by simp⟩
  | cons a t ih =>
    rw [List.foldlM_cons] at h
    obtain ⟨A', h1, h2⟩ := bind_ok.1 h
    obtain ⟨E, h3, h4⟩ := bind_ok.1 h1
    obtain ⟨h5, h6, h7⟩ := ixAdd_ok.1 h4
    obtain ⟨Es, e1, e2, e3, e4⟩ := ih (fun x hx => hd x (List.mem_cons_of_mem _ hx)) h2
    refine ⟨E :: Es, by simp [h3, e1], ?_, ?_, ?_⟩
    · intro x hx
      rcases List.mem_cons.1 hx with rfl | hx
      · exact h5
      · exact e2 x hx
    · intro x hx
      rcases List.mem_cons.1 hx with rfl | hx
      · exact h6
      · exact e3 x hx
    · intro x y
      rw [e4 x y, h7, bilin_add, bilin_scat (hd a List.mem_cons_self) h5 h6]
      simp only [List.zip_cons_cons, List.map_cons, List.sum_cons]
      ring

theorem bilin_zero {N : ℕ} (x y : ℕ → ℝ) : bilin (0 : Matrix (Fin N) (Fin N) ℝ) x y = 0 := by
  simp [bilin]

theorem assemble_ok {N : ℕ} {mat : Elm → Res LMat} {l : List (Elm × Dict DofKey ℕ)}
    {B : Matrix (Fin N) (Fin N) ℝ} (hd : ∀ x ∈ l, x.2.values.Nodup)
    (h : Rotor.assemble N mat l = .ok B) :
    ∃ Es : List LMat, l.map (fun x => mat x.1) = Es.map .ok ∧
      (∀ x ∈ l, ∀ d ∈ x.2.values, d < N) ∧
      (∀ x ∈ l.zip Es, x.2.1 = x.1.2.values.length) ∧
      ∀ x y, bilin B x y = ((l.zip Es).map fun z => elemBilin z.1.2.values z.2.2 x y).sum := by
  obtain ⟨Es, h1, h2, h3, h4⟩ := assembleFrom_ok hd h
  exact ⟨Es, h1, h2, h3, fun x y => by rw [h4 x y, bilin_zero, zero_add]⟩

/-- Assembly succeeds when every element matrix exists and fits. -/
theorem assemble_exists {N : ℕ} {mat : Elm → Res LMat} {l : List (Elm × Dict DofKey ℕ)}
    (h : ∀ x ∈ l, ∃ E, mat x.1 = .ok E ∧ E.1 = x.2.values.length)
    (hN : ∀ x ∈ l, ∀ d ∈ x.2.values, d < N) :
    ∃ B, Rotor.assemble N mat l = .ok B := by
  unfold Rotor.assemble
  generalize (0 : Matrix (Fin N) (Fin N) ℝ) = A
  induction l generalizing A with
  | nil => exact ⟨A, rfl⟩
  | cons a t ih =>
    obtain ⟨E, hE, hE'⟩ := h a List.mem_cons_self
    have := ixAdd_ok.2 ⟨hN a List.mem_cons_self, hE', (rfl : (fun i j => A i j +
      scat a.2.values E i j : Matrix (Fin N) (Fin N) ℝ) = _)⟩
    obtain ⟨B, hB⟩ := ih (fun x hx => h x (List.mem_cons_of_mem _ hx))
      (fun x hx => hN x (List.mem_cons_of_mem _ hx)) _
    refine ⟨B, ?_⟩
    rw [List.foldlM_cons]
    exact bind_ok.2 ⟨_, bind_ok.2 ⟨E, hE, this⟩, hB⟩

/-- Two matrices with the same bilinear form are equal. -/
theorem bilin_ext {N : ℕ} {A B : Matrix (Fin N) (Fin N) ℝ}
    (h : ∀ x y, bilin A x y = bilin B x y) : A = B := by
  have hp : ∀ (C : Matrix (Fin N) (Fin N) ℝ) (i j : Fin N),
      bilin C (fun k => if k = i then 1 else 0) (fun k => if k = j then 1 else 0) = C i j := by
    intro C i j
    simp [bilin, ← Fin.ext_iff]
  ext i j
  rw [← hp A i j, h, hp B i j]

end Ross.AssemblyLemmas
