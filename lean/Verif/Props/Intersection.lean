import Mathlib.Tactic.Ring
import Mathlib.Tactic.Linarith
import Mathlib.Tactic.FieldSimp
import Mathlib.Tactic.LinearCombination
import Mathlib.LinearAlgebra.Matrix.Determinant.Basic
import Verif.Model.Intersection
import Verif.Spec.Intersection

/-! # C34: intersections of curves -/

namespace Ross.Props

open Ross Ross.Spec Ross.Intersection Matrix

theorem linSolve_iff {n : ℕ} {A : Matrix (Fin n) (Fin n) ℝ} {b T : Fin n → ℝ} :
    linSolve A b = some T ↔ A.det ≠ 0 ∧ A *ᵥ T = b := by
  unfold linSolve
  split_ifs with h
  · simp [h]
  · have hu : IsUnit A.det := isUnit_iff_ne_zero.2 h
    simp only [Option.some.injEq, ne_eq, h, not_false_eq_true, true_and]
    constructor
    · rintro rfl
      rw [Matrix.mulVec_mulVec, Matrix.mul_nonsing_inv _ hu, Matrix.one_mulVec]
    · rintro rfl
      rw [Matrix.mulVec_mulVec, Matrix.nonsing_inv_mul _ hu, Matrix.one_mulVec]

theorem det_matA (x1 y1 x2 y2 : List ℝ) (i j : ℕ) : (matA x1 y1 x2 y2 i j).det =
    (x1.getD (i + 1) 0 - x1.getD i 0) * (y2.getD (j + 1) 0 - y2.getD j 0) -
      (y1.getD (i + 1) 0 - y1.getD i 0) * (x2.getD (j + 1) 0 - x2.getD j 0) := by
  unfold matA
  generalize x1.getD (i + 1) 0 = a1, x1.getD i 0 = a2, y1.getD (i + 1) 0 = a3, y1.getD i 0 = a4,
    x2.getD (j + 1) 0 = b1, x2.getD j 0 = b2, y2.getD (j + 1) 0 = b3, y2.getD j 0 = b4
  simp [Matrix.det_succ_row_zero, Fin.sum_univ_succ, Fin.succAbove]
  ring

theorem system_iff (x1 y1 x2 y2 : List ℝ) (i j : ℕ) (T : Fin 4 → ℝ) :
    matA x1 y1 x2 y2 i j *ᵥ T = vecB x1 y1 x2 y2 i j ↔
      T 2 = x1.getD i 0 + T 0 * (x1.getD (i + 1) 0 - x1.getD i 0) ∧
      T 2 = x2.getD j 0 + T 1 * (x2.getD (j + 1) 0 - x2.getD j 0) ∧
      T 3 = y1.getD i 0 + T 0 * (y1.getD (i + 1) 0 - y1.getD i 0) ∧
      T 3 = y2.getD j 0 + T 1 * (y2.getD (j + 1) 0 - y2.getD j 0) := by
  unfold matA vecB
  generalize x1.getD (i + 1) 0 = a1, x1.getD i 0 = a2, y1.getD (i + 1) 0 = a3, y1.getD i 0 = a4,
    x2.getD (j + 1) 0 = b1, x2.getD j 0 = b2, y2.getD (j + 1) 0 = b3, y2.getD j 0 = b4
  constructor
  · intro h
    have h0 := congrFun h 0
    have h1 := congrFun h 1
    have h2 := congrFun h 2
    have h3 := congrFun h 3
    simp [Matrix.mulVec, dotProduct, Fin.sum_univ_succ] at h0 h1 h2 h3
    refine ⟨?_, ?_, ?_, ?_⟩ <;> linarith
  · rintro ⟨h0, h1, h2, h3⟩
    funext k
    fin_cases k <;> simp [Matrix.mulVec, dotProduct, Fin.sum_univ_succ] <;> linarith

theorem getD_zip {x y : List ℝ} (h : x.length = y.length) {i : ℕ} (hi : i < (x.zip y).length) :
    (x.zip y)[i] = (x.getD i 0, y.getD i 0) := by
  have h1 : i < x.length := by simp at hi; omega
  have h2 : i < y.length := by omega
  simp [h1, h2]

variable {x1 y1 x2 y2 : List ℝ}

theorem point_iff (h1 : x1.length = y1.length) (h2 : x2.length = y2.length) {i j : ℕ}
    (hi : i + 1 < x1.length) (hj : j + 1 < x2.length) {p : ℝ × ℝ} :
    point x1 y1 x2 y2 (i, j) = some p ↔ Crossing (x1.zip y1) (x2.zip y2) i j p := by
  have hi' : i + 1 < (x1.zip y1).length := by simp; omega
  have hj' : j + 1 < (x2.zip y2).length := by simp; omega
  have e1 := getD_zip h1 (by omega : i < (x1.zip y1).length)
  have e2 := getD_zip h1 hi'
  have e3 := getD_zip h2 (by omega : j < (x2.zip y2).length)
  have e4 := getD_zip h2 hj'
  constructor
  · intro h
    unfold point at h
    cases hs : linSolve (matA x1 y1 x2 y2 i j) (vecB x1 y1 x2 y2 i j) with
    | none => simp only [hs] at h; cases h
    | some T =>
      simp only [hs] at h
      split_ifs at h with hr
      cases h
      obtain ⟨hd, hT⟩ := linSolve_iff.1 hs
      rw [det_matA] at hd
      obtain ⟨t1, t2, t3, t4⟩ := (system_iff _ _ _ _ _ _ _).1 hT
      refine ⟨hi', hj', ?_, ⟨T 0, hr.1, hr.2.2.1, ?_⟩, T 1, hr.2.1, hr.2.2.2, ?_⟩
      · rw [e1, e2, e3, e4]
        exact sub_ne_zero.1 hd
      · rw [e1, e2]; exact Prod.ext t1 t3
      · rw [e3, e4]; exact Prod.ext t2 t4
  · rintro ⟨_, _, ht, ⟨t, ht0, ht1, hp⟩, s, hs0, hs1, hq⟩
    rw [e1, e2, e3, e4] at ht
    rw [e1, e2] at hp
    rw [e3, e4] at hq
    have hsolve : linSolve (matA x1 y1 x2 y2 i j) (vecB x1 y1 x2 y2 i j) = some ![t, s, p.1, p.2] := by
      rw [linSolve_iff, det_matA, system_iff]
      refine ⟨sub_ne_zero.2 ht, ?_, ?_, ?_, ?_⟩
      · exact congrArg Prod.fst hp
      · exact congrArg Prod.fst hq
      · exact congrArg Prod.snd hp
      · exact congrArg Prod.snd hq
    unfold point
    simp only [hsolve]
    rw [if_pos ⟨ht0, hs0, ht1, hs1⟩]
    rfl

theorem between {a b t : ℝ} (h0 : 0 ≤ t) (h1 : t ≤ 1) : min a b ≤ a + t * (b - a) ∧ a + t * (b - a) ≤ max a b := by
  rcases le_total a b with h | h
  · rw [min_eq_left h, max_eq_right h]
    constructor <;> nlinarith
  · rw [min_eq_right h, max_eq_left h]
    constructor <;> nlinarith

theorem mem_candidates {i j : ℕ} : (i, j) ∈ candidates x1 y1 x2 y2 ↔
    i + 1 < x1.length ∧ j + 1 < x2.length ∧ overlap x1 x2 i j ∧ overlap y1 y2 i j := by
  unfold candidates
  simp only [List.mem_flatMap, List.mem_range, List.mem_map, List.mem_filter, Prod.mk.injEq,
    decide_eq_true_eq]
  constructor
  · rintro ⟨a, ha, b, ⟨hb, ho⟩, rfl, rfl⟩
    exact ⟨by omega, by omega, ho⟩
  · rintro ⟨ha, hb, ho⟩
    exact ⟨i, by omega, j, ⟨by omega, ho⟩, rfl, rfl⟩

theorem crossing_candidate (h1 : x1.length = y1.length) (h2 : x2.length = y2.length) {i j : ℕ}
    {p : ℝ × ℝ} (h : Crossing (x1.zip y1) (x2.zip y2) i j p) : (i, j) ∈ candidates x1 y1 x2 y2 := by
  obtain ⟨hi', hj', -, ⟨t, ht0, ht1, hp⟩, s, hs0, hs1, hq⟩ := h
  have hi : i + 1 < x1.length := by simp at hi'; omega
  have hj : j + 1 < x2.length := by simp at hj'; omega
  rw [getD_zip h1 (by omega : i < (x1.zip y1).length), getD_zip h1 hi'] at hp
  rw [getD_zip h2 (by omega : j < (x2.zip y2).length), getD_zip h2 hj'] at hq
  have a1 := congrArg Prod.fst hp
  have a2 := congrArg Prod.snd hp
  have b1 := congrArg Prod.fst hq
  have b2 := congrArg Prod.snd hq
  simp only at a1 a2 b1 b2
  rw [mem_candidates]
  refine ⟨hi, hj, ⟨?_, ?_⟩, ?_, ?_⟩
  · have := (between ht0 ht1 (a := x1.getD i 0) (b := x1.getD (i + 1) 0)).1
    have := (between hs0 hs1 (a := x2.getD j 0) (b := x2.getD (j + 1) 0)).2
    linarith
  · have := (between ht0 ht1 (a := x1.getD i 0) (b := x1.getD (i + 1) 0)).2
    have := (between hs0 hs1 (a := x2.getD j 0) (b := x2.getD (j + 1) 0)).1
    show _ ≤ _
    linarith
  · have := (between ht0 ht1 (a := y1.getD i 0) (b := y1.getD (i + 1) 0)).1
    have := (between hs0 hs1 (a := y2.getD j 0) (b := y2.getD (j + 1) 0)).2
    linarith
  · have := (between ht0 ht1 (a := y1.getD i 0) (b := y1.getD (i + 1) 0)).2
    have := (between hs0 hs1 (a := y2.getD j 0) (b := y2.getD (j + 1) 0)).1
    show _ ≤ _
    linarith

theorem candidates_sorted : (candidates x1 y1 x2 y2).Pairwise fun p q => p.1 < q.1 ∨ p.1 = q.1 ∧ p.2 < q.2 := by
  unfold candidates
  rw [List.pairwise_flatMap]
  constructor
  · intro i _
    rw [List.pairwise_map]
    refine (List.Pairwise.filter _ List.pairwise_lt_range).imp ?_
    intro a b hab
    exact .inr ⟨rfl, hab⟩
  · refine List.pairwise_lt_range.imp ?_
    intro a b hab p hp q hq
    simp only [List.mem_map] at hp hq
    obtain ⟨_, -, rfl⟩ := hp
    obtain ⟨_, -, rfl⟩ := hq
    exact .inl hab

theorem forall₂_filterMap {α β : Type} (f : α → Option β) (l : List α) :
    List.Forall₂ (fun a b => f a = some b) (l.filter fun a => (f a).isSome) (l.filterMap f) := by
  induction l with
  | nil => exact .nil
  | cons a t ih =>
    cases h : f a with
    | none => simpa [h] using ih
    | some b => simpa [h] using ih

/-- **C34** the returned points are exactly the crossings of the polylines: one for each pair of segments
that are not parallel and meet, in the order of the segments. -/
theorem C34_exact {xs ys : List ℝ} (h : intersection x1 y1 x2 y2 = .ok (xs, ys)) :
    ∃ pairs : List (ℕ × ℕ), xs.length = ys.length ∧
      pairs.Pairwise (fun p q => p.1 < q.1 ∨ p.1 = q.1 ∧ p.2 < q.2) ∧
      (∀ i j, (i, j) ∈ pairs ↔ ∃ p, Crossing (x1.zip y1) (x2.zip y2) i j p) ∧
      List.Forall₂ (fun ij p => Crossing (x1.zip y1) (x2.zip y2) ij.1 ij.2 p) pairs (xs.zip ys) := by
  unfold Intersection.intersection at h
  split_ifs at h with hc
  push Not at hc
  obtain ⟨h1, h2, -, -⟩ := hc
  simp only [Except.ok.injEq, Prod.mk.injEq] at h
  obtain ⟨rfl, rfl⟩ := h
  have hcr : ∀ i j p, (i, j) ∈ candidates x1 y1 x2 y2 →
      (point x1 y1 x2 y2 (i, j) = some p ↔ Crossing (x1.zip y1) (x2.zip y2) i j p) := by
    intro i j p hm
    obtain ⟨ha, hb, -⟩ := mem_candidates.1 hm
    exact point_iff h1 h2 ha hb
  refine ⟨(candidates x1 y1 x2 y2).filter fun p => (point x1 y1 x2 y2 p).isSome, by simp,
    candidates_sorted.filter _, ?_, ?_⟩
  · intro i j
    rw [List.mem_filter, Option.isSome_iff_exists]
    constructor
    · rintro ⟨hm, p, hp⟩
      exact ⟨p, (hcr i j p hm).1 hp⟩
    · rintro ⟨p, hp⟩
      have hm := crossing_candidate h1 h2 hp
      exact ⟨hm, p, (hcr i j p hm).2 hp⟩
  · have hz : ∀ l : List (ℝ × ℝ), (l.map Prod.fst).zip (l.map Prod.snd) = l := by
      intro l
      induction l with
      | nil => rfl
      | cons a t ih => simp [ih]
    rw [hz]
    have hf := forall₂_filterMap (point x1 y1 x2 y2) (candidates x1 y1 x2 y2)
    have hm : ∀ q ∈ (candidates x1 y1 x2 y2).filter (fun p => (point x1 y1 x2 y2 p).isSome),
        q ∈ candidates x1 y1 x2 y2 := fun q hq => (List.mem_filter.1 hq).1
    clear hz
    generalize (candidates x1 y1 x2 y2).filterMap (point x1 y1 x2 y2) = pts at hf ⊢
    generalize (candidates x1 y1 x2 y2).filter (fun p => (point x1 y1 x2 y2 p).isSome) = prs at hf hm ⊢
    induction hf with
    | nil => exact .nil
    | cons hab _ ih =>
      refine .cons ((hcr _ _ _ (hm _ (List.mem_cons_self ..))).1 hab) (ih ?_)
      exact fun q hq => hm q (List.mem_cons_of_mem _ hq)

theorem mem_forall₂_left {α β : Type} {R : α → β → Prop} {l : List α} {m : List β} (h : List.Forall₂ R l m)
    {a : α} (ha : a ∈ l) : ∃ b ∈ m, R a b := by
  induction h with
  | nil => cases ha
  | cons hr _ ih =>
    rcases List.mem_cons.1 ha with rfl | ha
    · exact ⟨_, List.mem_cons_self .., hr⟩
    · obtain ⟨b, hb, h⟩ := ih ha
      exact ⟨b, List.mem_cons_of_mem _ hb, h⟩

/-- Two lines that are not parallel meet in one point. -/
theorem crossing_unique {P Q : List (ℝ × ℝ)} {i j : ℕ} {p q : ℝ × ℝ} (hp : Crossing P Q i j p)
    (hq : Crossing P Q i j q) : p = q := by
  obtain ⟨hi, hj, ht, ⟨t, -, -, rfl⟩, s, -, -, hs⟩ := hp
  obtain ⟨_, _, -, ⟨t', -, -, rfl⟩, s', -, -, hs'⟩ := hq
  unfold Transversal at ht
  simp only [Prod.mk.injEq] at hs hs'
  have hd := sub_ne_zero.2 ht
  have : (t - t') * ((P[i + 1].1 - P[i].1) * (Q[j + 1].2 - Q[j].2) -
      (P[i + 1].2 - P[i].2) * (Q[j + 1].1 - Q[j].1)) = 0 := by
    linear_combination (Q[j + 1].2 - Q[j].2) * (hs.1 - hs'.1) - (Q[j + 1].1 - Q[j].1) * (hs.2 - hs'.2)
  rcases mul_eq_zero.1 this with h | h
  · rw [sub_eq_zero.1 h]
  · exact absurd h hd

/-- **C34** every returned point lies on a segment of each polyline, and the segments are not parallel. -/
theorem C34_sound {xs ys : List ℝ} (h : intersection x1 y1 x2 y2 = .ok (xs, ys)) {p : ℝ × ℝ}
    (hp : p ∈ xs.zip ys) : ∃ i j, Crossing (x1.zip y1) (x2.zip y2) i j p := by
  obtain ⟨pairs, -, -, -, hf⟩ := C34_exact h
  obtain ⟨ij, -, hc⟩ := mem_forall₂_left hf.flip hp
  exact ⟨_, _, hc⟩

/-- **C34** every point where two segments cross without being parallel is returned. -/
theorem C34_complete {xs ys : List ℝ} (h : intersection x1 y1 x2 y2 = .ok (xs, ys)) {i j : ℕ} {p : ℝ × ℝ}
    (hp : Crossing (x1.zip y1) (x2.zip y2) i j p) : p ∈ xs.zip ys := by
  obtain ⟨pairs, -, -, hm, hf⟩ := C34_exact h
  obtain ⟨q, hq, hc⟩ := mem_forall₂_left hf ((hm i j).2 ⟨p, hp⟩)
  rwa [crossing_unique hp hc]

/-- **C34** the call succeeds exactly for two polylines with at least one point and as many abscissae as
ordinates; every other call raises `ValueError`. -/
theorem C34_errors : ((∃ r, intersection x1 y1 x2 y2 = .ok r) ↔
      x1.length = y1.length ∧ x2.length = y2.length ∧ x1 ≠ [] ∧ x2 ≠ []) ∧
    ((∃ r, intersection x1 y1 x2 y2 = .ok r) ∨ intersection x1 y1 x2 y2 = .error .valueError) := by
  unfold Intersection.intersection
  split_ifs with hc
  · refine ⟨?_, .inr rfl⟩
    simp only [reduceCtorEq, exists_const, false_iff]
    tauto
  · push Not at hc
    exact ⟨⟨fun _ => hc, fun _ => ⟨_, rfl⟩⟩, .inl ⟨_, rfl⟩⟩

/-- **C34** swapping the curves returns the same points. -/
theorem C34_swap {xs ys xs' ys' : List ℝ} (h : intersection x1 y1 x2 y2 = .ok (xs, ys))
    (h' : intersection x2 y2 x1 y1 = .ok (xs', ys')) (p : ℝ × ℝ) : p ∈ xs.zip ys ↔ p ∈ xs'.zip ys' := by
  have flip : ∀ {P Q : List (ℝ × ℝ)} {i j : ℕ}, Crossing P Q i j p → Crossing Q P j i p := by
    rintro P Q i j ⟨hi, hj, ht, hp, hq⟩
    refine ⟨hj, hi, ?_, hq, hp⟩
    unfold Transversal at ht ⊢
    intro hc
    exact ht (by linarith)
  constructor
  · intro hp
    obtain ⟨i, j, hc⟩ := C34_sound h hp
    exact C34_complete h' (flip hc)
  · intro hp
    obtain ⟨i, j, hc⟩ := C34_sound h' hp
    exact C34_complete h (flip hc)

/-- Non-vacuity: the diagonals of the unit square cross at its centre. -/
example : ∃ xs ys, intersection [0, 1] [0, 1] [0, 1] [1, 0] = .ok (xs, ys) ∧ ((1 / 2, 1 / 2) : ℝ × ℝ) ∈ xs.zip ys := by
  obtain ⟨⟨xs, ys⟩, h⟩ := (C34_errors (x1 := [0, 1]) (y1 := [0, 1]) (x2 := [0, 1]) (y2 := [1, 0])).1.2
    ⟨rfl, rfl, by simp, by simp⟩
  refine ⟨xs, ys, h, C34_complete h (i := 0) (j := 0) ⟨by simp, by simp, ?_, ⟨1 / 2, ?_⟩, 1 / 2, ?_⟩⟩
  · norm_num [Transversal]
  · norm_num
  · norm_num

/-- **C34** a crossing in a vertex, where two segments of a curve meet, is returned once for each of
them: the returned points need not be distinct. -/
theorem C34_vertex {xs ys : List ℝ} (h : intersection x1 y1 x2 y2 = .ok (xs, ys)) {i j i' j' : ℕ}
    {p : ℝ × ℝ} (hne : (i, j) ≠ (i', j')) (hp : Crossing (x1.zip y1) (x2.zip y2) i j p)
    (hp' : Crossing (x1.zip y1) (x2.zip y2) i' j' p) : ¬ (xs.zip ys).Nodup := by
  obtain ⟨pairs, -, -, hm, hf⟩ := C34_exact h
  have key : ∀ a b, Crossing (x1.zip y1) (x2.zip y2) a b p → ∃ k, ∃ (h1 : k < pairs.length)
      (h2 : k < (xs.zip ys).length), pairs[k] = (a, b) ∧ (xs.zip ys)[k] = p := by
    intro a b hab
    obtain ⟨k, hk, e⟩ := List.mem_iff_getElem.1 ((hm a b).2 ⟨p, hab⟩)
    have hk2 : k < (xs.zip ys).length := by rw [← hf.length_eq]; exact hk
    refine ⟨k, hk, hk2, e, ?_⟩
    have := List.forall₂_iff_get.1 hf |>.2 k hk hk2
    simp only [List.get_eq_getElem, e] at this
    exact crossing_unique this hab
  obtain ⟨k, h1, h2, e, f⟩ := key _ _ hp
  obtain ⟨k', h1', h2', e', f'⟩ := key _ _ hp'
  intro hn
  have : k = k' := (List.Nodup.getElem_inj_iff hn).1 (f.trans f'.symm)
  subst this
  exact hne (e.symm.trans e')

/-- Non-vacuity: the vertical line through the middle vertex of a horizontal curve. -/
example : ∃ xs ys, intersection [0, 1, 2] [0, 0, 0] [1, 1] [-1, 1] = .ok (xs, ys) ∧ ¬ (xs.zip ys).Nodup := by
  obtain ⟨⟨xs, ys⟩, h⟩ := (C34_errors (x1 := [0, 1, 2]) (y1 := [0, 0, 0]) (x2 := [1, 1]) (y2 := [-1, 1])).1.2
    ⟨rfl, rfl, by simp, by simp⟩
  refine ⟨xs, ys, h, C34_vertex h (i := 0) (j := 0) (i' := 1) (j' := 0) (p := (1, 0)) (by simp) ?_ ?_⟩
  · refine ⟨by simp, by simp, ?_, ⟨1, ?_⟩, 1 / 2, ?_⟩ <;> norm_num [Transversal]
  · refine ⟨by simp, by simp, ?_, ⟨0, ?_⟩, 1 / 2, ?_⟩ <;> norm_num [Transversal]

end Ross.Props
