import Verif.Model.StRotor
import Mathlib.Data.List.Sort
import Mathlib.Algebra.Order.Floor.Semiring
import Mathlib.Algebra.Order.BigOperators.Group.List
import Mathlib.Tactic.FieldSimp

/-! # Percentiles -/

namespace Ross.PercentileLemmas

open Stochastic

/-- The sorted list. -/
noncomputable def sorted (l : List ℝ) : List ℝ := l.mergeSort (fun a b => decide (a ≤ b))

theorem sorted_perm (l : List ℝ) : (sorted l).Perm l := List.mergeSort_perm _ _

theorem sorted_length (l : List ℝ) : (sorted l).length = l.length := (sorted_perm l).length_eq

theorem sorted_le (l : List ℝ) {i j : ℕ} (hij : i ≤ j) (hj : j < (sorted l).length) :
    (sorted l)[i]'(by omega) ≤ (sorted l)[j] := by
  have h : (sorted l).Pairwise (· ≤ ·) := by
    have := List.pairwise_mergeSort' (r := ((· ≤ ·) : ℝ → ℝ → Prop)) l
    exact this
  rcases hij.eq_or_lt with rfl | hlt
  · exact le_rfl
  · exact List.pairwise_iff_getElem.1 h i j _ hj hlt

/-- The position of a percentile among the sorted values. -/
noncomputable def posOf (l : List ℝ) (q : ℝ) : ℝ := q / 100 * (l.length - 1)

/-- The value at a position among the sorted values. -/
noncomputable def valueAt (l : List ℝ) (x : ℝ) : ℝ :=
  (sorted l).getD ⌊x⌋₊ 0 + ((sorted l).getD (min (⌊x⌋₊ + 1) (l.length - 1)) 0 - (sorted l).getD ⌊x⌋₊ 0) * (x - ⌊x⌋₊)

variable {l : List ℝ}

theorem pos_nonneg (hl : l ≠ []) {q : ℝ} (h0 : 0 ≤ q) : 0 ≤ posOf l q := by
  have : 1 ≤ l.length := List.length_pos_iff.2 hl
  have : (1 : ℝ) ≤ l.length := by exact_mod_cast this
  exact mul_nonneg (by positivity) (by linarith)

theorem pos_le (hl : l ≠ []) {q : ℝ} (h1 : q ≤ 100) : posOf l q ≤ (l.length - 1 : ℕ) := by
  have h : 1 ≤ l.length := List.length_pos_iff.2 hl
  rw [Nat.cast_sub h]
  have : (1 : ℝ) ≤ l.length := by exact_mod_cast h
  unfold posOf
  push_cast
  calc q / 100 * ((l.length : ℝ) - 1) ≤ 1 * ((l.length : ℝ) - 1) :=
        mul_le_mul_of_nonneg_right (by linarith) (by linarith)
    _ = _ := one_mul _

theorem pos_mono (hl : l ≠ []) {q q' : ℝ} (h : q ≤ q') : posOf l q ≤ posOf l q' := by
  have h1 : 1 ≤ l.length := List.length_pos_iff.2 hl
  have : (1 : ℝ) ≤ l.length := by exact_mod_cast h1
  exact mul_le_mul_of_nonneg_right (by linarith) (by linarith)

theorem getD_eq {i : ℕ} (h : i < l.length) :
    (sorted l).getD i 0 = (sorted l)[i]'(by rw [sorted_length]; exact h) := by
  rw [List.getD_eq_getElem?_getD, List.getElem?_eq_getElem (by rw [sorted_length]; exact h)]
  rfl

theorem getD_mono {i j : ℕ} (hij : i ≤ j) (hj : j < l.length) : (sorted l).getD i 0 ≤ (sorted l).getD j 0 := by
  rw [getD_eq (by omega), getD_eq hj]
  exact sorted_le l hij _

theorem percentile_eq (hl : l ≠ []) {q : ℝ} (h0 : 0 ≤ q) (h1 : q ≤ 100) :
    percentile l q = .ok (valueAt l (posOf l q)) := by
  have hn : 1 ≤ l.length := List.length_pos_iff.2 hl
  have hp := pos_nonneg hl h0
  have hp' := pos_le hl h1
  have hk : ⌊posOf l q⌋₊ ≤ l.length - 1 := by
    have := Nat.floor_le hp
    exact_mod_cast this.trans hp'
  unfold percentile
  rw [if_neg (by push Not; exact ⟨h0, h1⟩)]
  show (match (sorted l)[⌊q / 100 * (((sorted l).length : ℝ) - 1)⌋₊]?,
      (sorted l)[⌊q / 100 * (((sorted l).length : ℝ) - 1)⌋₊ + 1]? with
    | none, _ => (Except.error PyErr.indexError : Res ℝ)
    | some x, none => Except.ok x
    | some x, some y => Except.ok (x + (y - x) * (q / 100 * (((sorted l).length : ℝ) - 1) -
        ⌊q / 100 * (((sorted l).length : ℝ) - 1)⌋₊))) = _
  rw [sorted_length, show q / 100 * ((l.length : ℝ) - 1) = posOf l q from rfl]
  have hk1 : ⌊posOf l q⌋₊ < (sorted l).length := by rw [sorted_length]; omega
  unfold valueAt
  rcases lt_or_ge (⌊posOf l q⌋₊ + 1) (sorted l).length with h2 | h2
  · rw [List.getElem?_eq_getElem hk1, List.getElem?_eq_getElem h2]
    rw [sorted_length] at h2
    rw [min_eq_left (by omega), getD_eq (by omega), getD_eq h2]
  · rw [List.getElem?_eq_getElem hk1, List.getElem?_eq_none h2]
    rw [sorted_length] at h2
    rw [min_eq_right (by omega), show l.length - 1 = ⌊posOf l q⌋₊ by omega, getD_eq (by omega)]
    simp

theorem valueAt_bounds (hl : l ≠ []) {x : ℝ} (h0 : 0 ≤ x) (h1 : x ≤ (l.length - 1 : ℕ)) :
    (sorted l).getD ⌊x⌋₊ 0 ≤ valueAt l x ∧
    valueAt l x ≤ (sorted l).getD (min (⌊x⌋₊ + 1) (l.length - 1)) 0 := by
  have hn : 1 ≤ l.length := List.length_pos_iff.2 hl
  have hk : ⌊x⌋₊ ≤ l.length - 1 := by exact_mod_cast (Nat.floor_le h0).trans h1
  have hs : (sorted l).getD ⌊x⌋₊ 0 ≤ (sorted l).getD (min (⌊x⌋₊ + 1) (l.length - 1)) 0 :=
    getD_mono (by omega) (by omega)
  have f0 : 0 ≤ x - ⌊x⌋₊ := by linarith [Nat.floor_le h0]
  have f1 : x - ⌊x⌋₊ ≤ 1 := by linarith [Nat.lt_floor_add_one x]
  unfold valueAt
  constructor
  · nlinarith
  · nlinarith

theorem valueAt_nat (k : ℕ) : valueAt l k = (sorted l).getD k 0 := by
  unfold valueAt
  simp

theorem valueAt_mono (hl : l ≠ []) {x y : ℝ} (h0 : 0 ≤ x) (hxy : x ≤ y) (h1 : y ≤ (l.length - 1 : ℕ)) :
    valueAt l x ≤ valueAt l y := by
  have hn : 1 ≤ l.length := List.length_pos_iff.2 hl
  have hk : ⌊y⌋₊ ≤ l.length - 1 := by exact_mod_cast (Nat.floor_le (h0.trans hxy)).trans h1
  have hf : ⌊x⌋₊ ≤ ⌊y⌋₊ := Nat.floor_le_floor hxy
  rcases hf.eq_or_lt with hf | hf
  · unfold valueAt
    rw [← hf] at hk ⊢
    have hs : (sorted l).getD ⌊x⌋₊ 0 ≤ (sorted l).getD (min (⌊x⌋₊ + 1) (l.length - 1)) 0 :=
      getD_mono (by omega) (by omega)
    nlinarith
  · refine (valueAt_bounds hl h0 (hxy.trans h1)).2.trans ?_
    refine le_trans ?_ (valueAt_bounds hl (h0.trans hxy) h1).1
    exact getD_mono (by omega) (by omega)

/-- Sorted values between two positions are between the values at these positions. -/
theorem count_ge (hl : l ≠ []) {x y : ℝ} (h0 : 0 ≤ x) (hxy : x ≤ y) (h1 : y ≤ (l.length - 1 : ℕ)) :
    y - x - 1 < (l.countP fun v => decide (valueAt l x ≤ v ∧ v ≤ valueAt l y) : ℕ) := by
  have hn : 1 ≤ l.length := List.length_pos_iff.2 hl
  have hy0 := h0.trans hxy
  have hk : ⌊y⌋₊ ≤ l.length - 1 := by exact_mod_cast (Nat.floor_le hy0).trans h1
  rw [← (sorted_perm l).countP_eq]
  have hsub : (((sorted l).take (⌊y⌋₊ + 1)).drop ⌈x⌉₊).Sublist (sorted l) :=
    (List.drop_sublist _ _).trans (List.take_sublist _ _)
  have hle := hsub.countP_le (p := fun v => decide (valueAt l x ≤ v ∧ v ≤ valueAt l y))
  have hall : (((sorted l).take (⌊y⌋₊ + 1)).drop ⌈x⌉₊).countP
      (fun v => decide (valueAt l x ≤ v ∧ v ≤ valueAt l y)) =
      (((sorted l).take (⌊y⌋₊ + 1)).drop ⌈x⌉₊).length := by
    rw [List.countP_eq_length]
    intro v hv
    obtain ⟨i, hi, rfl⟩ := List.getElem_of_mem hv
    simp only [List.length_drop, List.length_take, sorted_length] at hi
    rw [List.getElem_drop, List.getElem_take]
    have hi' : ⌈x⌉₊ + i < l.length := by omega
    rw [← getD_eq hi', ← valueAt_nat]
    simp only [decide_eq_true_eq]
    constructor
    · refine valueAt_mono hl h0 ((Nat.le_ceil x).trans (by exact_mod_cast Nat.le_add_right _ _)) ?_
      exact_mod_cast (by omega : ⌈x⌉₊ + i ≤ l.length - 1)
    · refine valueAt_mono hl (by positivity) ?_ h1
      exact le_trans (by exact_mod_cast (by omega : ⌈x⌉₊ + i ≤ ⌊y⌋₊)) (Nat.floor_le hy0)
  rw [hall] at hle
  simp only [List.length_drop, List.length_take, sorted_length] at hle
  have hle' : ⌊y⌋₊ + 1 ≤ (sorted l).countP (fun v => decide (valueAt l x ≤ v ∧ v ≤ valueAt l y)) + ⌈x⌉₊ := by omega
  have hle'' : (⌊y⌋₊ : ℝ) + 1 ≤
      ((sorted l).countP (fun v => decide (valueAt l x ≤ v ∧ v ≤ valueAt l y)) : ℕ) + (⌈x⌉₊ : ℝ) := by
    exact_mod_cast hle'
  have := Nat.lt_floor_add_one y
  have := Nat.ceil_lt_add_one h0
  linarith

/-- Values strictly between the values at two positions are between these positions. -/
theorem count_le (hl : l ≠ []) {x y : ℝ} (h0 : 0 ≤ x) (hxy : x ≤ y) (h1 : y ≤ (l.length - 1 : ℕ)) :
    (l.countP fun v => decide (valueAt l x < v ∧ v < valueAt l y) : ℕ) < y - x + 1 := by
  have hn : 1 ≤ l.length := List.length_pos_iff.2 hl
  have hy0 := h0.trans hxy
  have hk : ⌊y⌋₊ ≤ l.length - 1 := by exact_mod_cast (Nat.floor_le hy0).trans h1
  have hkx : ⌊x⌋₊ ≤ ⌊y⌋₊ := Nat.floor_le_floor hxy
  have hkc : ⌈y⌉₊ ≤ l.length - 1 := Nat.ceil_le.2 h1
  rw [← (sorted_perm l).countP_eq]
  set p : ℝ → Bool := fun v => decide (valueAt l x < v ∧ v < valueAt l y)
  have hsplit : sorted l = (sorted l).take (⌊x⌋₊ + 1) ++
      (((sorted l).take ⌈y⌉₊).drop (⌊x⌋₊ + 1) ++ (sorted l).drop (max ⌈y⌉₊ (⌊x⌋₊ + 1))) := by
    rcases le_total (⌊x⌋₊ + 1) ⌈y⌉₊ with h | h
    · rw [max_eq_left h]
      conv_lhs => rw [← List.take_append_drop ⌈y⌉₊ (sorted l),
        ← List.take_append_drop (⌊x⌋₊ + 1) ((sorted l).take ⌈y⌉₊), List.take_take, min_eq_left h, List.append_assoc]
    · rw [max_eq_right h, List.drop_eq_nil_of_le (by rw [List.length_take]; omega), List.nil_append,
        List.take_append_drop]
  have hz : ∀ i, i < l.length → (i ≤ ⌊x⌋₊ ∨ ⌈y⌉₊ ≤ i) → ¬ p ((sorted l).getD i 0) = true := by
    intro i hi h
    simp only [p, decide_eq_true_eq, not_and_or, not_lt]
    rw [← valueAt_nat]
    rcases h with h | h
    · left
      refine valueAt_mono hl (by positivity) ?_ (hxy.trans h1)
      exact le_trans (by exact_mod_cast h) (Nat.floor_le h0)
    · right
      refine valueAt_mono hl hy0 ((Nat.le_ceil y).trans (by exact_mod_cast h)) ?_
      exact_mod_cast (by omega : i ≤ l.length - 1)
  have c1 : ((sorted l).take (⌊x⌋₊ + 1)).countP p = 0 := by
    rw [List.countP_eq_zero]
    intro v hv
    obtain ⟨i, hi, rfl⟩ := List.getElem_of_mem hv
    simp only [List.length_take, sorted_length] at hi
    rw [List.getElem_take, ← getD_eq (by omega)]
    exact hz i (by omega) (.inl (by omega))
  have c3 : ((sorted l).drop (max ⌈y⌉₊ (⌊x⌋₊ + 1))).countP p = 0 := by
    rw [List.countP_eq_zero]
    intro v hv
    obtain ⟨i, hi, rfl⟩ := List.getElem_of_mem hv
    simp only [List.length_drop, sorted_length] at hi
    rw [List.getElem_drop, ← getD_eq (by omega)]
    exact hz _ (by omega) (.inr (by omega))
  have c2 : (((sorted l).take ⌈y⌉₊).drop (⌊x⌋₊ + 1)).countP p ≤ ⌈y⌉₊ - (⌊x⌋₊ + 1) := by
    refine List.countP_le_length.trans ?_
    simp only [List.length_drop, List.length_take, sorted_length]
    omega
  have hc : (sorted l).countP p ≤ ⌈y⌉₊ - (⌊x⌋₊ + 1) := by
    conv_lhs => rw [hsplit]
    rw [List.countP_append, List.countP_append, c1, c3]
    omega
  have := Nat.lt_floor_add_one x
  have := Nat.ceil_lt_add_one hy0
  rcases le_total (⌊x⌋₊ + 1) ⌈y⌉₊ with h | h
  · have : (((sorted l).countP p : ℕ) : ℝ) ≤ (⌈y⌉₊ : ℝ) - (⌊x⌋₊ + 1) := by
      have h' : (sorted l).countP p + (⌊x⌋₊ + 1) ≤ ⌈y⌉₊ := by omega
      have : (((sorted l).countP p : ℕ) : ℝ) + (⌊x⌋₊ + 1) ≤ (⌈y⌉₊ : ℝ) := by exact_mod_cast h'
      linarith
    linarith
  · have : (sorted l).countP p = 0 := by omega
    rw [this]
    push_cast
    linarith

theorem pos_zero : posOf l 0 = 0 := by simp [posOf]

theorem pos_hundred (hl : l ≠ []) : posOf l 100 = (l.length - 1 : ℕ) := by
  have h : 1 ≤ l.length := List.length_pos_iff.2 hl
  rw [Nat.cast_sub h]
  simp [posOf]

theorem mem_sorted {v : ℝ} (hv : v ∈ l) : ∃ i, i < l.length ∧ v = (sorted l).getD i 0 := by
  obtain ⟨i, hi, rfl⟩ := List.getElem_of_mem ((sorted_perm l).mem_iff.2 hv)
  rw [sorted_length] at hi
  exact ⟨i, hi, (getD_eq hi).symm⟩

theorem getD_mem {i : ℕ} (h : i < l.length) : (sorted l).getD i 0 ∈ l := by
  rw [getD_eq h]
  exact (sorted_perm l).mem_iff.1 (List.getElem_mem _)

end Ross.PercentileLemmas
