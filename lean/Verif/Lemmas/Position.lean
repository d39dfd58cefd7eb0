import Mathlib.Data.List.Sort
import Verif.Spec.Position
import Verif.Lemmas.Rotor

/-! # Axial positions -/

namespace Ross.RotorLemmas

open Ross Ross.Spec Ross.BearingLemmas Ross.Rotor

theorem leftNode_eq : leftNode = nodeOf := rfl

theorem layerLength_cons (e : ShaftEl) (t : List ShaftEl) (g : ℕ) :
    layerLength (e :: t) g = if nodeOf e = g then e.s.L else layerLength t g := by
  unfold layerLength
  rw [leftNode_eq, List.find?_cons]
  by_cases h : nodeOf e = g <;> simp [h]

theorem leftNodes_cons (e : ShaftEl) (t : List ShaftEl) :
    leftNodes (e :: t) = insert (nodeOf e) (leftNodes t) := by
  simp [leftNodes, leftNode_eq]

theorem mem_leftNodes {t : List ShaftEl} {x : ℕ} : x ∈ leftNodes t ↔ ∃ e ∈ t, nodeOf e = x := by
  simp [leftNodes, leftNode_eq]

/-- Length of the layers strictly between two nodes. -/
noncomputable def between (p : ℕ) (t : List ShaftEl) (g : ℕ) : ℝ :=
  ∑ x ∈ leftNodes t with p < x ∧ x < g, layerLength t x

theorem shaftPosAux_eq (t : List ShaftEl) : ∀ (prev : ShaftEl) (l r : ℝ),
    (prev :: t).Pairwise (fun x y => nodeOf x ≤ nodeOf y) →
    shaftPosAux prev l r t = t.map fun e =>
      if nodeOf e = nodeOf prev then (l, r)
      else (r + between (nodeOf prev) t (nodeOf e),
        r + between (nodeOf prev) t (nodeOf e) + layerLength t (nodeOf e)) := by
  induction t with
  | nil => intros; rfl
  | cons e t ih =>
    intro prev l r hs
    have hs' := (List.pairwise_cons.1 hs).2
    have hpe := (List.pairwise_cons.1 hs).1 e List.mem_cons_self
    have het : ∀ y ∈ t, nodeOf e ≤ nodeOf y := (List.pairwise_cons.1 hs').1
    rw [shaftPosAux]
    by_cases h : nodeOf e = nodeOf prev
    · rw [if_pos h, List.map_cons, if_pos h, ih e l r hs']
      refine congrArg _ (List.map_congr_left fun y hy => ?_)
      rw [h]
      by_cases hy' : nodeOf y = nodeOf prev
      · rw [if_pos hy', if_pos hy']
      · have h1 : between (nodeOf prev) (e :: t) (nodeOf y) = between (nodeOf prev) t (nodeOf y) := by
          unfold between
          rw [leftNodes_cons, Finset.filter_insert, if_neg (by omega)]
          refine Finset.sum_congr rfl fun x hx => ?_
          rw [layerLength_cons, if_neg]
          have := (Finset.mem_filter.1 hx).2
          omega
        rw [if_neg hy', if_neg hy', h1, layerLength_cons, if_neg (by omega)]
    · have hlt : nodeOf prev < nodeOf e := by omega
      rw [if_neg h, List.map_cons, if_neg h, ih e r (r + e.s.L) hs']
      have h0 : between (nodeOf prev) (e :: t) (nodeOf e) = 0 := by
        unfold between
        refine Finset.sum_eq_zero fun x hx => ?_
        exfalso
        obtain ⟨h1, h2, h3⟩ := Finset.mem_filter.1 hx
        obtain ⟨y, hy, rfl⟩ := mem_leftNodes.1 h1
        rcases List.mem_cons.1 hy with rfl | hy
        · omega
        · have := het y hy; omega
      rw [h0, layerLength_cons, if_pos rfl, add_zero]
      refine congrArg _ (List.map_congr_left fun y hy => ?_)
      have hyp : nodeOf y ≠ nodeOf prev := by have := het y hy; omega
      rw [if_neg hyp]
      by_cases hy' : nodeOf y = nodeOf e
      · rw [if_pos hy', hy', h0, layerLength_cons, if_pos rfl, add_zero]
      · have hye : nodeOf e < nodeOf y := by have := het y hy; omega
        rw [if_neg hy', layerLength_cons, if_neg (fun hc => hy' hc.symm)]
        have h1 : between (nodeOf prev) (e :: t) (nodeOf y) =
            e.s.L + between (nodeOf e) t (nodeOf y) := by
          unfold between
          have hset : (leftNodes (e :: t)).filter (fun x => nodeOf prev < x ∧ x < nodeOf y) =
              insert (nodeOf e) ((leftNodes t).filter fun x => nodeOf e < x ∧ x < nodeOf y) := by
            ext x
            simp only [leftNodes_cons, Finset.mem_filter, Finset.mem_insert]
            constructor
            · rintro ⟨h1 | h1, h2, h3⟩
              · exact Or.inl h1
              · obtain ⟨z, hz, rfl⟩ := mem_leftNodes.1 h1
                have := het z hz
                rcases this.lt_or_eq with h4 | h4
                · exact Or.inr ⟨h1, h4, h3⟩
                · exact Or.inl h4.symm
            · rintro (h1 | ⟨h1, h2, h3⟩)
              · subst h1; exact ⟨Or.inl rfl, hlt, hye⟩
              · exact ⟨Or.inr h1, by omega, h3⟩
          rw [hset, Finset.sum_insert (by simp), layerLength_cons, if_pos rfl]
          congr 1
          refine Finset.sum_congr rfl fun x hx => ?_
          rw [layerLength_cons, if_neg]
          have := (Finset.mem_filter.1 hx).2
          omega
        rw [h1, add_assoc, add_assoc, add_assoc]

theorem shaftPos_eq {sh : List ShaftEl} (hs : sh.Pairwise fun x y => nodeOf x ≤ nodeOf y) :
    shaftPos sh = sh.map fun e =>
      (position sh (nodeOf e), position sh (nodeOf e) + layerLength sh (nodeOf e)) := by
  cases sh with
  | nil => rfl
  | cons e t =>
    have het : ∀ y ∈ t, nodeOf e ≤ nodeOf y := (List.pairwise_cons.1 hs).1
    have h0 : position (e :: t) (nodeOf e) = 0 := by
      unfold position
      refine Finset.sum_eq_zero fun x hx => ?_
      exfalso
      obtain ⟨h1, h2⟩ := Finset.mem_filter.1 hx
      obtain ⟨y, hy, rfl⟩ := mem_leftNodes.1 h1
      rcases List.mem_cons.1 hy with rfl | hy
      · omega
      · have := het y hy; omega
    rw [shaftPos, shaftPosAux_eq t e 0 _ hs, List.map_cons, h0, layerLength_cons, if_pos rfl]
    refine congrArg _ (List.map_congr_left fun y hy => ?_)
    by_cases hy' : nodeOf y = nodeOf e
    · rw [if_pos hy', hy', h0, layerLength_cons, if_pos rfl]
    · have hye : nodeOf e < nodeOf y := by have := het y hy; omega
      rw [if_neg hy', layerLength_cons, if_neg (fun hc => hy' hc.symm)]
      have h1 : position (e :: t) (nodeOf y) = e.s.L + between (nodeOf e) t (nodeOf y) := by
        unfold position between
        have hset : (leftNodes (e :: t)).filter (fun x => x < nodeOf y) =
            insert (nodeOf e) ((leftNodes t).filter fun x => nodeOf e < x ∧ x < nodeOf y) := by
          ext x
          simp only [leftNodes_cons, Finset.mem_filter, Finset.mem_insert]
          constructor
          · rintro ⟨h1 | h1, h3⟩
            · exact Or.inl h1
            · obtain ⟨z, hz, rfl⟩ := mem_leftNodes.1 h1
              rcases (het z hz).lt_or_eq with h4 | h4
              · exact Or.inr ⟨h1, h4, h3⟩
              · exact Or.inl h4.symm
          · rintro (h1 | ⟨h1, h2, h3⟩)
            · subst h1; exact ⟨Or.inl rfl, hye⟩
            · exact ⟨Or.inr h1, h3⟩
        rw [hset, Finset.sum_insert (by simp), layerLength_cons, if_pos rfl]
        congr 1
        refine Finset.sum_congr rfl fun x hx => ?_
        rw [layerLength_cons, if_neg]
        have := (Finset.mem_filter.1 hx).2
        omega
      rw [h1, zero_add]

theorem groups_sorted {sh : List ShaftEl} (hs : sh.Pairwise fun x y => nodeOf x ≤ nodeOf y) :
    (groups sh).Pairwise (· < ·) := by
  have h1 : (sh.map nodeOf).Pairwise (· ≤ ·) := List.pairwise_map.2 hs
  have h2 : (groups sh).Pairwise (· ≤ ·) := h1.sublist (List.dedup_sublist _)
  have h3 : (groups sh).Pairwise (· ≠ ·) := List.nodup_dedup _
  exact (h2.and h3).imp fun h => lt_of_le_of_ne h.1 h.2

theorem mem_groups {sh : List ShaftEl} {g : ℕ} : g ∈ groups sh ↔ g ∈ leftNodes sh := by
  simp [groups, leftNodes, leftNode_eq]

theorem max_const {l : List ℝ} (hl : l ≠ []) {c : ℝ} (h : ∀ x ∈ l, x = c) : l.max? = some c := by
  rw [List.max?_eq_some_iff]
  refine ⟨?_, fun b hb => (h b hb).le⟩
  obtain ⟨x, hx⟩ := List.exists_mem_of_ne_nil _ hl
  exact h x hx ▸ hx

theorem min_const {l : List ℝ} (hl : l ≠ []) {c : ℝ} (h : ∀ x ∈ l, x = c) : l.min? = some c := by
  rw [List.min?_eq_some_iff]
  refine ⟨?_, fun b hb => (h b hb).ge⟩
  obtain ⟨x, hx⟩ := List.exists_mem_of_ne_nil _ hl
  exact h x hx ▸ hx

theorem zip_self_map {α β : Type*} (l : List α) (f : α → β) :
    l.zip (l.map f) = l.map fun x => (x, f x) := by
  induction l with
  | nil => rfl
  | cons a t ih => simp [ih]

theorem position_succ_last {sh : List ShaftEl} (_hs : sh.Pairwise fun x y => nodeOf x ≤ nodeOf y)
    {e : ShaftEl} (he : sh.getLast? = some e) :
    position sh (nodeOf e) + layerLength sh (nodeOf e) = position sh (nodeOf e + 1) := by
  have hmem : e ∈ sh := List.mem_of_getLast? he
  unfold position
  have hset : (leftNodes sh).filter (fun x => x < nodeOf e + 1) =
      insert (nodeOf e) ((leftNodes sh).filter fun x => x < nodeOf e) := by
    ext x
    simp only [Finset.mem_filter, Finset.mem_insert]
    constructor
    · rintro ⟨h1, h2⟩
      rcases Nat.lt_succ_iff_lt_or_eq.1 h2 with h | h
      · exact Or.inr ⟨h1, h⟩
      · exact Or.inl h
    · rintro (h | ⟨h1, h2⟩)
      · subst h; exact ⟨mem_leftNodes.2 ⟨e, hmem, rfl⟩, by omega⟩
      · exact ⟨h1, by omega⟩
  rw [hset, Finset.sum_insert (by simp), add_comm]

/-- Positions of the distinct left nodes, then the end of the last element. -/
theorem nodesPos_eq {sh : List ShaftEl} (hne : sh ≠ [])
    (hs : sh.Pairwise fun x y => nodeOf x ≤ nodeOf y) :
    nodesPos sh = (groups sh ++ [lastNode sh + 1]).map (position sh) := by
  obtain ⟨e, he⟩ : ∃ e, sh.getLast? = some e := ⟨_, List.getLast?_eq_getLast_of_ne_nil hne⟩
  unfold nodesPos
  dsimp only
  rw [shaftPos_eq hs, List.map_append]
  congr 1
  · refine List.map_congr_left fun g hg => ?_
    rw [zip_self_map]
    obtain ⟨y, hy, hyg⟩ := mem_leftNodes.1 (mem_groups.1 hg)
    rw [max_const (c := position sh g)]
    · rfl
    · refine List.ne_nil_of_mem (List.mem_map.2 ⟨(y, _), List.mem_filter.2 ⟨List.mem_map.2
        ⟨y, hy, rfl⟩, by simpa using hyg⟩, rfl⟩)
    · intro x hx
      obtain ⟨z, hz, rfl⟩ := List.mem_map.1 hx
      obtain ⟨h1, h2⟩ := List.mem_filter.1 hz
      obtain ⟨w, -, rfl⟩ := List.mem_map.1 h1
      have : nodeOf w = g := by simpa using h2
      simp only [this]
  · have : lastNode sh = nodeOf e := by simp [lastNode, he]
    rw [List.getLast?_map, he, this]
    simp only [Option.map_some, Option.getD_some, List.map_cons, List.map_nil]
    rw [position_succ_last hs he]

theorem last_pos {sh : List ShaftEl} (hne : sh ≠ [])
    (hs : sh.Pairwise fun x y => nodeOf x ≤ nodeOf y) :
    ((nodesPos sh).getLast?).getD 0 = position sh (lastNode sh + 1) := by
  rw [nodesPos_eq hne hs]; simp

theorem axialCg_eq {sh : List ShaftEl} (hs : sh.Pairwise fun x y => nodeOf x ≤ nodeOf y) :
    axialCg sh = sh.map fun e => e.s.beam_cg + position sh (nodeOf e) := by
  unfold axialCg
  rw [shaftPos_eq hs, zip_self_map, List.map_map]
  rfl

end Ross.RotorLemmas
