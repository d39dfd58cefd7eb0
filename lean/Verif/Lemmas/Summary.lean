import Verif.Model.Summary
import Verif.Lemmas.Place
import Verif.Lemmas.StaticCore

/-! # Lemmas about summary tables -/

namespace Ross.SummaryLemmas

open Ross Ross.Spec Ross.BearingLemmas Ross.Rotor Ross.RotorLemmas Ross.StaticLemmas Ross.AssemblyLemmas Ross.PlaceLemmas
open Summary

variable {pd : Pandas} {a : RotorArgs} {r : Rotor} {fuel : ℕ}

/-! ### Bearings in the order of their nodes -/

theorem sorted_bearings (h : init pd fuel a = some (.ok r)) : r.bearings.Pairwise fun b c => b.n ≤ c.n := by
  rw [(init_ok h).bearings]
  have := List.pairwise_mergeSort (le := fun b c : BrgEl => decide (b.n ≤ c.n))
    (fun a b c h1 h2 => by simp at *; omega) (fun a b => by simp; omega) (tagBearings a.bearings)
  simpa [parts, sortBearings] using this

/-- In a sorted list, those below a bound come first. -/
theorem sorted_filter {l : List BrgEl} (hl : l.Pairwise fun b c => b.n ≤ c.n) (c : ℕ) : ∀ (i : ℕ) (b : BrgEl),
    l[i]? = some b → (l.filter fun b => b.n < c)[i]? = if b.n < c then some b else none := by
  induction l with
  | nil => intro i b h; simp at h
  | cons x t ih =>
    intro i b h
    rw [List.pairwise_cons] at hl
    by_cases hx : x.n < c
    · rw [List.filter_cons_of_pos (by simpa using hx)]
      cases i with
      | zero =>
        simp only [List.getElem?_cons_zero, Option.some.injEq] at h ⊢
        subst h
        simp [hx]
      | succ i =>
        simp only [List.getElem?_cons_succ] at h ⊢
        exact ih hl.2 i b h
    · have hall : ∀ y ∈ x :: t, ¬ y.n < c := by
        intro y hy
        rcases List.mem_cons.1 hy with rfl | hy
        · exact hx
        · have := hl.1 y hy; omega
      rw [List.filter_eq_nil_iff.2 (by simpa using hall), if_neg (hall b (List.mem_of_getElem? h))]
      rfl

/-! ### The column of forces -/

theorem tag_fold {R : List ℝ} (bs : List BrgEl) :
    ∀ {d d' : Dict ℕ ℝ × Dict (Option String) ℝ},
      bs.foldlM (fun (d : Dict ℕ ℝ × Dict (Option String) ℝ) b =>
        match R[b.n]? with
        | some y => (.ok (Dict.set d.1 b.n y, Dict.set d.2 b.tag y) :
          Res (Dict ℕ ℝ × Dict (Option String) ℝ))
        | none => .error .indexError) d = .ok d' → (bs.map BrgEl.tag).Nodup → (∀ b ∈ bs, b.tag ∉ d.2.keys) →
      d'.2 = d.2 ++ bs.map fun b => (b.tag, R.getD b.n 0) := by
  induction bs with
  | nil => intro d d' h _ _; cases h; simp
  | cons b t ih =>
    intro d d' h hn hk
    rw [List.foldlM_cons] at h
    obtain ⟨x, hx, h⟩ := bind_ok.1 h
    rw [List.map_cons, List.nodup_cons] at hn
    by_cases hb : b.n < R.length
    · rw [List.getElem?_eq_getElem hb] at hx
      cases hx
      have hset := Dict.set_of_not_mem d.2 b.tag R[b.n] (hk b List.mem_cons_self)
      have := ih h hn.2 (by
        intro c hc hm
        simp only at hm
        rcases (Dict.mem_keys_set _ _ _ _).1 hm with e | hm
        · exact hn.1 (List.mem_map.2 ⟨c, hc, e⟩)
        · exact hk c (List.mem_cons_of_mem _ hc) hm)
      rw [this, hset]
      simp [List.getD_eq_getElem?_getD, List.getElem?_eq_getElem hb]
    · rw [List.getElem?_eq_none (by omega)] at hx; cases hx

theorem auxBrg_n (nodes : ℕ) (k : ℝ) (b : BrgEl) : (auxBrg nodes k b).n = b.n := by
  cases b <;> rfl

/-- The forces by tag are those by node, in the order of the bearings that carry the shaft. -/
theorem forces_eq (h : init pd fuel a = some (.ok r)) {pd' : Pandas} {sp : Scipy} {fuel' : ℕ} {st : StaticResults}
    (hr : r.run_static pd' sp fuel' = some (.ok st)) :
    st.bearing_forces_tag.map (fun kv => kv.2) = (carrying r).map fun b => reactionAt st b.n := by
  obtain ⟨a₀, a₁, x, x1, hi, hi1, hx, hx1, hs, rfl⟩ := run_ok h hr
  obtain ⟨s⟩ := steps hs
  have hbx := init_ok hi
  have hsort : ((carrying r).map (auxBrg r.nodes_pos.length 1e20)).Pairwise fun b c => b.n ≤ c.n := by
    rw [List.pairwise_map]
    simp only [auxBrg_n]
    exact (sorted_bearings h).filter _
  have hbr : x.bearings = tagBearings ((carrying r).map (auxBrg r.nodes_pos.length 1e20)) := by
    rw [hbx.bearings]
    show sortBearings (tagBearings ((carrying r).map (auxBrg r.nodes_pos.length 1e20))) = _
    unfold sortBearings
    refine List.mergeSort_of_pairwise ?_
    have hm := tagBearings_nodes ((carrying r).map (auxBrg r.nodes_pos.length 1e20))
    have h1 : (((carrying r).map (auxBrg r.nodes_pos.length 1e20)).map BrgEl.n).Pairwise (· ≤ ·) :=
      List.pairwise_map.2 hsort
    rw [← hm] at h1
    have := List.pairwise_map.1 h1
    simpa using this
  have htags : (x.bearings.map BrgEl.tag).Nodup := by
    rw [hbx.bearings]; exact (tags_split hbx.tags).2.1
  have h1 := tag_fold x.bearings s.hbn htags (by simp [Dict.keys])
  obtain ⟨b1, b2, b3⟩ := bn_fold x.bearings s.hbn (by simp [Dict.keys])
  have e1 : st.bearing_forces_tag = s.bn.2 := congrArg StaticResults.bearing_forces_tag s.hst
  have e2 : st.bearing_forces_nodal = s.bn.1 := congrArg StaticResults.bearing_forces_nodal s.hst
  rw [e1, h1]
  have hns : x.bearings.map BrgEl.n = (carrying r).map BrgEl.n := by
    rw [hbr, tagBearings_nodes, List.map_map]
    exact List.map_congr_left fun b _ => auxBrg_n _ _ b
  have hval : ∀ b ∈ x.bearings, s.reaction.getD b.n 0 = reactionAt st b.n := by
    intro b hb
    unfold reactionAt
    rw [e2, b3 b.n, if_pos ⟨b, hb, rfl⟩]
    rfl
  have : (x.bearings.map fun b => reactionAt st b.n) = (carrying r).map fun b => reactionAt st b.n := by
    have := congrArg (List.map (reactionAt st)) hns
    simpa [List.map_map, Function.comp_def] using this
  rw [← this]
  simp only [List.nil_append, List.map_map]
  exact List.map_congr_left fun b hb => hval b hb

/-! ### Merging -/

/-- Every element of the frame has one row in the table. -/
theorem merge_one {α : Type} {tag : α → Option String} {df : List Row} {f : SumFrame α} {p : α → Option ℝ}
    (hp : ∀ x ∈ f.rows, (df.filter fun y => y.tag = tag x.1).map (·.nodes_pos_l) = [p x.1]) (hne : f.rows ≠ [])
    (hc : (mergedCols f.cols).Nodup) :
    merge tag df f = .ok ⟨mergedCols f.cols, f.rows.map fun x => (x.1, x.2 ++ [p x.1])⟩ := by
  unfold merge
  rw [if_neg (by simpa using hne), if_pos hc]
  congr 2
  have : ∀ x ∈ f.rows, ((joined df (tag x.1)).map fun z => (x.1, x.2 ++ [z])) = [(x.1, x.2 ++ [p x.1])] := by
    intro x hx
    unfold joined
    rw [hp x hx]
    rfl
  rw [List.flatMap_congr this]
  exact List.flatMap_pure_eq_map (fun x : α × List (Option ℝ) => (x.1, x.2 ++ [p x.1])) f.rows

end Ross.SummaryLemmas
