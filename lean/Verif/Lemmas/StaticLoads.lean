import Verif.Lemmas.Static
import Verif.Props.RotorInit

/-! # Reactions and loads of the static analysis -/

namespace Ross.StaticLemmas

open Ross Ross.Spec Ross.BearingLemmas Ross.Rotor Ross.RotorLemmas Ross.ShaftLemmas Ross.Props
  Ross.Shaft6Lemmas Ross.AssemblyLemmas Matrix

variable {pd : Pandas} {a : RotorArgs} {r : Rotor} {fuel : ℕ}

/-! ### The loop over the shaft elements -/

theorem loads_fold {g : ℝ} {pos : List ℝ} (sh : List ShaftEl) :
    ∀ {x y : ShaftLoads}, sh.foldlM (addShaftLoad g pos) x = .ok y →
      x.elm_weight.length = x.vx_axis.length → x.nodal.length = x.vx_axis.length + 1 →
      y.vx_axis.length = x.vx_axis.length ∧ y.elm_weight.length = x.vx_axis.length ∧
      y.nodal.length = x.vx_axis.length + 1 ∧ (∀ e ∈ sh, nodeOf e < x.vx_axis.length) ∧
      (∀ j, y.vx_axis.getD j (0, 0) = if ∃ e ∈ sh, nodeOf e = j then
        (pos.getD j 0, pos.getD (j + 1) 0) else x.vx_axis.getD j (0, 0)) ∧
      (∀ j < x.vx_axis.length, (y.elm_weight.getD j (0, 0)).1 = (x.elm_weight.getD j (0, 0)).1 ∧
        (y.elm_weight.getD j (0, 0)).2 = (x.elm_weight.getD j (0, 0)).2 +
          g * (sh.map fun e => if nodeOf e = j then e.s.m else 0).sum) ∧
      (∀ j < x.vx_axis.length + 1, y.nodal.getD j 0 = x.nodal.getD j 0 +
        g * (sh.map fun e => (if nodeOf e + 1 = j then e.s.m * (e.s.beam_cg / e.s.L) else 0) +
          if nodeOf e = j then e.s.m * (1 - e.s.beam_cg / e.s.L) else 0).sum) := by
  induction sh with
  | nil =>
    intro x y h h1 h2
    cases h
    simp [h1, h2]
  | cons e t ih =>
    intro x y h h1 h2
    rw [List.foldlM_cons] at h
    obtain ⟨x', hx', h⟩ := bind_ok.1 h
    unfold addShaftLoad at hx'
    dsimp only at hx'
    by_cases hn : nodeOf e < x.vx_axis.length
    · rw [if_pos hn] at hx'
      cases hx'
      obtain ⟨k1, k2, k3, k4, k5, k6, k7⟩ := ih h (by simp [h1]) (by simp [h2])
      simp only [List.length_set] at k1 k2 k3 k4 k6 k7
      refine ⟨k1, k2, k3, ?_, ?_, ?_, ?_⟩
      · intro e' he'
        rcases List.mem_cons.1 he' with rfl | he'
        · exact hn
        · exact k4 e' he'
      · intro j
        rw [k5 j]
        by_cases hj : ∃ e ∈ t, nodeOf e = j
        · obtain ⟨e', he', hj'⟩ := hj
          rw [if_pos ⟨e', he', hj'⟩, if_pos ⟨e', List.mem_cons_of_mem _ he', hj'⟩]
        · rw [if_neg hj]
          by_cases hj2 : nodeOf e = j
          · rw [if_pos ⟨e, List.mem_cons_self, hj2⟩, List.getD_eq_getElem?_getD, hj2,
              List.getElem?_set_self (hj2 ▸ hn)]
            rfl
          · rw [if_neg (by
              rintro ⟨e', he', hj'⟩
              rcases List.mem_cons.1 he' with rfl | he'
              · exact hj2 hj'
              · exact hj ⟨e', he', hj'⟩), List.getD_eq_getElem?_getD, List.getElem?_set_ne hj2,
              ← List.getD_eq_getElem?_getD]
      · intro j hj
        obtain ⟨m1, m2⟩ := k6 j hj
        rw [m1, m2]
        simp only [List.getD_eq_getElem?_getD, List.getElem?_modify]
        have hj' : j < x.elm_weight.length := by omega
        rw [List.getElem?_eq_getElem hj']
        by_cases hj2 : nodeOf e = j
        · simp [hj2]; ring
        · simp [hj2]
      · intro j hj
        rw [k7 j hj]
        simp only [List.getD_eq_getElem?_getD, List.getElem?_modify]
        have hj' : j < x.nodal.length := by omega
        rw [List.getElem?_eq_getElem hj']
        by_cases hj2 : nodeOf e = j
        · have hj3 : ¬ nodeOf e + 1 = j := by omega
          simp [hj2]; ring
        · by_cases hj3 : nodeOf e + 1 = j
          · simp [hj2, hj3]; ring
          · simp [hj2, hj3]
    · rw [if_neg hn] at hx'; cases hx'

/-! ### Nodes without gaps -/

theorem groups_len (h : init pd fuel a = some (.ok r)) :
    r.nodes_pos.length = (groups r.shaft).length + 1 := by
  rw [(init_ok h).pos, nodesPos_eq (shaft_ne h) (shaft_sorted h)]; simp

theorem contiguous (h : init pd fuel a = some (.ok r)) {g : ℝ} {x y : ShaftLoads}
    (hl : r.shaft.foldlM (addShaftLoad g r.nodes_pos) x = .ok y)
    (h1 : x.elm_weight.length = x.vx_axis.length) (h2 : x.nodal.length = x.vx_axis.length + 1)
    (h3 : x.vx_axis.length = r.nodes_pos.length - 1) :
    r.nodes_pos.length = shaftEnd r + 1 ∧ (∀ k < shaftEnd r, ∃ e ∈ r.shaft, nodeOf e = k) ∧
      r.nodes_pos = (List.range (shaftEnd r + 1)).map (position r.shaft) := by
  have hb := init_ok h
  obtain ⟨-, -, -, k4, -⟩ := loads_fold r.shaft hl h1 h2
  have hlen := groups_len h
  have hlast : shaftEnd r = lastNode r.shaft + 1 := by rw [shaftEnd_last h]; rfl
  have hle := groups_length_le hb
  obtain ⟨e, he, hen⟩ : ∃ e ∈ r.shaft, nodeOf e = lastNode r.shaft := by
    unfold lastNode
    rw [List.getLast?_eq_getLast_of_ne_nil (shaft_ne h)]
    exact ⟨_, List.getLast_mem _, rfl⟩
  have hlt := k4 e he
  have hlen2 : (groups r.shaft).length = shaftEnd r := by omega
  have hsub : (groups r.shaft) ⊆ List.range (shaftEnd r) := by
    intro n hn
    obtain ⟨e, he, rfl⟩ := List.mem_map.1 (List.mem_dedup.1 hn)
    have := node_le_last hb he
    exact List.mem_range.2 (by omega)
  have hnd : (groups r.shaft).Nodup := List.nodup_dedup _
  have hperm : (groups r.shaft).Perm (List.range (shaftEnd r)) :=
    (hnd.subperm hsub).perm_of_length_le (by simp [hlen2])
  have heq : groups r.shaft = List.range (shaftEnd r) :=
    List.Perm.eq_of_pairwise (le := (· < ·)) (fun a b _ _ h1 h2 => by omega)
      (groups_sorted (shaft_sorted h)) List.pairwise_lt_range hperm
  refine ⟨by omega, fun k hk => ?_, ?_⟩
  · have : k ∈ groups r.shaft := by rw [heq]; exact List.mem_range.2 hk
    obtain ⟨e, he, hk'⟩ := List.mem_map.1 (List.mem_dedup.1 this)
    exact ⟨e, he, hk'⟩
  · rw [hb.pos, nodesPos_eq (shaft_ne h) (shaft_sorted h), heq, ← hlast, ← List.range_succ]

theorem position_succ {sh : List ShaftEl} {k : ℕ} (hk : k ∈ leftNodes sh) :
    position sh (k + 1) = position sh k + layerLength sh k := by
  unfold position
  have : (leftNodes sh).filter (· < k + 1) = insert k ((leftNodes sh).filter (· < k)) := by
    ext x
    simp only [Finset.mem_filter, Finset.mem_insert]
    constructor
    · rintro ⟨h1, h2⟩
      by_cases hx : x = k
      · exact .inl hx
      · exact .inr ⟨h1, by omega⟩
    · rintro (rfl | ⟨h1, h2⟩)
      · exact ⟨hk, by omega⟩
      · exact ⟨h1, by omega⟩
  rw [this, Finset.sum_insert (by simp)]
  ring

/-- The elements of a layer have the same length. -/
def UniformLayers (r : Rotor) : Prop :=
  ∀ e ∈ r.shaft, ∀ e' ∈ r.shaft, nodeOf e = nodeOf e' → e.s.L = e'.s.L

theorem layerLength_eq (hu : UniformLayers r) {e : ShaftEl} (he : e ∈ r.shaft) :
    layerLength r.shaft (nodeOf e) = e.s.L := by
  unfold layerLength
  cases hf : r.shaft.find? fun e' => leftNode e' = nodeOf e with
  | none =>
    rw [List.find?_eq_none] at hf
    exact absurd (by simp [leftNode, nodeOf]) (hf e he)
  | some e' =>
    have h1 := List.mem_of_find?_eq_some hf
    have h2 := List.find?_some hf
    simp only [decide_eq_true_eq] at h2
    simp only [Option.map_some, Option.getD_some]
    exact (hu e' h1 e he h2)

theorem position_step (hu : UniformLayers r) {e : ShaftEl} (he : e ∈ r.shaft) :
    position r.shaft (nodeOf e + 1) = position r.shaft (nodeOf e) + e.s.L := by
  rw [position_succ (mem_leftNodes.2 ⟨e, he, rfl⟩), layerLength_eq hu he]

/-! ### Rigid motions -/

theorem shaftWork_translation (r : Rotor) (v : String × ℕ → ℝ) :
    shaftWork r (U (vertical fun _ => 1)) v = 0 := by
  unfold shaftWork
  refine List.sum_eq_zero fun y hy => ?_
  obtain ⟨e, he, rfl⟩ := List.mem_map.1 hy
  have : nodeVec (U (vertical fun _ => 1)) (nodeOf e) = eY := by
    unfold nodeVec
    simp only [(U_vertical _ _).1, (U_vertical _ _).2.1, (U_vertical _ _).2.2.1,
      (U_vertical _ _).2.2.2]
    rfl
  rw [this, dotProduct_mulVec, eY_K, zero_dotProduct]

theorem weightWork_translation (hs : ∀ e ∈ r.shaft, e.s.Built ∧ 1 + e.s.phi ≠ 0) :
    weightWork r (U (vertical fun _ => 1)) =
      (r.shaft.map fun e => e.s.m).sum + (r.disks.map fun e => e.d.m).sum := by
  unfold weightWork
  congr 1
  · congr 1
    refine List.map_congr_left fun e he => ?_
    have : nodeVec (U (vertical fun _ => 1)) (nodeOf e) = eY := by
      unfold nodeVec
      simp only [(U_vertical _ _).1, (U_vertical _ _).2.1, (U_vertical _ _).2.2.1,
        (U_vertical _ _).2.2.2]
      rfl
    rw [this, eY_M _ (hs e he).1 (hs e he).2]
  · simp only [(U_vertical _ _).1, mul_one]

/-- A small rotation in the vertical plane. -/
noncomputable def rotation (z : ℕ → ℝ) (p : ℕ) : ℝ :=
  if p % 4 = 1 then z (p / 4) else if p % 4 = 2 then -1 else 0

theorem U_rotation (z : ℕ → ℝ) (n : ℕ) : U (rotation z) ("y", n) = z n ∧
    U (rotation z) ("x", n) = 0 ∧ U (rotation z) ("alpha", n) = -1 ∧
    U (rotation z) ("beta", n) = 0 := by
  simp only [U, rotation]
  refine ⟨?_, ?_, ?_, ?_⟩
  · simp; rw [show (4 * n + 1) / 4 = n by omega]
  · simp
  · simp
  · simp

theorem nodeVec_rotation {z : ℕ → ℝ} {n : ℕ} {L : ℝ} (hz : z (n + 1) = z n + L) :
    nodeVec (U (rotation z)) n = z n • eY + eRot L := by
  unfold nodeVec
  simp only [(U_rotation _ _).1, (U_rotation _ _).2.1, (U_rotation _ _).2.2.1,
    (U_rotation _ _).2.2.2, hz]
  ext i; fin_cases i <;> simp [eY, eRot]

theorem shaftWork_rotation (hu : UniformLayers r)
    (hf : ∀ e ∈ r.shaft, e.s.axial_force = 0 ∧ e.s.torque = 0) (v : String × ℕ → ℝ) :
    shaftWork r (U (rotation (position r.shaft))) v = 0 := by
  unfold shaftWork
  refine List.sum_eq_zero fun y hy => ?_
  obtain ⟨e, he, rfl⟩ := List.mem_map.1 hy
  rw [nodeVec_rotation (position_step hu he), add_dotProduct, smul_dotProduct, dotProduct_mulVec,
    dotProduct_mulVec, eY_K, eRot_K _ (hf e he).1 (hf e he).2]
  simp

theorem weightWork_rotation (hu : UniformLayers r)
    (hs : ∀ e ∈ r.shaft, e.s.Built ∧ 1 + e.s.phi ≠ 0) :
    weightWork r (U (rotation (position r.shaft))) =
      (r.shaft.map fun e => e.s.m * (e.s.beam_cg + position r.shaft (leftNode e))).sum +
        (r.disks.map fun e => e.d.m * position r.shaft e.d.n).sum := by
  unfold weightWork
  congr 1
  · congr 1
    refine List.map_congr_left fun e he => ?_
    rw [nodeVec_rotation (position_step hu he), add_dotProduct, smul_dotProduct,
      eY_M _ (hs e he).1 (hs e he).2, eRot_M _ (hs e he).1 (hs e he).2]
    show position r.shaft (nodeOf e) * e.s.m + _ = e.s.m * (_ + position r.shaft (nodeOf e))
    ring
  · simp only [(U_rotation _ _).1]

theorem brgWork_rotation (r : Rotor) (z : ℕ → ℝ) (v : String × ℕ → ℝ) :
    brgWork r (U (rotation z)) v = brgWork r (U (vertical z)) v := by
  unfold brgWork
  congr 1
  refine List.map_congr_left fun b _ => ?_
  unfold relOf
  cases linkIn r.nodes_pos.length b with
  | none =>
    simp only [(U_rotation _ _).1, (U_rotation _ _).2.1, (U_vertical _ _).1, (U_vertical _ _).2.1]
  | some m =>
    simp only [(U_rotation _ _).1, (U_rotation _ _).2.1, (U_vertical _ _).1, (U_vertical _ _).2.1]

/-! ### Weight at one node -/

/-- The motion of one node. -/
noncomputable def only (i : ℕ) (j : ℕ) : ℝ := if j = i then 1 else 0

theorem weightWork_only (i : ℕ) :
    weightWork r (U (vertical (only i))) =
      (r.shaft.map fun e => (if nodeOf e = i then (e.s.M *ᵥ eY) 1 else 0) +
        if nodeOf e + 1 = i then (e.s.M *ᵥ eY) 5 else 0).sum +
      (r.disks.map fun e => if e.d.n = i then e.d.m else 0).sum := by
  unfold weightWork
  congr 1
  · congr 1
    refine List.map_congr_left fun e _ => ?_
    unfold nodeVec
    simp only [(U_vertical _ _).1, (U_vertical _ _).2.1, (U_vertical _ _).2.2.1,
      (U_vertical _ _).2.2.2, only]
    simp [dotProduct, Fin.sum_univ_eight]
  · congr 1
    refine List.map_congr_left fun e _ => ?_
    simp only [(U_vertical _ _).1, only]
    split_ifs <;> simp

theorem sum_only {n i : ℕ} (hi : i < n) (R : ℕ → ℝ) : ∑ j ∈ Finset.range n, only i j * R j = R i := by
  unfold only
  rw [Finset.sum_eq_single i]
  · simp
  · intro j _ hj; simp [hj]
  · intro h; exact absurd (Finset.mem_range.2 hi) h

/-- The reactions of bearings that rest on the ground. -/
theorem react_ground {st : StaticResults} {u R F : ℕ → ℝ} (l : Laws r st u R F)
    (hg : ∀ b ∈ carrying r, linkIn r.nodes_pos.length b = none) {i : ℕ} (hi : i < shaftEnd r + 1) :
    R i = -1e20 * (((carrying r).filter fun b => b.n = i).length * u (4 * i + 1)) := by
  have := l.react (only i)
  rw [sum_only hi] at this
  rw [this]
  congr 1
  unfold brgWork
  have e : ∀ b ∈ carrying r,
      relOf "x" b.n (linkIn r.nodes_pos.length b) (U (vertical (only i))) *
        relOf "x" b.n (linkIn r.nodes_pos.length b) (U u) +
      relOf "y" b.n (linkIn r.nodes_pos.length b) (U (vertical (only i))) *
        relOf "y" b.n (linkIn r.nodes_pos.length b) (U u) =
      if b.n = i then u (4 * i + 1) else 0 := by
    intro b hb
    rw [hg b hb]
    unfold relOf
    simp only [(U_vertical _ _).1, (U_vertical _ _).2.1, only, sub_zero]
    split_ifs with hn
    · subst hn; simp [U]
    · simp
  rw [List.map_congr_left e]
  clear e
  generalize carrying r = l
  induction l with
  | nil => simp
  | cons b t ih =>
    by_cases hn : b.n = i
    · simp only [List.map_cons, List.sum_cons, hn, List.filter_cons, decide_true, if_true,
        List.length_cons, ih]
      push_cast; ring
    · simp only [List.map_cons, List.sum_cons, hn, List.filter_cons, decide_false, if_false, ih]
      simp

end Ross.StaticLemmas
