import Verif.Lemmas.StaticCore

/-! # Static analysis (C28) -/

namespace Ross.Props

open Ross Ross.Spec Ross.BearingLemmas Ross.Rotor Ross.RotorLemmas Ross.ShaftLemmas
  Ross.Shaft6Lemmas Ross.AssemblyLemmas Ross.StaticLemmas Matrix

variable {pd pd' : Pandas} {sp : Scipy} {a : RotorArgs} {r : Rotor} {fuel fuel' : ℕ}
  {st : StaticResults}

theorem links_ground (hg : OnGround r) : ∀ b ∈ carrying r, linkIn r.nodes_pos.length b = none := by
  intro b hb
  unfold linkIn
  cases hl : b.n_link with
  | none => rfl
  | some l =>
    have := hg b (List.mem_filter.1 hb).1 l hl
    simp only
    rw [if_neg (by omega)]

theorem reactionAt_eq {u R F : ℕ → ℝ} {ew : List (ℝ × ℝ)} {nf : List ℝ} (c : Core r st u R F ew nf)
    (hg : OnGround r) {i : ℕ} (hi : i < shaftEnd r + 1) : reactionAt st i = R i := by
  unfold reactionAt
  rw [c.get i]
  split_ifs with hb
  · rfl
  · rw [react_ground c.laws (links_ground hg) hi, List.filter_eq_nil_iff.2]
    · simp
    · intro b hb'
      simp only [decide_eq_true_eq]
      exact fun e => hb ⟨b, hb', e⟩

theorem mass_eq (h : init pd fuel a = some (.ok r)) :
    (r.shaft.map fun e => e.s.m).sum + (r.disks.map fun e => e.d.m).sum = r.m := by
  have hb := init_ok h
  rw [hb.m, hb.m_disks, hb.m_shaft, add_comm]

theorem react_sum {u R F : ℕ → ℝ} {ew : List (ℝ × ℝ)} {nf : List ℝ} (c : Core r st u R F ew nf)
    (hs : ∀ e ∈ r.shaft, e.s.Built ∧ 1 + e.s.phi ≠ 0) :
    ∑ i ∈ Finset.range (shaftEnd r + 1), R i =
      gravity * ((r.shaft.map fun e => e.s.m).sum + (r.disks.map fun e => e.d.m).sum) := by
  have h1 := c.laws.react fun _ => 1
  have h2 := c.laws.eq (vertical fun _ => 1)
  rw [shaftWork_translation, weightWork_translation hs] at h2
  simp only [one_mul] at h1
  rw [h1, ← h2, gravity, gAcc]
  ring

theorem react_moment {u R F : ℕ → ℝ} {ew : List (ℝ × ℝ)} {nf : List ℝ} (c : Core r st u R F ew nf)
    (hs : ∀ e ∈ r.shaft, e.s.Built ∧ 1 + e.s.phi ≠ 0) (hu : EqualLayers r)
    (hf : ∀ e ∈ r.shaft, e.s.axial_force = 0 ∧ e.s.torque = 0) :
    ∑ i ∈ Finset.range (shaftEnd r + 1), position r.shaft i * R i =
      gravity * ((r.shaft.map fun e => e.s.m * (e.s.beam_cg + position r.shaft (leftNode e))).sum +
        (r.disks.map fun e => e.d.m * position r.shaft e.d.n).sum) := by
  have h1 := c.laws.react (position r.shaft)
  have h2 := c.laws.eq (rotation (position r.shaft))
  rw [shaftWork_rotation hu hf, weightWork_rotation hu hs, brgWork_rotation] at h2
  rw [h1, ← h2, gravity, gAcc]
  ring

theorem keys_lt {u R F : ℕ → ℝ} {ew : List (ℝ × ℝ)} {nf : List ℝ} (c : Core r st u R F ew nf) :
    ∀ k ∈ st.bearing_forces_nodal.keys, k < shaftEnd r + 1 := by
  intro k hk
  rw [Dict.mem_keys_iff, c.get k] at hk
  split_ifs at hk with hb
  · obtain ⟨b, hb, rfl⟩ := hb
    exact c.on b hb
  · simp at hk

/-- **C28** the vertical reactions of the bearings add up to the weight of the rotor, whose mass is
that of its shaft elements and disks. -/
theorem C28_forces (h : init pd fuel a = some (.ok r))
    (hr : r.run_static pd' sp fuel' = some (.ok st)) (hg : OnGround r)
    (hs : ∀ e ∈ r.shaft, e.s.Built ∧ 1 + e.s.phi ≠ 0) :
    (st.bearing_forces_nodal.map fun p => p.2).sum = gravity * r.m := by
  obtain ⟨u, R, F, ew, nf, c⟩ := core h hr
  have h1 := dict_sum c.keys (keys_lt c) fun _ => 1
  simp only [one_mul] at h1
  rw [h1, ← mass_eq h, ← react_sum c hs]
  exact Finset.sum_congr rfl fun i hi => reactionAt_eq c hg (Finset.mem_range.1 hi)

/-- **C28** the moment of the reactions about the left end is that of the weight of the rotor at its
centre of gravity, unless axial forces or torques act on the shaft. -/
theorem C28_moments (h : init pd fuel a = some (.ok r))
    (hr : r.run_static pd' sp fuel' = some (.ok st)) (hg : OnGround r)
    (hs : ∀ e ∈ r.shaft, e.s.Built ∧ 1 + e.s.phi ≠ 0) (hu : EqualLayers r)
    (hf : ∀ e ∈ r.shaft, e.s.axial_force = 0 ∧ e.s.torque = 0) (hm : r.m ≠ 0) :
    (st.bearing_forces_nodal.map fun p => position r.shaft p.1 * p.2).sum =
      gravity * r.m * r.CG := by
  obtain ⟨u, R, F, ew, nf, c⟩ := core h hr
  rw [dict_sum c.keys (keys_lt c) (position r.shaft)]
  have hfill : ∀ k < shaftEnd r, ∃ e ∈ r.shaft, e.s.n = some k := by
    intro k hk
    obtain ⟨e, he, hn⟩ := c.fill k hk
    have hb := init_ok h
    refine ⟨e, he, ?_⟩
    have hsome := parts_sh_n (hb.shaft ▸ he)
    rw [hsome, ← hn]
  have hcg := C20_CG h hfill hm
  rw [mass_eq h] at hcg
  rw [hcg, mul_assoc, mul_div_cancel₀ _ hm, ← react_moment c hs hu hf]
  exact Finset.sum_congr rfl fun i hi => by
    rw [← reactionAt_eq c hg (Finset.mem_range.1 hi)]; rfl

/-- **C28** forces are reported for exactly the nodes with bearings that are not seals, each once,
and each force is that of springs of stiffness `1e20` holding the node against the reported
displacement. -/
theorem C28_reactions (h : init pd fuel a = some (.ok r))
    (hr : r.run_static pd' sp fuel' = some (.ok st)) (hg : OnGround r) :
    st.bearing_forces_nodal.keys.Nodup ∧
    (∀ i, i ∈ st.bearing_forces_nodal.keys ↔ ∃ b, Carries r b ∧ b.n = i) ∧
    st.displacement_y.length = r.nodes_pos.length ∧
    ∀ i < r.nodes_pos.length, reactionAt st i =
      -(((r.bearings.filter fun b => !b.isSeal ∧ b.n = i).length : ℝ) * 1e20 *
        st.displacement_y.getD i 0) := by
  obtain ⟨u, R, F, ew, nf, c⟩ := core h hr
  have hcar : ∀ b, b ∈ carrying r ↔ Carries r b := by
    intro b
    simp [carrying, Carries, List.mem_filter]
  refine ⟨c.keys, fun i => ?_, by rw [c.disp_len, c.len], fun i hi => ?_⟩
  · rw [Dict.mem_keys_iff, c.get i]
    by_cases hb : ∃ b ∈ carrying r, b.n = i
    · obtain ⟨b, hb', hn⟩ := hb
      rw [if_pos ⟨b, hb', hn⟩]
      exact ⟨fun _ => ⟨b, (hcar b).1 hb', hn⟩, fun _ => rfl⟩
    · rw [if_neg hb]
      constructor
      · intro h'; simp at h'
      · rintro ⟨b, hb', hn⟩; exact absurd ⟨b, (hcar b).2 hb', hn⟩ hb
  · have hi' : i < shaftEnd r + 1 := by rw [← c.len]; exact hi
    rw [reactionAt_eq c hg hi', react_ground c.laws (links_ground hg) hi', c.disp i hi']
    have e : (carrying r).filter (fun b => b.n = i) =
        r.bearings.filter fun b => !b.isSeal ∧ b.n = i := by
      unfold carrying
      rw [List.filter_filter]
      refine List.filter_congr fun b _ => ?_
      by_cases hn : b.n = i
      · simp [hn, hi]
      · simp [hn]
    rw [e]
    ring

/-! ### Diagrams -/

theorem cylinder_facts {e : ShaftEl} (hc : Cylinder e) (hs : e.s.Built) :
    e.s.a1 = 0 ∧ e.s.b1 = 0 ∧ e.s.beam_cg = e.s.L / 2 ∧ e.s.L ≠ 0 := by
  have f := built_facts hs
  have h1 : e.s.a1 = 0 := by
    simp [ShaftElement.a1, ShaftElement.delta_ro, ShaftElement.delta_ri, ShaftElement.rok,
      ShaftElement.roj, ShaftElement.rik, ShaftElement.rij, hc.1, hc.2]
  have h2 : e.s.b1 = 0 := by
    simp [ShaftElement.b1, ShaftElement.delta_ro, ShaftElement.delta_ri, ShaftElement.rok,
      ShaftElement.roj, ShaftElement.rik, ShaftElement.rij, hc.1, hc.2]
  refine ⟨h1, h2, ?_, f.L⟩
  have h3 := volume_eq e.s hs
  have h4 := moment_eq e.s hs
  rw [h1, h2] at h3 h4
  have : e.s.A_l * e.s.L ≠ 0 := mul_ne_zero f.A_l f.L
  apply mul_left_cancel₀ f.volume
  rw [h4, h3]
  ring

theorem sum_filter {α : Type} (l : List α) (p : α → Prop) [DecidablePred p] (m : α → ℝ) :
    (l.map fun e => if p e then m e else 0).sum = ((l.filter fun e => p e).map m).sum := by
  induction l with
  | nil => rfl
  | cons x t ih =>
    by_cases hp : p x
    · simp [hp, ih]
    · simp [hp, ih]

theorem sum_nodes {α : Type} (l : List α) (f : α → ℕ) (m : α → ℝ) {n : ℕ} (hl : ∀ x ∈ l, f x < n)
    (c : ℕ → ℝ) :
    ∑ i ∈ Finset.range n, c i * ((l.filter fun e => f e = i).map m).sum =
      (l.map fun e => c (f e) * m e).sum := by
  induction l with
  | nil => simp
  | cons x t ih =>
    have e : ∀ i, c i * (((x :: t).filter fun e => f e = i).map m).sum =
        (if i = f x then c (f x) * m x else 0) +
          c i * ((t.filter fun e => f e = i).map m).sum := by
      intro i
      by_cases hi : f x = i
      · subst hi; simp; ring
      · have : ¬ i = f x := fun h => hi h.symm
        simp [hi, this]
    simp only [e, Finset.sum_add_distrib]
    rw [ih fun y hy => hl y (List.mem_cons_of_mem _ hy), List.map_cons, List.sum_cons,
      Finset.sum_ite_eq', if_pos (Finset.mem_range.2 (hl x List.mem_cons_self))]

theorem nodal_eq {u R F : ℕ → ℝ} {ew : List (ℝ × ℝ)} {nf : List ℝ} (c : Core r st u R F ew nf)
    (hg : OnGround r) (hs : ∀ e ∈ r.shaft, e.s.Built ∧ 1 + e.s.phi ≠ 0)
    (hc : ∀ e ∈ r.shaft, Cylinder e) {j : ℕ} (hj : j < shaftEnd r + 1) :
    nf.getD j 0 = reactionAt st j - diskWeight r j := by
  have h1 := c.laws.eq (vertical (only j))
  have h2 := c.laws.react (only j)
  have h3 := c.laws.elastic (only j)
  rw [sum_only hj] at h2 h3
  rw [← h2, ← h3, weightWork_only] at h1
  rw [c.nf_eq j hj, reactionAt_eq c hg hj]
  have e1 : (r.shaft.map fun e => (if nodeOf e = j then (e.s.M *ᵥ eY) 1 else 0) +
        if nodeOf e + 1 = j then (e.s.M *ᵥ eY) 5 else 0).sum =
      (r.shaft.map fun e => (if nodeOf e + 1 = j then e.s.m * (e.s.beam_cg / e.s.L) else 0) +
        if nodeOf e = j then e.s.m * (1 - e.s.beam_cg / e.s.L) else 0).sum := by
    congr 1
    refine List.map_congr_left fun e he => ?_
    obtain ⟨k1, k2, k3, k4⟩ := cylinder_facts (hc e he) (hs e he).1
    obtain ⟨m1, m2⟩ := cyl_M e.s (hs e he).1 (hs e he).2 k1 k2
    rw [m1, m2, k3]
    have : e.s.L / 2 / e.s.L = 1 / 2 := by field_simp
    rw [this, add_comm]
    congr 1 <;> split_ifs <;> ring
  rw [e1] at h1
  rw [diskWeight, ← sum_filter, gravity]
  simp only [gAcc] at h1 ⊢
  linarith

theorem elm_eq {u R F : ℕ → ℝ} {ew : List (ℝ × ℝ)} {nf : List ℝ} (c : Core r st u R F ew nf)
    (hg : OnGround r) (hs : ∀ e ∈ r.shaft, e.s.Built ∧ 1 + e.s.phi ≠ 0)
    (hc : ∀ e ∈ r.shaft, Cylinder e) :
    (elmForces ew nf).length = shaftEnd r ∧ ∀ j < shaftEnd r,
      (elmForces ew nf).getD j (0, 0) = (reactionAt st j - diskWeight r j,
        if j + 1 = shaftEnd r then -(reactionAt st (j + 1) - diskWeight r (j + 1))
        else -layerWeight r j) := by
  refine ⟨by rw [elmForces, List.length_mapIdx, c.ew_len], fun j hj => ?_⟩
  have hlast : nf.getLast?.getD 0 = nf.getD (shaftEnd r) 0 := by
    rw [List.getLast?_eq_getElem?, List.getD_eq_getElem?_getD, c.nf_len]; rfl
  have e1 := c.ew_1 j hj
  have e2 := c.ew_2 j hj
  rw [List.getD_eq_getElem?_getD, List.getElem?_eq_getElem (by rw [c.ew_len]; exact hj)] at e1 e2
  rw [elmForces, List.getD_eq_getElem?_getD, List.getElem?_mapIdx,
    List.getElem?_eq_getElem (by rw [c.ew_len]; exact hj)]
  simp only [Option.getD_some, Option.map_some] at e1 e2 ⊢
  rw [e1, e2, hlast, c.ew_len, nodal_eq c hg hs hc (by omega), nodal_eq c hg hs hc (by omega)]
  by_cases hj' : j + 1 = shaftEnd r
  · simp only [hj', if_true, add_zero]
  · simp only [hj', if_false, add_zero, zero_add]
    congr 1
    rw [layerWeight, sum_filter, gravity, gAcc]
    simp only [leftNode, nodeOf]
    rw [neg_mul]
    congr!

theorem weights_sum {u R F : ℕ → ℝ} {ew : List (ℝ × ℝ)} {nf : List ℝ} (c : Core r st u R F ew nf)
    (h : init pd fuel a = some (.ok r)) (z : ℕ → ℝ) :
    ∑ i ∈ Finset.range (shaftEnd r), z i * layerWeight r i =
      gravity * (r.shaft.map fun e => z (leftNode e) * e.s.m).sum ∧
    ∑ i ∈ Finset.range (shaftEnd r + 1), z i * diskWeight r i =
      gravity * (r.disks.map fun e => z e.d.n * e.d.m).sum := by
  have hb := init_ok h
  constructor
  · rw [← sum_nodes r.shaft leftNode (fun e => e.s.m) (n := shaftEnd r) (by
      intro e he
      have hlast : shaftEnd r = lastNode r.shaft + 1 := by rw [shaftEnd_last h]; rfl
      have := node_le_last hb he
      show nodeOf e < _
      omega) z, Finset.mul_sum]
    refine Finset.sum_congr rfl fun i _ => ?_
    rw [layerWeight]; ring
  · rw [← sum_nodes r.disks (fun e => e.d.n) (fun e => e.d.m) (n := shaftEnd r + 1) (by
      intro e he
      obtain ⟨dkpos, h1, -⟩ := hb.CG
      have h3 := (mapM_ok_iff _ _ _).1 h1
      obtain ⟨k, hk, rfl⟩ := List.getElem_of_mem he
      have h4 := congrArg (fun l => l[k]?) h3
      simp only [List.getElem?_map, List.getElem?_eq_getElem hk, Option.map_some] at h4
      by_contra hn
      unfold posAt at h4
      rw [List.getElem?_eq_none (by rw [c.len]; omega)] at h4
      cases hq : dkpos[k]? with
      | none => rw [hq] at h4; cases h4
      | some q => rw [hq] at h4; simp at h4) z, Finset.mul_sum]
    refine Finset.sum_congr rfl fun i _ => ?_
    rw [diskWeight]; ring

theorem close_force {u R F : ℕ → ℝ} {ew : List (ℝ × ℝ)} {nf : List ℝ} (c : Core r st u R F ew nf)
    (h : init pd fuel a = some (.ok r)) (hg : OnGround r)
    (hs : ∀ e ∈ r.shaft, e.s.Built ∧ 1 + e.s.phi ≠ 0) :
    shearLeft r st (shaftEnd r) = reactionAt st (shaftEnd r) - diskWeight r (shaftEnd r) := by
  obtain ⟨w1, w2⟩ := weights_sum c h fun _ => 1
  simp only [one_mul] at w1 w2
  have h1 := react_sum c hs
  have h2 : ∑ i ∈ Finset.range (shaftEnd r + 1), reactionAt st i =
      ∑ i ∈ Finset.range (shaftEnd r + 1), R i :=
    Finset.sum_congr rfl fun i hi => reactionAt_eq c hg (Finset.mem_range.1 hi)
  rw [← h2, mul_add, ← w1, ← w2, Finset.sum_range_succ, Finset.sum_range_succ _ (shaftEnd r)] at h1
  unfold shearLeft
  rw [Finset.sum_add_distrib, Finset.sum_sub_distrib]
  linarith

/-- **C52** the shear diagram of a shaft of at least two layers of cylinders: one pair of values per
layer, the net forces on what lies left of sections just right of its left node and just left of
its right node. -/
theorem C52_shear_partial (h : init pd fuel a = some (.ok r))
    (hr : r.run_static pd' sp fuel' = some (.ok st)) (hg : OnGround r)
    (hs : ∀ e ∈ r.shaft, e.s.Built ∧ 1 + e.s.phi ≠ 0) (hc : ∀ e ∈ r.shaft, Cylinder e)
    (h2 : 2 < r.nodes_pos.length) :
    st.vx = (List.range (r.nodes_pos.length - 1)).map
      (fun (j : ℕ) => (shearRight r st j, shearLeft r st (j + 1))) ∧
    shearRight r st (r.nodes_pos.length - 1) = 0 := by
  obtain ⟨u, R, F, ew, nf, c⟩ := core h hr
  obtain ⟨l1, l2⟩ := elm_eq c hg hs hc
  have hN : r.nodes_pos.length - 1 = shaftEnd r := by rw [c.len]; rfl
  have hN2 : 2 ≤ shaftEnd r := by omega
  obtain ⟨s1, s2⟩ := shear_eq (elmForces ew nf) (by rw [l1]; exact hN2)
  have hcl := close_force c h hg hs
  rw [hN]
  refine ⟨?_, by rw [shearRight, hcl]; ring⟩
  have hpart : ∀ j < shaftEnd r, ∑ i ∈ Finset.range j, (((elmForces ew nf).getD i (0, 0)).1 +
      ((elmForces ew nf).getD i (0, 0)).2) = -shearLeft r st j := by
    intro j hj
    unfold shearLeft
    rw [← Finset.sum_neg_distrib]
    refine Finset.sum_congr rfl fun i hi => ?_
    have hi' := Finset.mem_range.1 hi
    rw [l2 i (by omega), if_neg (by omega)]
    ring
  apply List.ext_getElem
  · rw [c.vx, List.length_map, s1, l1]; simp
  · intro j hj1 hj2
    have hj : j < shaftEnd r := by simpa using hj2
    have hj3 : j < (shear (elmForces ew nf)).length := by rw [s1, l1]; exact hj
    have hs2 := s2 j (by rw [l1]; exact hj)
    rw [List.getD_eq_getElem?_getD, List.getElem?_eq_getElem hj3, Option.getD_some] at hs2
    simp only [c.vx, List.getElem_map, List.getElem_range, hs2]
    rw [hpart j hj, l1, l2 j hj]
    congr 1
    · rw [shearRight]; ring
    · by_cases hj' : j + 1 = shaftEnd r
      · simp only [hj', if_true]
        rw [hcl]; ring
      · simp only [hj', if_false]
        rw [hpart (j + 1) (by omega)]
        ring

theorem bending_step (r : Rotor) (st : StaticResults) (j : ℕ) :
    bendingAt r st (j + 1) = bendingAt r st j +
      0.5 * (shearRight r st j + shearLeft r st (j + 1)) *
        (position r.shaft (j + 1) - position r.shaft j) := by
  have e1 : shearLeft r st (j + 1) = shearLeft r st j +
      (diskWeight r j - reactionAt st j + layerWeight r j) := by
    unfold shearLeft; rw [Finset.sum_range_succ]
  have e2 : ∀ j' : ℕ, ∑ i ∈ Finset.range j,
      ((diskWeight r i - reactionAt st i) * (position r.shaft j' - position r.shaft i) +
        layerWeight r i * (position r.shaft j' - (position r.shaft i + position r.shaft (i + 1)) / 2)) =
      position r.shaft j' * shearLeft r st j - ∑ i ∈ Finset.range j,
        ((diskWeight r i - reactionAt st i) * position r.shaft i +
          layerWeight r i * ((position r.shaft i + position r.shaft (i + 1)) / 2)) := by
    intro j'
    unfold shearLeft
    rw [Finset.mul_sum, ← Finset.sum_sub_distrib]
    exact Finset.sum_congr rfl fun i _ => by ring
  rw [e1]
  unfold bendingAt shearRight
  rw [Finset.sum_range_succ, e2, e2]
  ring

theorem close_moment {u R F : ℕ → ℝ} {ew : List (ℝ × ℝ)} {nf : List ℝ} (c : Core r st u R F ew nf)
    (h : init pd fuel a = some (.ok r)) (hg : OnGround r)
    (hs : ∀ e ∈ r.shaft, e.s.Built ∧ 1 + e.s.phi ≠ 0) (hc : ∀ e ∈ r.shaft, Cylinder e)
    (hu : EqualLayers r) (hf : ∀ e ∈ r.shaft, e.s.axial_force = 0 ∧ e.s.torque = 0) :
    bendingAt r st (shaftEnd r) = 0 := by
  obtain ⟨-, w2⟩ := weights_sum c h (position r.shaft)
  obtain ⟨w1, -⟩ := weights_sum c h
    fun i => (position r.shaft i + position r.shaft (i + 1)) / 2
  have h1 := react_moment c hs hu hf
  have h2 : ∑ i ∈ Finset.range (shaftEnd r + 1), position r.shaft i * reactionAt st i =
      ∑ i ∈ Finset.range (shaftEnd r + 1), position r.shaft i * R i :=
    Finset.sum_congr rfl fun i hi => by rw [reactionAt_eq c hg (Finset.mem_range.1 hi)]
  have e1 : (r.shaft.map fun e => e.s.m * (e.s.beam_cg + position r.shaft (leftNode e))).sum =
      (r.shaft.map fun e => (position r.shaft (leftNode e) + position r.shaft (leftNode e + 1)) / 2 *
        e.s.m).sum := by
    congr 1
    refine List.map_congr_left fun e he => ?_
    rw [show position r.shaft (leftNode e + 1) = _ from position_step hu he,
      (cylinder_facts (hc e he) (hs e he).1).2.2.1]
    show _ = (position r.shaft (leftNode e) + (position r.shaft (leftNode e) + _)) / 2 * _
    ring
  have e2 : (r.disks.map fun e => e.d.m * position r.shaft e.d.n).sum =
      (r.disks.map fun e => position r.shaft e.d.n * e.d.m).sum := by
    simp only [mul_comm]
  rw [e1, e2, mul_add, ← w1, ← w2, ← h2, Finset.sum_range_succ,
    Finset.sum_range_succ _ (shaftEnd r)] at h1
  have hcl := close_force c h hg hs
  have e3 : bendingAt r st (shaftEnd r) = position r.shaft (shaftEnd r) * shearLeft r st (shaftEnd r) -
      (∑ i ∈ Finset.range (shaftEnd r), position r.shaft i * diskWeight r i -
        ∑ i ∈ Finset.range (shaftEnd r), position r.shaft i * reactionAt st i +
        ∑ i ∈ Finset.range (shaftEnd r),
          (position r.shaft i + position r.shaft (i + 1)) / 2 * layerWeight r i) := by
    unfold bendingAt shearLeft
    rw [Finset.mul_sum, ← Finset.sum_sub_distrib, ← Finset.sum_add_distrib, ← Finset.sum_sub_distrib]
    exact Finset.sum_congr rfl fun i _ => by ring
  rw [e3, hcl]
  linarith

/-- **C52** the bending diagram of such a shaft, free of axial force and torque: one pair of values
per layer, the moments at its two nodes of all the forces to their left; it ends at zero. -/
theorem C52_bending_partial (h : init pd fuel a = some (.ok r))
    (hr : r.run_static pd' sp fuel' = some (.ok st)) (hg : OnGround r)
    (hs : ∀ e ∈ r.shaft, e.s.Built ∧ 1 + e.s.phi ≠ 0) (hc : ∀ e ∈ r.shaft, Cylinder e)
    (hu : EqualLayers r) (hf : ∀ e ∈ r.shaft, e.s.axial_force = 0 ∧ e.s.torque = 0)
    (h2 : 2 < r.nodes_pos.length) :
    st.mx = (List.range (r.nodes_pos.length - 1)).map
      (fun (j : ℕ) => (bendingAt r st j, bendingAt r st (j + 1))) ∧
    bendingAt r st 0 = 0 ∧ bendingAt r st (r.nodes_pos.length - 1) = 0 ∧
    st.vx_axis = (List.range (r.nodes_pos.length - 1)).map
      (fun (j : ℕ) => (position r.shaft j, position r.shaft (j + 1))) := by
  obtain ⟨u, R, F, ew, nf, c⟩ := core h hr
  have hN : r.nodes_pos.length - 1 = shaftEnd r := by rw [c.len]; rfl
  have hvx := (C52_shear_partial h hr hg hs hc h2).1
  have hcl := close_moment c h hg hs hc hu hf
  rw [hN] at hvx ⊢
  have hax : st.vx_axis = (List.range (shaftEnd r)).map
      (fun (j : ℕ) => (position r.shaft j, position r.shaft (j + 1))) := by
    apply List.ext_getElem
    · rw [c.axis_len]; simp
    · intro j hj1 hj2
      have hj : j < shaftEnd r := by simpa using hj2
      have := c.axis j hj
      rw [List.getD_eq_getElem?_getD, List.getElem?_eq_getElem hj1, Option.getD_some] at this
      rw [this]; simp
  refine ⟨?_, by simp [bendingAt], hcl, hax⟩
  set incr := List.zipWith (fun (v x : ℝ × ℝ) => 0.5 * (v.1 + v.2) * (x.2 - x.1)) st.vx st.vx_axis
    with hincr
  have hlen : incr.length = shaftEnd r := by rw [hincr, hvx, hax]; simp
  have hget : ∀ j < shaftEnd r, incr.getD j 0 = bendingAt r st (j + 1) - bendingAt r st j := by
    intro j hj
    rw [List.getD_eq_getElem?_getD, List.getElem?_eq_getElem (by rw [hlen]; exact hj),
      Option.getD_some]
    simp only [hincr, hvx, hax, List.getElem_zipWith, List.getElem_map, List.getElem_range]
    rw [bending_step]; ring
  have hsum : ∀ j ≤ shaftEnd r, ∑ i ∈ Finset.range j, incr.getD i 0 = bendingAt r st j := by
    intro j hj
    rw [Finset.sum_congr rfl fun i hi => hget i (by have := Finset.mem_range.1 hi; omega),
      Finset.sum_range_sub (bendingAt r st)]
    simp [bendingAt]
  obtain ⟨m1, m2⟩ := momentFrom_eq incr 0
  rw [c.mx]
  apply List.ext_getElem
  · rw [m1, hlen]; simp
  · intro j hj1 hj2
    have hj : j < shaftEnd r := by simpa using hj2
    have := m2 j (by rw [hlen]; exact hj)
    rw [List.getD_eq_getElem?_getD, List.getElem?_eq_getElem hj1, Option.getD_some] at this
    rw [this, hlen]
    simp only [List.getElem_map, List.getElem_range]
    by_cases hj' : j + 1 = shaftEnd r
    · rw [if_pos hj', hget j hj, hj', hcl]
      congr 1; ring
    · rw [if_neg hj', hsum j hj.le, hsum (j + 1) hj]
      simp

/-- **C28** the weights reported for the shaft and for the disks; of several disks on one node only
the last is reported. -/
theorem C28_weights (h : init pd fuel a = some (.ok r))
    (hr : r.run_static pd' sp fuel' = some (.ok st)) :
    st.w_shaft = gravity * r.m_shaft ∧
    (∀ e ∈ r.disks, st.disk_forces_tag.get? e.d.tag = some (gravity * e.d.m)) ∧
    ((r.disks.map fun e => e.d.n).Nodup →
      ∀ e ∈ r.disks, st.disk_forces_nodal.get? e.d.n = some (diskWeight r e.d.n)) := by
  obtain ⟨u, R, F, ew, nf, c⟩ := core h hr
  have hb := init_ok h
  have fold : ∀ {κ : Type} [DecidableEq κ] (k : DiskEl → κ) (l : List DiskEl) (d : Dict κ ℝ),
      (l.map k).Nodup → ∀ x, (l.foldl (fun d e => Dict.set d (k e) (-e.d.m * gAcc)) d).get? x =
        match l.find? fun e => k e = x with
        | some e => some (gravity * e.d.m)
        | none => d.get? x := by
    intro κ _ k l
    induction l with
    | nil => intro d _ x; rfl
    | cons e t ih =>
      intro d hn x
      rw [List.map_cons, List.nodup_cons] at hn
      rw [List.foldl_cons, ih _ hn.2 x, List.find?_cons]
      by_cases hx : k e = x
      · have : t.find? (fun e => k e = x) = none := by
          rw [List.find?_eq_none]
          intro e' he'
          simp only [decide_eq_true_eq]
          exact fun h' => hn.1 (List.mem_map.2 ⟨e', he', h'.trans hx.symm⟩)
        rw [this]
        simp only [hx, decide_true]
        rw [Dict.get?_set, if_pos rfl, gravity, gAcc]
        congr 1; ring
      · simp only [hx, decide_false]
        cases t.find? (fun e => k e = x) with
        | none => simp only; rw [Dict.get?_set, if_neg hx]
        | some e' => rfl
  have find : ∀ {κ : Type} [DecidableEq κ] (k : DiskEl → κ) (l : List DiskEl), (l.map k).Nodup →
      ∀ e ∈ l, (l.find? fun e' => k e' = k e) = some e := by
    intro κ _ k l hn e he
    cases hf : l.find? (fun e' => k e' = k e) with
    | none =>
      rw [List.find?_eq_none] at hf
      exact absurd (by simp) (hf e he)
    | some e' =>
      have h1 := List.mem_of_find?_eq_some hf
      have h2 := List.find?_some hf
      simp only [decide_eq_true_eq] at h2
      rw [List.inj_on_of_nodup_map hn h1 he h2]
  refine ⟨?_, ?_, ?_⟩
  · rw [c.w_shaft, hb.m_shaft, gravity, gAcc]; ring
  · intro e he
    have hn : (r.disks.map fun e => e.d.tag).Nodup := by
      have := hb.tags
      rw [show (parts a).elements = r.elements by
        rw [elements_eq' hb, hb.shaft, hb.disks, hb.bearings, hb.pms]; rfl, elements_eq' hb] at this
      simp only [List.map_append, List.map_map] at this
      have h1 := (List.nodup_append.1 (List.nodup_append.1 (List.nodup_append.1 this).1).1).2.1
      exact h1
    rw [c.disk_tag, fold (fun e => e.d.tag) r.disks [] hn e.d.tag,
      find (fun e => e.d.tag) r.disks hn e he]
  · intro hn e he
    rw [c.disk_nodal, fold (fun e => e.d.n) r.disks [] hn e.d.n,
      find (fun e => e.d.n) r.disks hn e he]
    simp only [diskWeight]
    have : (r.disks.filter fun e' => e'.d.n = e.d.n) = [e] := by
      obtain ⟨l1, l2, hl⟩ := List.append_of_mem he
      rw [hl] at hn ⊢
      simp only [List.map_append, List.map_cons] at hn
      rw [List.nodup_append, List.nodup_cons] at hn
      obtain ⟨n1, ⟨n2, n3⟩, n4⟩ := hn
      rw [List.filter_append, List.filter_cons, if_pos (by simp), List.filter_eq_nil_iff.2,
        List.filter_eq_nil_iff.2]
      · rfl
      · intro e' he'
        simp only [decide_eq_true_eq]
        exact fun h' => n2 (List.mem_map.2 ⟨e', he', h'⟩)
      · intro e' he'
        simp only [decide_eq_true_eq]
        exact fun h' => n4 _ (List.mem_map.2 ⟨e', he', rfl⟩) _ List.mem_cons_self h'
    rw [this]
    simp

end Ross.Props
