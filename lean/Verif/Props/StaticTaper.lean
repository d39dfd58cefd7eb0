import Verif.Lemmas.StaticTaper

/-! # The static diagrams of shafts of elements of any form (C52) -/

namespace Ross.Props

open Ross Ross.Spec Ross.BearingLemmas Ross.Rotor Ross.RotorLemmas Ross.ShaftLemmas
  Ross.Shaft6Lemmas Ross.AssemblyLemmas Ross.StaticLemmas Matrix

variable {pd pd' : Pandas} {sp : Scipy} {a : RotorArgs} {r : Rotor} {fuel fuel' : ℕ}
  {st : StaticResults}

/-- **C52** the shear diagram of every shaft of at least two layers: what is reported for a layer differs from the net
forces on what lies left by an error that is the same at both ends of the layer, and proportional to the growth of the
section. -/
theorem C52_shear (h : init pd fuel a = some (.ok r))
    (hr : r.run_static pd' sp fuel' = some (.ok st)) (hg : OnGround r)
    (hs : ∀ e ∈ r.shaft, e.s.Built ∧ 1 + e.s.phi ≠ 0) (h2 : 2 < r.nodes_pos.length) :
    st.vx = (List.range (r.nodes_pos.length - 1)).map
      (fun (j : ℕ) => (shearRight r st j - shearError r j, shearLeft r st (j + 1) - shearError r j)) ∧
    shearRight r st (r.nodes_pos.length - 1) = 0 := by
  obtain ⟨u, R, F, ew, nf, c⟩ := core h hr
  obtain ⟨l1, l2⟩ := elm_taper c h hg hs
  have hN : r.nodes_pos.length - 1 = shaftEnd r := by rw [c.len]; rfl
  have hN2 : 2 ≤ shaftEnd r := by omega
  obtain ⟨s1, s2⟩ := shear_eq (elmForces ew nf) (by rw [l1]; exact hN2)
  have hcl := close_force c h hg hs
  rw [hN]
  refine ⟨?_, by rw [shearRight, hcl]; ring⟩
  have hpart : ∀ j < shaftEnd r, ∑ i ∈ Finset.range j, (((elmForces ew nf).getD i (0, 0)).1 +
      ((elmForces ew nf).getD i (0, 0)).2) = -shearLeft r st j + if j = 0 then 0 else shearError r (j - 1) := by
    intro j
    induction j with
    | zero => simp [shearLeft]
    | succ j ih =>
      intro hj
      rw [Finset.sum_range_succ, ih (by omega), l2 j (by omega), if_neg (show ¬j + 1 = shaftEnd r by omega),
        if_neg (Nat.succ_ne_zero j)]
      unfold shearLeft
      rw [Finset.sum_range_succ, Nat.add_sub_cancel]
      ring
  apply List.ext_getElem
  · rw [c.vx, List.length_map, s1, l1]; simp
  · intro j hj1 hj2
    have hj : j < shaftEnd r := by simpa using hj2
    have hj3 : j < (shear (elmForces ew nf)).length := by rw [s1, l1]; exact hj
    have hs2 := s2 j (by rw [l1]; exact hj)
    rw [List.getD_eq_getElem?_getD, List.getElem?_eq_getElem hj3, Option.getD_some] at hs2
    simp only [c.vx, List.getElem_map, List.getElem_range, hs2]
    rw [hpart j hj, l1, l2 j hj]
    congr 1
    · rw [shearRight]; ring
    · by_cases hj' : j + 1 = shaftEnd r
      · simp only [hj', if_true]
        rw [hcl]; ring
      · simp only [hj', if_false]
        rw [hpart (j + 1) (by omega), if_neg (Nat.succ_ne_zero j), Nat.add_sub_cancel]
        ring

/-- **C52** so the shear diagram is that of equilibrium exactly when there is no such error. -/
theorem C52_shear_iff (h : init pd fuel a = some (.ok r))
    (hr : r.run_static pd' sp fuel' = some (.ok st)) (hg : OnGround r)
    (hs : ∀ e ∈ r.shaft, e.s.Built ∧ 1 + e.s.phi ≠ 0) (h2 : 2 < r.nodes_pos.length) :
    st.vx = (List.range (r.nodes_pos.length - 1)).map
      (fun (j : ℕ) => (shearRight r st j, shearLeft r st (j + 1))) ↔
    ∀ j < r.nodes_pos.length - 1, shearError r j = 0 := by
  rw [(C52_shear h hr hg hs h2).1, List.map_inj_left]
  refine ⟨fun H j hj => ?_, fun H j hj => ?_⟩
  · have := congrArg Prod.fst (H j (List.mem_range.2 hj))
    simpa using this
  · rw [H j (List.mem_range.1 hj), sub_zero, sub_zero]

theorem layer_moment (hs : ∀ e ∈ r.shaft, e.s.Built ∧ 1 + e.s.phi ≠ 0) (i : ℕ) (d : ℝ) :
    ((layer r i).map fun e => weightMoment e d).sum =
      d * layerWeight r i - gravity * ((layer r i).map fun e => e.s.m * e.s.beam_cg).sum := by
  have : ∀ l : List ShaftEl, (∀ e ∈ l, e.s.Built) → (l.map fun e => weightMoment e d).sum =
      d * (gravity * (l.map fun e => e.s.m).sum) - gravity * (l.map fun e => e.s.m * e.s.beam_cg).sum := by
    intro l hl
    induction l with
    | nil => simp
    | cons x t ih =>
      rw [List.map_cons, List.sum_cons, ih fun e he => hl e (List.mem_cons_of_mem _ he),
        weightMoment_eq x (hl x List.mem_cons_self)]
      simp only [List.map_cons, List.sum_cons]
      ring
  exact this _ fun e he => (hs e (List.mem_filter.1 he).1).1

theorem layer_trapezoid (hs : ∀ e ∈ r.shaft, e.s.Built ∧ 1 + e.s.phi ≠ 0) (hu : EqualLayers r) (j : ℕ) :
    ((layer r j).map fun e => weightMoment e (position r.shaft (j + 1) - position r.shaft j)).sum =
      (layerWeight r j / 2 - shearError r j) * (position r.shaft (j + 1) - position r.shaft j) - momentError r j := by
  have : ∀ l : List ShaftEl, (∀ e ∈ l, e ∈ r.shaft ∧ leftNode e = j) →
      (l.map fun e => weightMoment e (position r.shaft (j + 1) - position r.shaft j)).sum =
      (gravity * (l.map fun e => e.s.m).sum / 2 -
        gravity * (l.map fun e => e.s.material.rho * e.s.L * growth e / (60 * (1 + e.s.phi))).sum) *
        (position r.shaft (j + 1) - position r.shaft j) -
      gravity * (l.map fun e =>
        e.s.material.rho * e.s.L ^ 2 * growth e * (1 / 12 - 1 / (60 * (1 + e.s.phi)))).sum := by
    intro l hl
    induction l with
    | nil => simp
    | cons x t ih =>
      obtain ⟨h1, h2⟩ := hl x List.mem_cons_self
      have hp : position r.shaft (j + 1) - position r.shaft j = x.s.L := by
        rw [← h2, show position r.shaft (leftNode x + 1) = _ from position_step hu h1]
        exact add_sub_cancel_left _ _
      rw [List.map_cons, List.sum_cons, ih fun e he => hl e (List.mem_cons_of_mem _ he), hp,
        trapezoid x (hs x h1).1]
      simp only [List.map_cons, List.sum_cons]
      have := (hs x h1).2
      field_simp
      ring
  refine this _ fun e he => ?_
  have := List.mem_filter.1 he
  exact ⟨this.1, of_decide_eq_true this.2⟩

theorem moment_step (hs : ∀ e ∈ r.shaft, e.s.Built ∧ 1 + e.s.phi ≠ 0) (hu : EqualLayers r) (j : ℕ) :
    0.5 * (shearRight r st j - shearError r j + (shearLeft r st (j + 1) - shearError r j)) *
        (position r.shaft (j + 1) - position r.shaft j) =
      bendingOf r st (j + 1) - bendingOf r st j + momentError r j := by
  have e1 : shearLeft r st (j + 1) = shearLeft r st j +
      (diskWeight r j - reactionAt st j + layerWeight r j) := by
    unfold shearLeft; rw [Finset.sum_range_succ]
  have e2 : ∑ i ∈ Finset.range j, ((diskWeight r i - reactionAt st i) * (position r.shaft (j + 1) - position r.shaft i) +
        ((layer r i).map fun e => weightMoment e (position r.shaft (j + 1) - position r.shaft i)).sum) =
      bendingOf r st j + (position r.shaft (j + 1) - position r.shaft j) * shearLeft r st j := by
    unfold bendingOf shearLeft
    rw [Finset.mul_sum, ← Finset.sum_add_distrib]
    refine Finset.sum_congr rfl fun i _ => ?_
    rw [layer_moment hs, layer_moment hs]
    ring
  have e3 : bendingOf r st (j + 1) = bendingOf r st j +
      (position r.shaft (j + 1) - position r.shaft j) * shearLeft r st j +
      ((diskWeight r j - reactionAt st j) * (position r.shaft (j + 1) - position r.shaft j) +
        ((layer r j).map fun e => weightMoment e (position r.shaft (j + 1) - position r.shaft j)).sum) := by
    rw [← e2]
    unfold bendingOf
    rw [Finset.sum_range_succ]
  rw [e3, layer_trapezoid hs hu, e1, shearRight]
  ring

theorem moments_close {u R F : ℕ → ℝ} {ew : List (ℝ × ℝ)} {nf : List ℝ} (c : Core r st u R F ew nf)
    (h : init pd fuel a = some (.ok r)) (hg : OnGround r)
    (hs : ∀ e ∈ r.shaft, e.s.Built ∧ 1 + e.s.phi ≠ 0) (hu : EqualLayers r)
    (hf : ∀ e ∈ r.shaft, e.s.axial_force = 0 ∧ e.s.torque = 0) : bendingOf r st (shaftEnd r) = 0 := by
  obtain ⟨-, w2⟩ := weights_sum c h (position r.shaft)
  have h1 := react_moment c hs hu hf
  have h2 : ∑ i ∈ Finset.range (shaftEnd r + 1), position r.shaft i * reactionAt st i =
      ∑ i ∈ Finset.range (shaftEnd r + 1), position r.shaft i * R i :=
    Finset.sum_congr rfl fun i hi => by rw [reactionAt_eq c hg (Finset.mem_range.1 hi)]
  have e2 : (r.disks.map fun e => e.d.m * position r.shaft e.d.n).sum =
      (r.disks.map fun e => position r.shaft e.d.n * e.d.m).sum := by
    simp only [mul_comm]
  have w1 : ∑ i ∈ Finset.range (shaftEnd r), (position r.shaft i * layerWeight r i +
      gravity * ((layer r i).map fun e => e.s.m * e.s.beam_cg).sum) =
      gravity * (r.shaft.map fun e => e.s.m * (e.s.beam_cg + position r.shaft (leftNode e))).sum := by
    have := sum_nodes r.shaft leftNode (fun e => e.s.m * (e.s.beam_cg + position r.shaft (leftNode e)))
      (n := shaftEnd r) (by
        intro e he
        have hlast : shaftEnd r = lastNode r.shaft + 1 := by rw [shaftEnd_last h]; rfl
        have := node_le_last (init_ok h) he
        show nodeOf e < _
        omega) (fun _ => gravity)
    rw [List.sum_map_mul_left] at this
    rw [← this]
    refine Finset.sum_congr rfl fun i _ => ?_
    have e3 : ∀ l : List ShaftEl, (∀ e ∈ l, leftNode e = i) →
        position r.shaft i * (gravity * (l.map fun e => e.s.m).sum) +
          gravity * (l.map fun e => e.s.m * e.s.beam_cg).sum =
        gravity * (l.map fun e => e.s.m * (e.s.beam_cg + position r.shaft (leftNode e))).sum := by
      intro l hl
      induction l with
      | nil => simp
      | cons x t ih =>
        have := ih fun e he => hl e (List.mem_cons_of_mem _ he)
        simp only [List.map_cons, List.sum_cons, hl x List.mem_cons_self]
        linear_combination this
    exact e3 _ fun e he => of_decide_eq_true (List.mem_filter.1 he).2
  rw [e2, mul_add, ← w1, ← w2, ← h2, Finset.sum_range_succ, Finset.sum_range_succ _ (shaftEnd r)] at h1
  have hcl := close_force c h hg hs
  have e3 : bendingOf r st (shaftEnd r) = position r.shaft (shaftEnd r) * shearLeft r st (shaftEnd r) -
      (∑ i ∈ Finset.range (shaftEnd r), position r.shaft i * diskWeight r i -
        ∑ i ∈ Finset.range (shaftEnd r), position r.shaft i * reactionAt st i +
        ∑ i ∈ Finset.range (shaftEnd r), (position r.shaft i * layerWeight r i +
          gravity * ((layer r i).map fun e => e.s.m * e.s.beam_cg).sum)) := by
    unfold bendingOf shearLeft
    rw [Finset.mul_sum, ← Finset.sum_sub_distrib, ← Finset.sum_add_distrib, ← Finset.sum_sub_distrib]
    refine Finset.sum_congr rfl fun i _ => ?_
    rw [layer_moment hs]
    ring
  rw [e3, hcl]
  linarith

/-- **C52** the bending diagram of every such shaft, free of axial force and torque: the errors add up from the left, but for
the last layer, whose value at the left is calculated from the end of the shaft. -/
theorem C52_bending (h : init pd fuel a = some (.ok r))
    (hr : r.run_static pd' sp fuel' = some (.ok st)) (hg : OnGround r)
    (hs : ∀ e ∈ r.shaft, e.s.Built ∧ 1 + e.s.phi ≠ 0)
    (hu : EqualLayers r) (hf : ∀ e ∈ r.shaft, e.s.axial_force = 0 ∧ e.s.torque = 0)
    (h2 : 2 < r.nodes_pos.length) :
    st.mx = (List.range (r.nodes_pos.length - 1)).map
      (fun (j : ℕ) => if j + 1 = r.nodes_pos.length - 1 then (bendingOf r st j - momentError r j, 0) else
        (bendingOf r st j + ∑ i ∈ Finset.range j, momentError r i,
          bendingOf r st (j + 1) + ∑ i ∈ Finset.range (j + 1), momentError r i)) ∧
    bendingOf r st 0 = 0 ∧ bendingOf r st (r.nodes_pos.length - 1) = 0 ∧
    st.vx_axis = (List.range (r.nodes_pos.length - 1)).map
      (fun (j : ℕ) => (position r.shaft j, position r.shaft (j + 1))) := by
  obtain ⟨u, R, F, ew, nf, c⟩ := core h hr
  have hN : r.nodes_pos.length - 1 = shaftEnd r := by rw [c.len]; rfl
  have hvx := (C52_shear h hr hg hs h2).1
  have hcl := moments_close c h hg hs hu hf
  rw [hN] at hvx ⊢
  have hax : st.vx_axis = (List.range (shaftEnd r)).map
      (fun (j : ℕ) => (position r.shaft j, position r.shaft (j + 1))) := by
    apply List.ext_getElem
    · rw [c.axis_len]; simp
    · intro j hj1 hj2
      have hj : j < shaftEnd r := by simpa using hj2
      have := c.axis j hj
      rw [List.getD_eq_getElem?_getD, List.getElem?_eq_getElem hj1, Option.getD_some] at this
      rw [this]; simp
  refine ⟨?_, by simp [bendingOf], hcl, hax⟩
  set incr := List.zipWith (fun (v x : ℝ × ℝ) => 0.5 * (v.1 + v.2) * (x.2 - x.1)) st.vx st.vx_axis
    with hincr
  have hlen : incr.length = shaftEnd r := by rw [hincr, hvx, hax]; simp
  have hget : ∀ j < shaftEnd r, incr.getD j 0 = bendingOf r st (j + 1) - bendingOf r st j + momentError r j := by
    intro j hj
    rw [List.getD_eq_getElem?_getD, List.getElem?_eq_getElem (by rw [hlen]; exact hj),
      Option.getD_some]
    simp only [hincr, hvx, hax, List.getElem_zipWith, List.getElem_map, List.getElem_range]
    exact moment_step hs hu j
  have hsum : ∀ j ≤ shaftEnd r, ∑ i ∈ Finset.range j, incr.getD i 0 =
      bendingOf r st j + ∑ i ∈ Finset.range j, momentError r i := by
    intro j hj
    rw [Finset.sum_congr rfl fun i hi => hget i (by have := Finset.mem_range.1 hi; omega), Finset.sum_add_distrib,
      Finset.sum_range_sub (bendingOf r st)]
    simp [bendingOf]
  obtain ⟨m1, m2⟩ := momentFrom_eq incr 0
  rw [c.mx]
  apply List.ext_getElem
  · rw [m1, hlen]; simp
  · intro j hj1 hj2
    have hj : j < shaftEnd r := by simpa using hj2
    have := m2 j (by rw [hlen]; exact hj)
    rw [List.getD_eq_getElem?_getD, List.getElem?_eq_getElem hj1, Option.getD_some] at this
    rw [this, hlen]
    simp only [List.getElem_map, List.getElem_range]
    by_cases hj' : j + 1 = shaftEnd r
    · rw [if_pos hj', if_pos hj', hget j hj, hj', hcl]
      congr 1; ring
    · rw [if_neg hj', if_neg hj', hsum j hj.le, hsum (j + 1) hj]
      simp

/-- **C52** so the bending diagram is that of equilibrium exactly when there is no such error. -/
theorem C52_bending_iff (h : init pd fuel a = some (.ok r))
    (hr : r.run_static pd' sp fuel' = some (.ok st)) (hg : OnGround r)
    (hs : ∀ e ∈ r.shaft, e.s.Built ∧ 1 + e.s.phi ≠ 0)
    (hu : EqualLayers r) (hf : ∀ e ∈ r.shaft, e.s.axial_force = 0 ∧ e.s.torque = 0)
    (h2 : 2 < r.nodes_pos.length) :
    st.mx = (List.range (r.nodes_pos.length - 1)).map
      (fun (j : ℕ) => (bendingOf r st j, bendingOf r st (j + 1))) ↔
    ∀ j < r.nodes_pos.length - 1, momentError r j = 0 := by
  obtain ⟨h3, h4, h5, -⟩ := C52_bending h hr hg hs hu hf h2
  rw [h3, List.map_inj_left]
  refine ⟨fun H => ?_, fun H j hj => ?_⟩
  · have hsum : ∀ j < r.nodes_pos.length - 1, ∑ i ∈ Finset.range j, momentError r i = 0 := by
      intro j hj
      rcases Nat.eq_zero_or_pos j with rfl | hpos
      · rfl
      · have := congrArg Prod.snd (H (j - 1) (List.mem_range.2 (by omega)))
        rw [if_neg (by omega), Nat.sub_add_cancel hpos] at this
        simpa using this
    intro j hj
    by_cases hj' : j + 1 = r.nodes_pos.length - 1
    · have := congrArg Prod.fst (H j (List.mem_range.2 hj))
      rw [if_pos hj'] at this
      simpa using this
    · have e := hsum (j + 1) (by omega)
      rw [Finset.sum_range_succ, hsum j hj, zero_add] at e
      exact e
  · have hj := List.mem_range.1 hj
    have hsum : ∀ k ≤ r.nodes_pos.length - 1, ∑ i ∈ Finset.range k, momentError r i = 0 := fun k hk =>
      Finset.sum_eq_zero fun i hi => H i (by have := Finset.mem_range.1 hi; omega)
    split_ifs with hj'
    · rw [H j hj, hj', h5, sub_zero]
    · rw [hsum j hj.le, hsum (j + 1) hj, add_zero, add_zero]

/-! ### A concrete rotor -/

/-- A solid cone. -/
noncomputable def coneShaft : ShaftElement :=
  { exShaft with idl := 0, axial_force := 0, n := none, alpha := 0, beta := 0 }

theorem cone_physical (x : Option ℕ) (t : Option String) :
    ({ coneShaft with n := x, tag := t } : ShaftElement).beam.Physical := by
  constructor <;> norm_num [coneShaft, exShaft, exMaterial, ShaftElement.beam]

theorem cone_built (x : Option ℕ) (t : Option String) :
    ({ coneShaft with n := x, tag := t } : ShaftElement).Built :=
  facts_built (physical_facts (cone_physical x t) (Or.inr rfl))

/-- Two cones on bearings at both ends, with a disk between them. -/
noncomputable def coneArgs : RotorArgs where
  shaft := List.replicate 2 (.el ⟨false, coneShaft⟩)
  disks := [⟨false, ⟨1, 30, 1, 2, some "impeller", 1, ""⟩⟩]
  bearings := [.brg false (exBrg 0 none 1e6 100), .brg false (exBrg 2 none 1e6 100)]

theorem coneArgs_wf : WellFormed false 2 coneArgs where
  pos := by norm_num
  nodes := by
    intro j
    show j ∈ [0, 1] ↔ j < 2
    simp; omega
  len := by
    intro e he
    · simp [coneArgs, shaftList, Nest.flattenAll, Nest.flatten, List.replicate] at he
      subst he
      norm_num [coneShaft, exShaft]
  shaft_six := by
    intro e he
    · simp [coneArgs, shaftList, Nest.flattenAll, Nest.flatten, List.replicate] at he
      subst he; rfl
  disk_six := by intro e he; simp [coneArgs] at he; subst he; rfl
  brg_six := by
    intro e he; simp [coneArgs] at he
    rcases he with rfl | rfl <;> rfl
  disk_on := by intro e he; simp [coneArgs] at he; subst he; simp
  brg_nodes := by simp [coneArgs, BrgEl.n, BrgEl.base, exBrg]
  brg_on := by
    intro e he; simp [coneArgs] at he
    rcases he with rfl | rfl <;> left <;> simp [BrgEl.n, BrgEl.base, exBrg]
  brg_linked := by
    intro e he h; simp [coneArgs] at he
    rcases he with rfl | rfl <;> simp [BrgEl.n, BrgEl.base, exBrg] at h
  brg_order := by
    intro e he c hc h hl; simp [coneArgs] at he hc
    rcases he with rfl | rfl <;> rcases hc with rfl | rfl <;>
      simp [BrgEl.n, BrgEl.n_link, BrgEl.base, exBrg] at h hl ⊢
  pm_on := by simp [coneArgs]
  tags := by decide

theorem cone_facts :
    ∃ r, init exPandas 10 (coneArgs) = some (.ok r) ∧ r.nodes_pos.length = 2 + 1 ∧
      (∀ e ∈ r.shaft, ∃ x t, e = ⟨false, { coneShaft with n := some x, tag := t }⟩) ∧
      TagsFree r ∧ OnGround r ∧ r.bearings.length = 2 ∧
      (∃ b c, Carries r b ∧ Carries r c ∧ b.n < c.n) ∧
      r.disks = [⟨false, ⟨1, 30, 1, 2, some "impeller", 1, ""⟩⟩] := by
  obtain ⟨r, h1, h2, h3, h4⟩ := accepts exPandas_sorts coneArgs_wf (fuel := 10) (by simp [coneArgs])
  have hb := init_ok h1
  have hlen : r.nodes_pos.length = 2 + 1 := by rw [hb.pos, h4.nodesPos]; simp
  have hdk : r.disks = [⟨false, ⟨1, 30, 1, 2, some "impeller", 1, ""⟩⟩] := by rw [hb.disks]; rfl
  have hsh : ∀ e ∈ r.shaft, (∃ j : ℕ, e.s.tag = some ("ShaftElement " ++ toString j)) ∧
      ∃ x t, e = ⟨false, { coneShaft with n := some x, tag := t }⟩ := by
    intro e he
    rw [hb.shaft] at he
    have := (parts_sh_perm (coneArgs)).mem_iff.1 he
    simp only [parts, numberShaft, coneArgs, List.replicate, Nest.flattenAll, Nest.flatten,
      List.append_nil, List.mapIdx_cons, List.mapIdx_nil, List.mem_cons, List.not_mem_nil,
      or_false, List.cons_append, List.nil_append] at this
    rcases this with this | this
    · exact ⟨⟨0, by rw [this]; rfl⟩, 0, _, this⟩
    · exact ⟨⟨1, by rw [this]; rfl⟩, 1, _, this⟩
  have hbr : ∀ b, b ∈ r.bearings ↔
      b = .brg false { exBrg 0 none 1e6 100 with tag := some "Bearing 0" } ∨
      b = .brg false { exBrg 2 none 1e6 100 with tag := some "Bearing 1" } := by
    intro b
    rw [hb.bearings, (parts_br_perm (coneArgs)).mem_iff]
    have : tagBearings (coneArgs).bearings =
      [.brg false { exBrg 0 none 1e6 100 with tag := some "Bearing 0" },
       .brg false { exBrg 2 none 1e6 100 with tag := some "Bearing 1" }] := rfl
    rw [this]
    simp
  refine ⟨r, h1, hlen, fun e he => (hsh e he).2, ⟨fun e he i => ?_, fun e he i => ?_⟩,
    fun b hb' l hl => ?_, ?_, ⟨_, _, ⟨(hbr _).2 (Or.inl rfl), rfl, ?_⟩,
      ⟨(hbr _).2 (Or.inr rfl), rfl, ?_⟩, ?_⟩, hdk⟩
  · obtain ⟨⟨j, hj⟩, -⟩ := hsh e he
    rw [hj]
    exact default_ne _ _ _ (by intro x y h; simp at h)
  · rw [hdk] at he
    simp only [List.mem_singleton] at he
    subst he
    intro h
    have := congrArg String.toList (Option.some.inj h)
    rw [String.toList_append] at this
    simp at this
  · rcases (hbr b).1 hb' with rfl | rfl <;> simp [BrgEl.n_link, BrgEl.base, exBrg] at hl
  · rw [hb.bearings, (parts_br_perm (coneArgs)).length_eq]; rfl
  · rw [hlen]; simp [BrgEl.n, BrgEl.base, exBrg]
  · rw [hlen]; simp [BrgEl.n, BrgEl.base, exBrg]
  · simp [BrgEl.n, BrgEl.base, exBrg]

theorem cone_shaft {r : Rotor}
    (h : ∀ e ∈ r.shaft, ∃ x t, e = ⟨false, { coneShaft with n := some x, tag := t }⟩) :
    (∀ e ∈ r.shaft, Sound e) ∧ (∀ e ∈ r.shaft, e.s.Built ∧ 1 + e.s.phi ≠ 0) ∧
    EqualLayers r ∧
    (∀ e ∈ r.shaft, e.s.axial_force = 0 ∧ e.s.torque = 0) := by
  refine ⟨fun e he => ?_, fun e he => ?_, fun e he e' he' _ => ?_, fun e he => ?_⟩
  all_goals obtain ⟨x, t, rfl⟩ := h e he
  · exact ⟨cone_built _ _, cone_physical _ _, le_rfl, rfl⟩
  · exact ⟨cone_built _ _, (one_add_phi_pos (built_facts (cone_built _ _)) (cone_physical _ _)).ne'⟩
  · obtain ⟨x', t', rfl⟩ := h e' he'
    rfl
  · exact ⟨rfl, rfl⟩

theorem cone_errors {r : Rotor}
    (h : ∀ e ∈ r.shaft, ∃ x t, e = ⟨false, { coneShaft with n := some x, tag := t }⟩) {j : ℕ}
    (hj : ∃ e ∈ r.shaft, nodeOf e = j) : 0 < shearError r j ∧ 0 < momentError r j := by
  have hg : (0 : ℝ) < gravity := by norm_num [gravity]
  obtain ⟨e, he, hn⟩ := hj
  have hne : ∀ f : ShaftEl → ℝ, (layer r j).map f ≠ [] := by
    intro f h'
    rw [List.map_eq_nil_iff] at h'
    have : e ∈ layer r j := List.mem_filter.2 ⟨he, decide_eq_true (show leftNode e = j from hn)⟩
    rw [h'] at this
    cases this
  have hgr : ∀ x t, 0 < growth ⟨false, { coneShaft with n := x, tag := t }⟩ := by
    intro x t
    simp [growth, ShaftElement.beam, Beam.area, Beam.od, Beam.id, coneShaft, exShaft]
    have := Real.pi_pos
    linarith
  have hφ : ∀ x t, 0 < 1 + ({ coneShaft with n := x, tag := t } : ShaftElement).phi := fun x t =>
    one_add_phi_pos (built_facts (cone_built x t)) (cone_physical x t)
  constructor
  · refine mul_pos hg (List.sum_pos _ (fun y hy => ?_) (hne _))
    obtain ⟨e, he, rfl⟩ := List.mem_map.1 hy
    obtain ⟨x, t, rfl⟩ := h e (List.mem_filter.1 he).1
    have h1 : (0 : ℝ) < ({ coneShaft with n := some x, tag := t } : ShaftElement).material.rho := by
      norm_num [coneShaft, exShaft, exMaterial]
    have h2 : (0 : ℝ) < ({ coneShaft with n := some x, tag := t } : ShaftElement).L := by
      norm_num [coneShaft, exShaft]
    exact div_pos (mul_pos (mul_pos h1 h2) (hgr _ _)) (mul_pos (by norm_num) (hφ _ _))
  · refine mul_pos hg (List.sum_pos _ (fun y hy => ?_) (hne _))
    obtain ⟨e, he, rfl⟩ := List.mem_map.1 hy
    obtain ⟨x, t, rfl⟩ := h e (List.mem_filter.1 he).1
    have h1 : (0 : ℝ) < ({ coneShaft with n := some x, tag := t } : ShaftElement).material.rho := by
      norm_num [coneShaft, exShaft, exMaterial]
    have h2 : (0 : ℝ) < ({ coneShaft with n := some x, tag := t } : ShaftElement).L := by
      norm_num [coneShaft, exShaft]
    have h3 : (1 : ℝ) ≤ 1 + ({ coneShaft with n := some x, tag := t } : ShaftElement).phi := by
      rw [phi_eq (built_facts (cone_built (some x) t))]
      linarith [specPhi_nonneg (cone_physical (some x) t)]
    refine mul_pos (mul_pos (mul_pos h1 (pow_pos h2 2)) (hgr _ _)) ?_
    have : 1 / (60 * (1 + ({ coneShaft with n := some x, tag := t } : ShaftElement).phi)) ≤ 1 / 60 :=
      one_div_le_one_div_of_le (by norm_num) (by linarith)
    show 0 < 1 / 12 - 1 / (60 * (1 + ({ coneShaft with n := some x, tag := t } : ShaftElement).phi))
    linarith

/-- **C52** for two cones both diagrams are wrong in every element (and the hypotheses of `C52_shear`, `C52_shear_iff`,
`C52_bending` and `C52_bending_iff` hold). -/
theorem C52_taper_false (sp : Scipy) : ∃ r st, init exPandas 10 coneArgs = some (.ok r) ∧
    r.run_static exPandas sp 4 = some (.ok st) ∧ OnGround r ∧
    (∀ e ∈ r.shaft, e.s.Built ∧ 1 + e.s.phi ≠ 0) ∧ EqualLayers r ∧
    (∀ e ∈ r.shaft, e.s.axial_force = 0 ∧ e.s.torque = 0) ∧ 2 < r.nodes_pos.length ∧
    (∀ j < r.nodes_pos.length - 1, 0 < shearError r j ∧ 0 < momentError r j) ∧
    st.vx ≠ (List.range (r.nodes_pos.length - 1)).map
      (fun (j : ℕ) => (shearRight r st j, shearLeft r st (j + 1))) ∧
    st.mx ≠ (List.range (r.nodes_pos.length - 1)).map
      (fun (j : ℕ) => (bendingOf r st j, bendingOf r st (j + 1))) := by
  obtain ⟨r, h1, h2, h3, h4, h5, h6, ⟨b, c, hb, hc, hbc⟩, -⟩ := cone_facts
  obtain ⟨s1, s2, s4, s5⟩ := cone_shaft h3
  obtain ⟨st, hst⟩ := C28_runs h1 coneArgs_wf h4 s1 h5 hb hc hbc exPandas_sorts sp
    (fuel' := 4) (by omega)
  obtain ⟨u, R, F, ew, nf, c⟩ := core h1 hst
  have hE : ∀ j < r.nodes_pos.length - 1, 0 < shearError r j ∧ 0 < momentError r j := fun j hj =>
    cone_errors h3 (c.fill j (by have := c.len; omega))
  refine ⟨r, st, h1, hst, h5, s2, s4, s5, by omega, hE, fun H => ?_, fun H => ?_⟩
  · exact (hE 0 (by omega)).1.ne' ((C52_shear_iff h1 hst h5 s2 (by omega)).1 H 0 (by omega))
  · exact (hE 0 (by omega)).2.ne' ((C52_bending_iff h1 hst h5 s2 s4 s5 (by omega)).1 H 0 (by omega))

end Ross.Props
