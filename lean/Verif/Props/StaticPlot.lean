import Verif.Spec.StaticPlot
import Verif.Props.StaticRuns
import Verif.Lemmas.Place

/-! # C111: the diagrams of the static analysis -/

namespace Ross.Props

open Ross Ross.Spec Ross.BearingLemmas Ross.Rotor Ross.RotorLemmas Ross.StaticLemmas Ross.AssemblyLemmas Ross.PlaceLemmas StaticPlot

variable {pd pd' : Pandas} {sp : Scipy} {a : RotorArgs} {r : Rotor} {fuel fuel' : ℕ} {st : StaticResults}

theorem curve_ends {N : ℕ} {pos f g : ℕ → ℝ} (ux uy : ℝ) :
    curve (flatten ((List.range N).map fun j => (pos j, pos (j + 1)))) (flatten ((List.range N).map fun j => (f j, g j)))
      ux uy = atEnds N pos f g ux uy := by
  unfold curve flatten atEnds
  generalize List.range N = l
  induction l with
  | nil => rfl
  | cons j l ih =>
    simp only [List.map_cons, List.flatMap_cons, List.cons_append, List.nil_append, List.zip_cons_cons]
    rw [← ih]

/-- **C111** the line for the deformation goes through the displacement of every node, above its position. -/
theorem C111_deformation (h : init pd fuel a = some (.ok r)) (hr : r.run_static pd' sp fuel' = some (.ok st)) (uL uD : ℝ) :
    deformation r st uL uD = (List.range r.nodes_pos.length).map fun i =>
      (position r.shaft i * uL, st.displacement_y.getD i 0 * uD) := by
  obtain ⟨u, R, F, ew, nf, c⟩ := core h hr
  have hd : st.displacement_y = (List.range (shaftEnd r + 1)).map fun i => st.displacement_y.getD i 0 := by
    refine List.ext_getElem (by simp [c.disp_len]) fun i h1 h2 => ?_
    simp [List.getD_eq_getElem?_getD, List.getElem?_eq_getElem h1]
  unfold deformation curve
  conv_lhs => rw [hd]
  rw [c.nodes_pos, List.map_map, List.map_map, List.zip_map', List.length_map, List.length_range]
  rfl

/-- **C111** the line for the shear force shows, at both ends of every element, the forces on what lies to the left. -/
theorem C111_shear_partial (h : init pd fuel a = some (.ok r)) (hr : r.run_static pd' sp fuel' = some (.ok st))
    (hg : OnGround r) (hs : ∀ e ∈ r.shaft, e.s.Built ∧ 1 + e.s.phi ≠ 0) (hc : ∀ e ∈ r.shaft, Cylinder e)
    (h2 : 2 < r.nodes_pos.length) (uL uF : ℝ) :
    shearing st uL uF = atEnds (r.nodes_pos.length - 1) (position r.shaft) (shearRight r st)
      (fun j => shearLeft r st (j + 1)) uL uF := by
  obtain ⟨u, R, F, ew, nf, c⟩ := core h hr
  have hN : r.nodes_pos.length - 1 = shaftEnd r := by rw [c.len]; rfl
  have ha : st.vx_axis = (List.range (shaftEnd r)).map fun j => (position r.shaft j, position r.shaft (j + 1)) := by
    refine List.ext_getElem (by simp [c.axis_len]) fun i h1 h2 => ?_
    have := c.axis i (by rw [← c.axis_len]; exact h1)
    rw [List.getD_eq_getElem?_getD, List.getElem?_eq_getElem h1, Option.getD_some] at this
    simp [this]
  unfold shearing
  rw [(C52_shear_partial h hr hg hs hc h2).1, ha, hN]
  exact curve_ends uL uF

/-- **C111** the line for the bending moment shows, at both ends of every element, the moment of the forces to the left. -/
theorem C111_bending_partial (h : init pd fuel a = some (.ok r)) (hr : r.run_static pd' sp fuel' = some (.ok st))
    (hg : OnGround r) (hs : ∀ e ∈ r.shaft, e.s.Built ∧ 1 + e.s.phi ≠ 0) (hc : ∀ e ∈ r.shaft, Cylinder e)
    (hu : EqualLayers r) (hf : ∀ e ∈ r.shaft, e.s.axial_force = 0 ∧ e.s.torque = 0)
    (h2 : 2 < r.nodes_pos.length) (uL uM : ℝ) :
    bending st uL uM = atEnds (r.nodes_pos.length - 1) (position r.shaft) (bendingAt r st)
      (fun j => bendingAt r st (j + 1)) uL uM := by
  obtain ⟨h1, -, -, h4⟩ := C52_bending_partial h hr hg hs hc hu hf h2
  unfold bending
  rw [h1, h4]
  exact curve_ends uL uM

theorem pos_at (h : init pd fuel a = some (.ok r)) (hr : r.run_static pd' sp fuel' = some (.ok st)) {i : ℕ}
    (hi : i < r.nodes_pos.length) : r.nodes_pos[i]? = some (position r.shaft i) := by
  obtain ⟨u, R, F, ew, nf, c⟩ := core h hr
  rw [c.len] at hi
  rw [c.nodes_pos, List.getElem?_map, List.getElem?_range hi]
  rfl

theorem flatMap_single {α β : Type} {l : List α} {f : α → List β} {g : α → β} (h : ∀ x ∈ l, f x = [g x]) :
    l.flatMap f = l.map g := by
  induction l with
  | nil => rfl
  | cons x l ih =>
    rw [List.flatMap_cons, h x List.mem_cons_self, ih fun y hy => h y (List.mem_cons_of_mem _ hy)]
    rfl

theorem force_on (h : init pd fuel a = some (.ok r)) (hr : r.run_static pd' sp fuel' = some (.ok st)) :
    ∀ p ∈ st.bearing_forces_nodal, p.1 < r.nodes_pos.length := by
  obtain ⟨u, R, F, ew, nf, c⟩ := core h hr
  intro p hp
  rw [c.len]
  exact keys_lt c p.1 (List.mem_map.2 ⟨p, hp, rfl⟩)

theorem disk_nodal (h : init pd fuel a = some (.ok r)) (hr : r.run_static pd' sp fuel' = some (.ok st))
    (hn : (r.disks.map fun e => e.d.n).Nodup) :
    st.disk_forces_nodal = r.disks.map fun e => (e.d.n, gravity * e.d.m) := by
  obtain ⟨u, R, F, ew, nf, c⟩ := core h hr
  rw [c.disk_nodal]
  have : ∀ (l : List DiskEl) (d : Dict ℕ ℝ), (l.map fun e => e.d.n).Nodup → (∀ e ∈ l, e.d.n ∉ d.keys) →
      l.foldl (fun d e => Dict.set d e.d.n (-e.d.m * gAcc)) d = d ++ l.map fun e => (e.d.n, gravity * e.d.m) := by
    intro l
    induction l with
    | nil => intro d _ _; simp
    | cons e l ih =>
      intro d hn hd
      rw [List.map_cons, List.nodup_cons] at hn
      rw [List.foldl_cons, ih _ hn.2]
      · rw [Dict.set_of_not_mem _ _ _ (hd e List.mem_cons_self), List.append_assoc, List.map_cons]
        have : -e.d.m * gAcc = gravity * e.d.m := by rw [gravity, gAcc]; ring
        rw [this]
        rfl
      · intro e' he' hk
        rw [Dict.mem_keys_set] at hk
        rcases hk with hk | hk
        · exact hn.1 (List.mem_map.2 ⟨e', he', hk⟩)
        · exact hd e' (List.mem_cons_of_mem _ he') hk
  exact this r.disks [] hn (by simp [Dict.keys])

theorem forces_get : ∀ {l : Dict ℕ ℝ} {p : ℕ × ℝ}, l.keys.Nodup → p ∈ l → l.get? p.1 = some p.2
  | q :: l, p, hn, hm => by
    simp only [Dict.keys, List.map_cons, List.nodup_cons] at hn
    unfold Dict.get?
    rcases List.mem_cons.1 hm with rfl | hm
    · simp
    · rw [if_neg]
      · exact forces_get hn.2 hm
      · intro e
        exact hn.1 (List.mem_map.2 ⟨p, hm, e.symm⟩)

open Classical in
theorem reaction_arrows (h : init pd fuel a = some (.ok r)) (hr : r.run_static pd' sp fuel' = some (.ok st)) (uL uF : ℝ) :
    ∀ p ∈ st.bearing_forces_nodal, bearingArrow r uL uF p =
      [⟨.bearing, position r.shaft p.1 * uL, 0, if p.2 < 0 then 12.5 else -12.5, p.2 * uF⟩] := by
  intro p hp
  unfold bearingArrow
  rw [pos_at h hr (force_on h hr p hp)]
  dsimp only
  unfold y_start
  split_ifs <;> norm_num

theorem disk_arrows (h : init pd fuel a = some (.ok r)) (hr : r.run_static pd' sp fuel' = some (.ok st))
    (hn : (r.disks.map fun e => e.d.n).Nodup) (uL uF : ℝ) : st.disk_forces_nodal.flatMap (diskArrow r uL uF) =
    r.disks.map fun e => ⟨.disk, position r.shaft e.d.n * uL, 0, 12.5, -(gravity * e.d.m * uF)⟩ := by
  obtain ⟨u, R, F, ew, nf, c⟩ := core h hr
  rw [disk_nodal h hr hn, List.flatMap_map]
  refine flatMap_single fun e he => ?_
  unfold diskArrow
  rw [pos_at h hr (by rw [c.len]; have := disks_on h c.fill e he; omega)]
  dsimp only
  unfold y_start
  norm_num

theorem nodes_card (h : init pd fuel a = some (.ok r)) (hr : r.run_static pd' sp fuel' = some (.ok st)) :
    st.bearing_forces_nodal.length = carryingNodes r := by
  obtain ⟨u, R, F, ew, nf, c⟩ := core h hr
  have h1 : st.bearing_forces_nodal.length = st.bearing_forces_nodal.keys.length := by unfold Dict.keys; simp
  rw [h1, ← List.toFinset_card_of_nodup c.keys]
  unfold carryingNodes
  congr 1
  ext i
  rw [List.mem_toFinset, List.mem_toFinset, Dict.mem_keys_iff, c.get i, List.mem_map]
  have hc : ∀ b, b ∈ carrying r ↔ b ∈ r.bearings.filter fun b => !b.isSeal && decide (b.n < r.nodes_pos.length) := by
    intro b
    simp [carrying, List.mem_filter]
  simp only [hc]
  split_ifs with hb
  · simpa using hb
  · simpa using hb

open Classical in
/-- **C111** the free-body diagram has one arrow for every node with bearings that carry the shaft, at its position, with
the reaction; it pushes upwards unless the reaction is negative.  The weight of the shaft is next to it. -/
theorem C111_reactions (h : init pd fuel a = some (.ok r)) (hr : r.run_static pd' sp fuel' = some (.ok st))
    (hg : OnGround r) (uL uF : ℝ) :
    (freeBody r st uL uF).weight = gravity * r.m_shaft * uF ∧
    ∃ nodes : List ℕ, nodes.Nodup ∧ (∀ i, i ∈ nodes ↔ ∃ b, Carries r b ∧ b.n = i) ∧
      List.Forall₂ (fun i w => w.x = position r.shaft i * uL ∧ w.value = reactionAt st i * uF ∧
        (0 ≤ reactionAt st i → Upwards w) ∧ (reactionAt st i < 0 → Downwards w)) nodes
        (arrowsOf .bearing (freeBody r st uL uF)) := by
  obtain ⟨k1, k2, -⟩ := C28_reactions h hr hg
  refine ⟨by rw [← (C28_weights h hr).1]; rfl, st.bearing_forces_nodal.keys, k1, k2, ?_⟩
  have e : arrowsOf .bearing (freeBody r st uL uF) = st.bearing_forces_nodal.map fun p =>
      ⟨.bearing, position r.shaft p.1 * uL, 0, if p.2 < 0 then 12.5 else -12.5, p.2 * uF⟩ := by
    unfold arrowsOf freeBody
    dsimp only
    rw [List.filter_flatMap]
    refine flatMap_single fun p hp => ?_
    rw [List.filter_append, reaction_arrows h hr uL uF p hp]
    have : (st.disk_forces_nodal.flatMap (diskArrow r uL uF)).filter (fun a => a.kind = .bearing) = [] := by
      rw [List.filter_eq_nil_iff]
      intro w hw
      obtain ⟨q, -, hq⟩ := List.mem_flatMap.1 hw
      unfold diskArrow at hq
      split at hq
      · rw [List.mem_singleton.1 hq]
        simp
      · cases hq
    rw [this]
    simp
  rw [e]
  unfold Dict.keys
  rw [List.forall₂_map_left_iff, List.forall₂_map_right_iff, List.forall₂_same]
  intro p hp
  have hv : reactionAt st p.1 = p.2 := by
    unfold reactionAt
    rw [forces_get k1 hp]
    rfl
  rw [hv]
  refine ⟨rfl, rfl, fun h0 => ?_, fun h0 => ?_⟩
  · unfold Upwards
    dsimp only
    rw [if_neg (not_lt.2 h0)]
    norm_num
  · unfold Downwards
    dsimp only
    rw [if_pos h0]
    norm_num

open Classical in
theorem arrows_eq (h : init pd fuel a = some (.ok r)) (hr : r.run_static pd' sp fuel' = some (.ok st))
    (hn : (r.disks.map fun e => e.d.n).Nodup) (uL uF : ℝ) : (freeBody r st uL uF).arrows =
    st.bearing_forces_nodal.flatMap fun p =>
      ⟨.bearing, position r.shaft p.1 * uL, 0, if p.2 < 0 then 12.5 else -12.5, p.2 * uF⟩ ::
        r.disks.map fun e => ⟨.disk, position r.shaft e.d.n * uL, 0, 12.5, -(gravity * e.d.m * uF)⟩ := by
  unfold freeBody
  dsimp only
  refine List.flatMap_congr fun p hp => ?_
  rw [reaction_arrows h hr uL uF p hp, disk_arrows h hr hn uL uF]
  rfl

/-- **C111** the arrows of the reactions are in equilibrium with the weights of the shaft and of the disks. -/
theorem C111_reactions_balance (h : init pd fuel a = some (.ok r)) (hr : r.run_static pd' sp fuel' = some (.ok st))
    (hg : OnGround r) (hs : ∀ e ∈ r.shaft, e.s.Built ∧ 1 + e.s.phi ≠ 0)
    (hn : (r.disks.map fun e => e.d.n).Nodup) (uL uF : ℝ) :
    ((arrowsOf .bearing (freeBody r st uL uF)).map fun w => w.value).sum =
      (freeBody r st uL uF).weight + gravity * (r.disks.map fun e => e.d.m).sum * uF := by
  have h1 := C28_forces h hr hg hs
  rw [← mass_eq h] at h1
  have hw : (freeBody r st uL uF).weight = gravity * (r.shaft.map fun e => e.s.m).sum * uF := by
    rw [← (init_ok h).m_shaft, ← (C28_weights h hr).1]
    rfl
  have e : (arrowsOf .bearing (freeBody r st uL uF)).map (fun w => w.value) =
      st.bearing_forces_nodal.map fun p => p.2 * uF := by
    unfold arrowsOf
    rw [arrows_eq h hr hn, List.filter_flatMap, List.map_flatMap]
    refine flatMap_single fun p hp => ?_
    rw [List.filter_cons_of_pos (by simp), List.filter_eq_nil_iff.2]
    · rfl
    · intro w hw
      obtain ⟨e, -, rfl⟩ := List.mem_map.1 hw
      simp
  rw [e, List.sum_map_mul_right, h1, hw]
  ring

/-- **C111** every disk is drawn at its position, with its weight downwards, but once for every node with bearings, so that
the forces shown are not in equilibrium. -/
theorem C111_disks_false (h : init pd fuel a = some (.ok r)) (hr : r.run_static pd' sp fuel' = some (.ok st))
    (hg : OnGround r) (hs : ∀ e ∈ r.shaft, e.s.Built ∧ 1 + e.s.phi ≠ 0)
    (hn : (r.disks.map fun e => e.d.n).Nodup) (uL uF : ℝ) :
    arrowsOf .disk (freeBody r st uL uF) = (List.replicate (carryingNodes r) (r.disks.map fun e =>
      ⟨.disk, position r.shaft e.d.n * uL, 0, 12.5, -(gravity * e.d.m * uF)⟩)).flatten ∧
    (2 ≤ carryingNodes r → (r.disks.map fun e => e.d.m).sum ≠ 0 → uF ≠ 0 → ¬InEquilibrium (freeBody r st uL uF)) := by
  have hsum : ((freeBody r st uL uF).arrows.map fun w => w.value).sum = (st.bearing_forces_nodal.map fun p => p.2).sum * uF -
      carryingNodes r * (gravity * (r.disks.map fun e => e.d.m).sum * uF) := by
    rw [arrows_eq h hr hn, ← nodes_card h hr]
    generalize st.bearing_forces_nodal = l
    induction l with
    | nil => simp
    | cons p l ih =>
      rw [List.flatMap_cons, List.map_append, List.sum_append, ih, List.map_cons, List.sum_cons, List.map_map,
        List.map_cons, List.sum_cons, List.length_cons]
      have : (r.disks.map ((fun w : Arrow => w.value) ∘ fun e : DiskEl =>
          (⟨.disk, position r.shaft e.d.n * uL, 0, 12.5, -(gravity * e.d.m * uF)⟩ : Arrow))).sum =
          -(gravity * (r.disks.map fun e => e.d.m).sum * uF) := by
        generalize r.disks = k
        induction k with
        | nil => simp
        | cons e k ihk =>
          rw [List.map_cons, List.sum_cons, ihk, List.map_cons, List.sum_cons]
          simp only [Function.comp_apply]
          ring
      rw [this]
      push_cast
      ring
  refine ⟨?_, fun h2 hm hu hb => ?_⟩
  · unfold arrowsOf
    rw [arrows_eq h hr hn, List.filter_flatMap, ← nodes_card h hr]
    generalize st.bearing_forces_nodal = l
    induction l with
    | nil => rfl
    | cons p l ih =>
      rw [List.flatMap_cons, ih, List.length_cons, List.replicate_succ, List.flatten_cons,
        List.filter_cons_of_neg (by simp), List.filter_eq_self.2]
      intro w hw
      obtain ⟨e, -, rfl⟩ := List.mem_map.1 hw
      simp
  · unfold InEquilibrium at hb
    have h1 := C28_forces h hr hg hs
    have hw : (freeBody r st uL uF).weight = gravity * (r.shaft.map fun e => e.s.m).sum * uF := by
      rw [← (init_ok h).m_shaft, ← (C28_weights h hr).1]
      rfl
    rw [hsum, h1, hw, ← mass_eq h] at hb
    have h3 : ((carryingNodes r : ℝ) - 1) * (gravity * (r.disks.map fun e => e.d.m).sum * uF) = 0 := by linarith
    have h4 : (2 : ℝ) ≤ carryingNodes r := by exact_mod_cast h2
    have h5 : gravity ≠ 0 := by unfold gravity; norm_num
    rcases mul_eq_zero.1 h3 with h6 | h6
    · linarith
    · exact (mul_ne_zero (mul_ne_zero h5 hm) hu) h6

/-- **C111** of several disks on one node only the last one is shown. -/
theorem C111_same_node_false (h : init pd fuel a = some (.ok r)) (hr : r.run_static pd' sp fuel' = some (.ok st))
    {l₁ l₂ : List DiskEl} {e : DiskEl} (hd : r.disks = l₁ ++ e :: l₂) (hl : ∀ e' ∈ l₂, e'.d.n ≠ e.d.n) (uL uF : ℝ) :
    ∀ w ∈ arrowsOf .disk (freeBody r st uL uF), ∃ n, w.x = position r.shaft n * uL ∧
      (n = e.d.n → w.value = -(gravity * e.d.m * uF)) := by
  obtain ⟨u, R, F, ew, nf, c⟩ := core h hr
  have hfold : ∀ (l : List DiskEl) (d : Dict ℕ ℝ), d.keys.Nodup →
      (l.foldl (fun d e => Dict.set d e.d.n (-e.d.m * gAcc)) d).keys.Nodup := by
    intro l
    induction l with
    | nil => exact fun d hd => hd
    | cons e l ih => exact fun d hd => ih _ (Dict.nodup_set _ _ _ hd)
  have hget : ∀ (l : List DiskEl) (d : Dict ℕ ℝ), (∀ e' ∈ l, e'.d.n ≠ e.d.n) →
      (l.foldl (fun d e => Dict.set d e.d.n (-e.d.m * gAcc)) d).get? e.d.n = d.get? e.d.n := by
    intro l
    induction l with
    | nil => exact fun d _ => rfl
    | cons e' l ih =>
      intro d hl
      rw [List.foldl_cons, ih _ fun x hx => hl x (List.mem_cons_of_mem _ hx),
        Dict.get?_set_ne _ _ (hl e' List.mem_cons_self)]
  have hk : st.disk_forces_nodal.keys.Nodup := by
    rw [c.disk_nodal]
    exact hfold _ _ (by simp [Dict.keys])
  have hg : st.disk_forces_nodal.get? e.d.n = some (gravity * e.d.m) := by
    rw [c.disk_nodal, hd, List.foldl_append, List.foldl_cons, hget _ _ hl, Dict.get?_set_self]
    congr 1
    rw [gravity, gAcc]
    ring
  intro w hw
  unfold arrowsOf freeBody at hw
  obtain ⟨hw, hkind⟩ := List.mem_filter.1 hw
  obtain ⟨p, hp, hw⟩ := List.mem_flatMap.1 hw
  rcases List.mem_append.1 hw with hw | hw
  · rw [reaction_arrows h hr uL uF p hp] at hw
    rw [List.mem_singleton.1 hw] at hkind
    simp at hkind
  · obtain ⟨q, hq, hw⟩ := List.mem_flatMap.1 hw
    unfold diskArrow at hw
    split at hw
    · rename_i z hz
      rw [List.mem_singleton.1 hw]
      have hlt : q.1 < r.nodes_pos.length := (List.getElem?_eq_some_iff.1 hz).1
      rw [pos_at h hr hlt] at hz
      refine ⟨q.1, by rw [← Option.some.inj hz], fun e1 => ?_⟩
      have := forces_get hk hq
      rw [e1, hg] at this
      dsimp only
      rw [← Option.some.inj this]
    · cases hw

/-- A rod with a disk between two bearings: the disk is drawn twice. -/
example (sp : Scipy) : ∃ r st, init exPandas 10 (rodArgs 2) = some (.ok r) ∧ r.run_static exPandas sp 4 = some (.ok st) ∧
    OnGround r ∧ (∀ e ∈ r.shaft, e.s.Built ∧ 1 + e.s.phi ≠ 0) ∧ (∀ e ∈ r.shaft, Cylinder e) ∧ EqualLayers r ∧
    (∀ e ∈ r.shaft, e.s.axial_force = 0 ∧ e.s.torque = 0) ∧ 2 < r.nodes_pos.length ∧
    (r.disks.map fun e => e.d.n).Nodup ∧ 2 ≤ carryingNodes r ∧ ¬InEquilibrium (freeBody r st 1 1) := by
  obtain ⟨r, h1, h2, h3, h4, h5, h6, ⟨b, c, hb, hc, hbc⟩, hdk, h8⟩ := rod_facts (k := 2) (Or.inr rfl)
  obtain ⟨s1, s2, s3, s4, s5⟩ := rod_shaft h3
  obtain ⟨st, hst⟩ := C28_runs h1 (rodArgs_wf (Or.inr rfl)) h4 s1 h5 hb hc hbc exPandas_sorts sp
    (fuel' := 4) (by omega)
  have hn : (r.disks.map fun e => e.d.n).Nodup := by rw [hdk]; simp
  have h2c : 2 ≤ carryingNodes r := by
    unfold carryingNodes
    have hm : ∀ x, Carries r x → x.n ∈ ((r.bearings.filter fun b => !b.isSeal && decide (b.n < r.nodes_pos.length)).map
        fun b => b.n).toFinset := by
      intro x hx
      rw [List.mem_toFinset, List.mem_map]
      exact ⟨x, List.mem_filter.2 ⟨hx.1, by simp [hx.2.1, hx.2.2]⟩, rfl⟩
    have := Finset.one_lt_card.2 ⟨_, hm b hb, _, hm c hc, by omega⟩
    omega
  exact ⟨r, st, h1, hst, h5, s2, s3, s4, s5, by omega, hn, h2c, (C111_disks_false h1 hst h5 s2 hn 1 1).2 h2c (by rw [hdk]; norm_num)
    one_ne_zero⟩

end Ross.Props
