import Verif.Lemmas.Readout
import Verif.Props.Orbit
import Verif.Lemmas.ExRotor

/-!
# C63-C66: what is reported of responses at a node
-/

namespace Ross.Props

open Ross Ross.Spec Ross.Rotor Ross.RotorLemmas Ross.ReadoutLemmas Polynomial

variable {pd : Pandas} {fuel : ℕ} {a : RotorArgs} {r : Rotor} {six : Bool} {N : ℕ}

/-! ### C63: probes in the time response -/

/-- C63: a radial probe reports the motion of its node, projected on its direction, for shaft nodes and for
supports. -/
theorem C63_radial_partial (hs : SortsRows pd) (hw : WellFormed six N a) (h : init pd fuel a = some (.ok r))
    {p : Probe} {θ : ℝ} (hd : p.direction = "radial") (ha : p.angle = some θ) (hn : Readable a N p.node)
    (yout : List (Fin r.ndof → ℝ)) :
    r.probeResp yout p = .ok (some (yout.map fun y =>
      Real.cos θ * motion r.number_dof N y ("x", p.node) +
      Real.sin θ * motion r.number_dof N y ("y", p.node))) := by
  obtain ⟨e0, e1, -, l0, l1, -⟩ := readDof_eq hs hw h hn
  unfold probeResp
  rw [hd, if_neg (fun e => absurd e.1 (by decide)), if_neg (by decide), ha]
  simp only
  rw [column_motion yout e0 l0, column_motion yout e1 l1]
  simp only [project, zipWith_map]

/-- C63: an axial probe reports the axial motion of its node; models without axial motion skip it. -/
theorem C63_axial_partial (hs : SortsRows pd) (hw : WellFormed six N a) (h : init pd fuel a = some (.ok r))
    {p : Probe} (hd : p.direction = "axial") (hn : Readable a N p.node) (yout : List (Fin r.ndof → ℝ)) :
    (r.number_dof = 6 →
      r.probeResp yout p = .ok (some (yout.map fun y => motion r.number_dof N y ("z", p.node)))) ∧
    (r.number_dof = 4 → r.probeResp yout p = .ok none) := by
  obtain ⟨-, -, e2, -, -, l2⟩ := readDof_eq hs hw h hn
  unfold probeResp
  constructor
  · intro h6
    rw [if_neg (by simp [h6]), if_pos hd, column_motion yout (e2 h6) (l2 h6)]
  · intro h4
    rw [if_pos ⟨hd, by omega⟩]

/-- C63: the table has one entry per probe, in their order, and the given times. -/
theorem C63_table {t : List ℝ} {yout : List (Fin r.ndof → ℝ)} {probe : List Probe}
    {l : List (Option (List ℝ))} {t' : List ℝ} (h : r.data_time_response t yout probe = .ok (l, t')) :
    t' = t ∧ l.length = probe.length ∧
    ∀ (i : ℕ) (p : Probe), probe[i]? = some p → ∃ x, l[i]? = some x ∧ r.probeResp yout p = .ok x := by
  unfold data_time_response at h
  cases hm : probe.mapM (r.probeResp yout) with
  | error e => rw [hm] at h; cases h
  | ok l' =>
    rw [hm] at h
    obtain ⟨rfl, rfl⟩ := Prod.mk.inj (Except.ok.inj h)
    refine ⟨rfl, (ShapeLemmas.mapM_length hm).symm, fun i p hp => ?_⟩
    have := ShapeLemmas.mapM_get hm i
    rw [hp] at this
    cases hx : l'[i]? with
    | none => rw [hx] at this; cases this
    | some x =>
      rw [hx] at this
      exact ⟨x, rfl, Option.some.inj this⟩

/-- C63: the orbit of a node in the time response. -/
theorem C63_orbit_partial (hs : SortsRows pd) (hw : WellFormed six N a) (h : init pd fuel a = some (.ok r))
    {node : ℕ} (hn : Readable a N node) (yout : List (Fin r.ndof → ℝ)) :
    r.orbit2d yout node = .ok (yout.map fun y => motion r.number_dof N y ("x", node),
      yout.map fun y => motion r.number_dof N y ("y", node)) := by
  obtain ⟨e0, e1, -, l0, l1, -⟩ := readDof_eq hs hw h hn
  unfold orbit2d
  rw [column_motion yout e0 l0, column_motion yout e1 l1]

/-- C63 fails for a node of the shaft that a bearing is linked to: another degree of freedom is read, so that
a probe may report nothing although its node moves. -/
theorem C63_linked_false (hs : SortsRows pd) (hw : WellFormed six N a) (h : init pd fuel a = some (.ok r))
    {p : Probe} (hd : p.direction = "radial") (ha : p.angle = some 0) (hn : p.node ≤ N)
    (hl : ∃ b ∈ a.bearings, b.n_link = some p.node) :
    ∃ y : Fin r.ndof → ℝ, motion r.number_dof N y ("x", p.node) = 1 ∧ r.probeResp [y] p = .ok (some [0]) := by
  obtain ⟨hnd, hN⟩ := ndof_eq' hw h
  obtain ⟨ex, -⟩ := slot_shaft hnd hn
  have hx : slot r.number_dof N ("x", p.node) < r.ndof := by
    rw [ex, hN, size]
    rcases hnd with e | e <;> rw [e] <;> omega
  have hf := fixDof_link hs hw h hl
  obtain ⟨d, hdn⟩ : ∃ d, N + 1 = p.node + 1 + d := ⟨N - p.node, by omega⟩
  have hr : ∀ k, r.readDof p.node k = ((r.number_dof * p.node + k + (d + 1) * (r.number_dof / 2) : ℕ) : ℤ) := by
    intro k
    unfold readDof
    rw [hf]
    push_cast
    have : (N : ℤ) + 1 = p.node + 1 + d := by exact_mod_cast hdn
    have e : (p.node : ℤ) - N - 1 = -(d + 1) := by linarith
    rw [e]
    ring
  have hlt : ∀ k, k < 2 → r.number_dof * p.node + k + (d + 1) * (r.number_dof / 2) < r.ndof := by
    intro k hk
    rw [hN, size]
    rcases hnd with e | e <;> rw [e] <;> omega
  refine ⟨fun i => if (i : ℕ) = slot r.number_dof N ("x", p.node) then 1 else 0, ?_, ?_⟩
  · simp [motion, hx]
  · unfold probeResp
    rw [hd, if_neg (fun e => absurd e.1 (by decide)), if_neg (by decide), ha]
    simp only
    rw [hr 0, hr 1, column_ok _ _ (hlt 0 (by norm_num)), column_ok _ _ (hlt 1 (by norm_num))]
    simp only [project, List.map_cons, List.map_nil, List.zipWith_cons_cons, List.zipWith_nil_left, Real.cos_zero,
      Real.sin_zero, zero_mul, add_zero, one_mul]
    rw [if_neg]
    rw [ex]
    rcases hnd with e | e <;> rw [e] <;> omega

/-- Non-vacuity: a support. -/
example : ∃ r, init exPandas 10 exArgs = some (.ok r) ∧ SortsRows exPandas ∧ WellFormed false 2 exArgs ∧
    Readable exArgs 2 3 ∧ Readable exArgs 2 1 := by
  obtain ⟨r, h1, -⟩ := exRotor_exists
  refine ⟨r, h1, exPandas_sorts, exArgs_wf, Or.inr ⟨by norm_num, by norm_num [exArgs], ?_⟩,
    Or.inl ⟨by norm_num, ?_⟩⟩
  · exact ⟨.brg false (exBrg 0 (some 3) 1e6 100), by simp [exArgs], rfl⟩
  · intro b hb
    simp only [exArgs, List.mem_cons, List.not_mem_nil, or_false] at hb
    rcases hb with rfl | rfl | rfl <;> simp [BrgEl.n_link, BrgEl.base, exBrg]

/-- Two elements of the shaft, and a bearing between the nodes 0 and 2. -/
noncomputable def strutArgs : RotorArgs where
  shaft := [.list [.el (exEl none), .el (exEl none)]]
  disks := []
  bearings := [.brg false (exBrg 0 (some 2) 1e6 100)]
  pms := []
  rated_w := none

/-- Non-vacuity of `C63_linked_false`. -/
example : ∃ r, init exPandas 10 strutArgs = some (.ok r) ∧ WellFormed false 2 strutArgs ∧
    ∃ b ∈ strutArgs.bearings, b.n_link = some 2 := by
  have hw : WellFormed false 2 strutArgs :=
    { pos := by norm_num
      nodes := by
        intro k
        show k ∈ [0, 1] ↔ k < 2
        simp; omega
      len := by
        intro e he
        simp [strutArgs, shaftList, Nest.flattenAll, Nest.flatten] at he
        subst he
        norm_num [exEl, exShaft]
      shaft_six := by
        intro e he
        simp [strutArgs, shaftList, Nest.flattenAll, Nest.flatten] at he
        subst he; rfl
      disk_six := by intro e he; simp [strutArgs] at he
      brg_six := by intro e he; simp [strutArgs] at he; subst he; rfl
      disk_on := by intro e he; simp [strutArgs] at he
      brg_nodes := by simp [strutArgs]
      brg_on := by
        intro e he; simp [strutArgs] at he; subst he
        left; norm_num [BrgEl.n, BrgEl.base, exBrg]
      brg_linked := by
        intro e he hlt; simp [strutArgs] at he; subst he
        norm_num [BrgEl.n, BrgEl.base, exBrg] at hlt
      brg_order := by
        intro e he c hc hlt hl; simp [strutArgs] at he; subst he
        norm_num [BrgEl.n, BrgEl.base, exBrg] at hlt
      pm_on := by intro p hp; simp [strutArgs] at hp
      tags := by decide }
  obtain ⟨r, h1, -⟩ := accepts exPandas_sorts hw (fuel := 10) (by simp [strutArgs])
  exact ⟨r, h1, hw, .brg false (exBrg 0 (some 2) 1e6 100), by simp [strutArgs], rfl⟩

/-! ### C64: probes in the forced response -/

/-- C64: a radial probe on the shaft reports, for every frequency, the amplitude and the phase of the orbit of
its node at its angle, of displacements, velocities or accelerations as asked for. -/
theorem C64_magnitude_partial (la : Lapack) (hw : WellFormed six N a) (h : init pd fuel a = some (.ok r))
    {p : Probe} {θ : ℝ} (hd : p.direction = "radial") (ha : p.angle = some θ) (hn : p.node ≤ N)
    (resp : List (ForcedResp r.ndof)) (kind : RespKind) :
    let o := fun x : ForcedResp r.ndof => Orbit.init la p.node (position r.shaft p.node)
      (motion r.number_dof N (asked x kind) ("x", p.node)) (motion r.number_dof N (asked x kind) ("y", p.node))
    r.data_magnitude la resp kind [p] =
      .ok [some (resp.map fun x => ((o x).calculate_amplitude (.at θ)).1)] ∧
    r.data_phase la resp kind [p] =
      .ok [some (resp.map fun x => ((o x).calculate_amplitude (.at θ)).2)] := by
  intro o
  have hask : ∀ x : ForcedResp r.ndof, x.get kind = asked x kind := fun x => by cases kind <;> rfl
  have key : r.probeAmplitude la (resp.map fun x => x.get kind) p =
      .ok (some (resp.map fun x => (o x).calculate_amplitude (.at θ))) := by
    unfold probeAmplitude
    rw [if_neg (by rw [hd]; decide)]
    have : (resp.map fun x => x.get kind).mapM (r.amplitudeAt la p) =
        .ok (resp.map fun x => (o x).calculate_amplitude (.at θ)) := by
      rw [mapM_ok_iff, List.map_map, List.map_map]
      refine List.map_congr_left fun x _ => ?_
      simp only [Function.comp_apply]
      unfold amplitudeAt
      rw [nodeOrbitAt_eq la hw h hn, ha, hask]
    rw [this]
  have hm : [p].mapM (r.probeAmplitude la (resp.map fun x => x.get kind)) =
      .ok [some (resp.map fun x => (o x).calculate_amplitude (.at θ))] := by
    rw [mapM_ok_iff]
    simp [key]
  constructor
  · unfold data_magnitude
    rw [hm]
    simp
  · unfold data_phase
    rw [hm]
    simp

/-- C64: the tables have one column per probe, that of the probe alone. -/
theorem C64_columns (la : Lapack) (resp : List (ForcedResp r.ndof)) (kind : RespKind) (probe : List Probe)
    (l : List (Option (List ℝ))) :
    (r.data_magnitude la resp kind probe = .ok l → l.length = probe.length ∧
      ∀ (i : ℕ) (p : Probe), probe[i]? = some p → ∃ x, l[i]? = some x ∧ r.data_magnitude la resp kind [p] = .ok [x]) ∧
    (r.data_phase la resp kind probe = .ok l → l.length = probe.length ∧
      ∀ (i : ℕ) (p : Probe), probe[i]? = some p → ∃ x, l[i]? = some x ∧ r.data_phase la resp kind [p] = .ok [x]) := by
  have key : ∀ f : ℝ × ℝ → ℝ, ∀ L, probe.mapM (r.probeAmplitude la (resp.map fun x => x.get kind)) = .ok L →
      (L.map fun o => o.map fun a => a.map f).length = probe.length ∧
      ∀ (i : ℕ) (p : Probe), probe[i]? = some p → ∃ x y, L[i]? = some y ∧
        (L.map fun o => o.map fun a => a.map f)[i]? = some x ∧ x = y.map (fun a => a.map f) ∧
        [p].mapM (r.probeAmplitude la (resp.map fun x => x.get kind)) = .ok [y] := by
    intro f L hL
    refine ⟨by rw [List.length_map, ← ShapeLemmas.mapM_length hL], fun i p hp => ?_⟩
    have := ShapeLemmas.mapM_get hL i
    rw [hp] at this
    cases hy : L[i]? with
    | none => rw [hy] at this; cases this
    | some y =>
      rw [hy] at this
      refine ⟨_, y, rfl, by rw [List.getElem?_map, hy]; rfl, rfl, ?_⟩
      rw [mapM_ok_iff]
      simp [Option.some.inj this]
  constructor
  · intro h
    unfold data_magnitude at h
    cases hL : probe.mapM (r.probeAmplitude la (resp.map fun x => x.get kind)) with
    | error e => rw [hL] at h; cases h
    | ok L =>
      rw [hL] at h
      obtain rfl := Except.ok.inj h
      obtain ⟨h1, h2⟩ := key Prod.fst L hL
      refine ⟨h1, fun i p hp => ?_⟩
      obtain ⟨x, y, -, hx, rfl, hm⟩ := h2 i p hp
      refine ⟨_, hx, ?_⟩
      unfold data_magnitude
      rw [hm]
      rfl
  · intro h
    unfold data_phase at h
    cases hL : probe.mapM (r.probeAmplitude la (resp.map fun x => x.get kind)) with
    | error e => rw [hL] at h; cases h
    | ok L =>
      rw [hL] at h
      obtain rfl := Except.ok.inj h
      obtain ⟨h1, h2⟩ := key Prod.snd L hL
      refine ⟨h1, fun i p hp => ?_⟩
      obtain ⟨x, y, -, hx, rfl, hm⟩ := h2 i p hp
      refine ⟨_, hx, ?_⟩
      unfold data_phase
      rw [hm]
      rfl

/-- C64: axial probes are skipped. -/
theorem C64_axial (la : Lapack) {p : Probe} (hd : p.direction = "axial") (resp : List (ForcedResp r.ndof))
    (kind : RespKind) :
    r.data_magnitude la resp kind [p] = .ok [none] ∧ r.data_phase la resp kind [p] = .ok [none] := by
  have hm : [p].mapM (r.probeAmplitude la (resp.map fun x => x.get kind)) = .ok [none] := by
    rw [mapM_ok_iff]
    simp [probeAmplitude, hd]
  constructor
  · unfold data_magnitude
    rw [hm]
    rfl
  · unfold data_phase
    rw [hm]
    rfl

/-- C64 fails for supports: a radial probe at a node outside the shaft cannot be read, although the time
response can (`C63_radial_partial`). -/
theorem C64_support_false (la : Lapack) (hw : WellFormed six N a) (h : init pd fuel a = some (.ok r))
    {p : Probe} (hd : p.direction = "radial") (hn : N < p.node)
    (x : ForcedResp r.ndof) (resp : List (ForcedResp r.ndof)) (kind : RespKind) :
    (∃ e, r.data_magnitude la (x :: resp) kind [p] = .error e) ∧
    ∃ e, r.data_phase la (x :: resp) kind [p] = .error e := by
  have h1 : ∃ e, r.nodeOrbitAt la (x.get kind) p.node = .error e := by
    have hp : r.nodes_pos[p.node]? = none := by
      rw [List.getElem?_eq_none_iff, pos_length hw h]
      omega
    unfold nodeOrbitAt
    split
    · rw [hp]
      exact ⟨_, rfl⟩
    · exact ⟨_, rfl⟩
  obtain ⟨e, he⟩ := h1
  have h2 : r.probeAmplitude la ((x :: resp).map fun x => x.get kind) p = .error e := by
    unfold probeAmplitude
    have ha : r.amplitudeAt la p (x.get kind) = .error e := by
      unfold amplitudeAt
      rw [he]
    rw [if_neg (by rw [hd]; decide), List.map_cons, List.mapM_cons, ha]
    rfl
  have hm : [p].mapM (r.probeAmplitude la ((x :: resp).map fun x => x.get kind)) = .error e := by
    rw [List.mapM_cons, h2]
    rfl
  refine ⟨⟨e, ?_⟩, ⟨e, ?_⟩⟩
  · unfold data_magnitude
    rw [hm]
  · unfold data_phase
    rw [hm]

/-! ### C65: axes of the forced response -/

/-- C65: asked for the major or minor axis, the response of a node is the largest or smallest distance it
reaches, for every realisation and frequency. -/
theorem C65_axes (x y : ℂ) :
    IsGreatest (Set.range (radius x y)) (axisRow x y .major).amplitude ∧
    IsLeast (Set.range (radius x y)) (axisRow x y .minor).amplitude := by
  refine ⟨⟨⟨_, (axisRow_eq x y .major).2.2.1.symm⟩, ?_⟩, ⟨⟨_, (axisRow_eq x y .minor).2.2.1.symm⟩, ?_⟩⟩
  · rintro _ ⟨τ, rfl⟩
    rw [axis_major]
    exact radius_le x y τ
  · rintro _ ⟨τ, rfl⟩
    rw [axis_minor]
    exact le_radius x y τ

/-- C65: these are the axes of the orbit. -/
theorem C65_orbit {la : Lapack} (hla : LapackOk la) (node : ℕ) (pos : ℝ) (x y : ℂ) :
    (axisRow x y .major).amplitude = (Orbit.init la node pos x y).major_axis ∧
    (axisRow x y .minor).amplitude = (Orbit.init la node pos x y).minor_axis :=
  ⟨(C65_axes x y).1.unique (C56_axes hla node pos x y).1, (C65_axes x y).2.unique (C56_axes hla node pos x y).2⟩

/-- C65: the amplitude for an angle is the distance of the node at this phase of the vibration, and the phase
is the direction in which it is then seen. -/
theorem C65_angle (x y : ℂ) (θ : ℝ) :
    (axisRow x y (.at θ)).amplitude = radius x y θ ∧
    (axisRow x y (.at θ)).phase = Complex.arg ⟨coord x θ, coord y θ⟩ ∧
    (axisRow x y (.at θ)).axis_angle = θ :=
  ⟨(axisRow_eq x y (.at θ)).2.2.1, (axisRow_eq x y (.at θ)).2.2.2, rfl⟩

/-- C65 is false for probes: a node that only moves in `y` is reported to move with amplitude one at the angle
zero, where a probe sees nothing. -/
theorem C65_probe_false : (axisRow 0 1 (.at 0)).amplitude = 1 ∧ ∀ τ, probeSignal 0 1 0 τ = 0 := by
  refine ⟨?_, fun τ => ?_⟩
  · rw [(C65_angle 0 1 0).1]
    simp [radius, coord]
  · simp [probeSignal, coord]

/-- C65: the node is found as for the probes of the time response. -/
theorem C65_node_partial (hs : SortsRows pd) (hw : WellFormed six N a) (h : init pd fuel a = some (.ok r))
    {node : ℕ} (hn : Readable a N node) (resp : List (Fin r.ndof → ℂ)) (angle : Orbit.Angle) :
    r.majorAxisPerNode resp node angle = .ok (resp.map fun v =>
      axisRow (motion r.number_dof N v ("x", node)) (motion r.number_dof N v ("y", node)) angle) := by
  obtain ⟨e0, e1, -, l0, l1, -⟩ := readDof_eq hs hw h hn
  unfold majorAxisPerNode
  rw [column_motion resp e0 l0, column_motion resp e1 l1]
  simp only [zipWith_map]

/-! ### C66: bending moments -/

/-- C66: when a shaft is bent to lines of degree three, the moment that is reported at a node is the curvature
times the stiffnesses of the elements on both sides of it, added. -/
theorem C66_moment (hw : WellFormed six N a) (h : init pd fuel a = some (.ok r))
    (hL : ∀ e ∈ r.shaft, ∀ f ∈ r.shaft, e.s.n = f.s.n → e.s.L = f.s.L)
    {v : Fin r.ndof → ℂ} {X Y : ℂ[X]} (hX : X.natDegree ≤ 3) (hY : Y.natDegree ≤ 3)
    (hv : Sampled r.number_dof (List.ofFn v) r.nodes_pos X Y) :
    ∃ Mx My, r.bendingMoment v = .ok (Mx, My) ∧ Mx.length = N + 1 ∧ My.length = N + 1 ∧
      ∀ (n : ℕ) (z : ℝ), r.nodes_pos[n]? = some z →
        Mx[n]? = some (-(stiffness (beginAt r n) + stiffness (endAt r n)) *
          (X.derivative.derivative.eval (z : ℂ)).re) ∧
        My[n]? = some (-(stiffness (beginAt r n) + stiffness (endAt r n)) *
          (Y.derivative.derivative.eval (z : ℂ)).re) := by
  have hf := full_of_wf hw h
  have hlen := pos_length hw h
  obtain ⟨M, hM, l1, l2, hi⟩ := moment_fold (ndof_eq' hw h).1 hX hY hv r.shaft (fun e he => by
    have hlt : nodeOf e < N := (hf.nodes _).1 ⟨e, he, rfl⟩
    have hn : e.s.n = some (nodeOf e) := by
      rw [(init_ok h).shaft] at he
      exact parts_sh_n he
    have hz : r.nodes_pos[nodeOf e]? = some (r.nodes_pos[nodeOf e]'(by omega)) := List.getElem?_eq_getElem _
    have hz' : r.nodes_pos[nodeOf e + 1]? = some (r.nodes_pos[nodeOf e + 1]'(by omega)) :=
      List.getElem?_eq_getElem _
    exact ⟨(hf.len e he).ne', _, hz, by rw [hz', ← layer_step hw h hL e he _ _ _ hn hz hz']⟩)
    (r.nodes_pos.map fun _ => 0, r.nodes_pos.map fun _ => 0) (by simp) (by simp)
  refine ⟨M.1, M.2, hM, l1.trans hlen, l2.trans hlen, fun n z hz => ?_⟩
  obtain ⟨h1, h2⟩ := hi n z hz
  have h0 : (r.nodes_pos.map fun _ => (0 : ℝ))[n]? = some 0 := by rw [List.getElem?_map, hz]; rfl
  rw [h1, h2, around_eq h, h0]
  simp only [Option.map_some, Option.some.injEq]
  constructor <;> ring

/-- C66: so at the ends of the shaft it is the bending moment there, `-E I` times the curvature. -/
theorem C66_ends_partial (hw : WellFormed six N a) (h : init pd fuel a = some (.ok r))
    (hL : ∀ e ∈ r.shaft, ∀ f ∈ r.shaft, e.s.n = f.s.n → e.s.L = f.s.L)
    {v : Fin r.ndof → ℂ} {X Y : ℂ[X]} (hX : X.natDegree ≤ 3) (hY : Y.natDegree ≤ 3)
    (hv : Sampled r.number_dof (List.ofFn v) r.nodes_pos X Y) :
    ∃ (Mx My : List ℝ) (z z' : ℝ), r.bendingMoment v = .ok (Mx, My) ∧ r.nodes_pos[0]? = some z ∧ r.nodes_pos[N]? = some z' ∧
      Mx[0]? = some (-stiffness (beginAt r 0) * (X.derivative.derivative.eval (z : ℂ)).re) ∧
      My[0]? = some (-stiffness (beginAt r 0) * (Y.derivative.derivative.eval (z : ℂ)).re) ∧
      Mx[N]? = some (-stiffness (endAt r N) * (X.derivative.derivative.eval (z' : ℂ)).re) ∧
      My[N]? = some (-stiffness (endAt r N) * (Y.derivative.derivative.eval (z' : ℂ)).re) := by
  obtain ⟨Mx, My, hM, -, -, hi⟩ := C66_moment hw h hL hX hY hv
  have hlen := pos_length hw h
  have hz : r.nodes_pos[0]? = some (r.nodes_pos[0]'(by omega)) := List.getElem?_eq_getElem _
  have hz' : r.nodes_pos[N]? = some (r.nodes_pos[N]'(by omega)) := List.getElem?_eq_getElem _
  obtain ⟨h1, h2⟩ := hi _ _ hz
  obtain ⟨h3, h4⟩ := hi _ _ hz'
  have e1 : endAt r 0 = [] := by
    unfold endAt
    rw [List.filter_eq_nil_iff]
    intro e _
    cases e.s.n <;> simp
  have e2 : beginAt r N = [] := by
    unfold beginAt
    rw [List.filter_eq_nil_iff]
    intro e he hc
    have : nodeOf e = N := by
      have : e.s.n = some N := by simpa using hc
      simp [nodeOf, this]
    have := ((full_of_wf hw h).nodes _).1 ⟨e, he, rfl⟩
    omega
  have e0 : stiffness [] = 0 := by simp [stiffness]
  rw [e1, e0, add_zero] at h1 h2
  rw [e2, e0, zero_add] at h3 h4
  exact ⟨Mx, My, _, _, hM, hz, hz', h1, h2, h3, h4⟩

/-- C66 is false between the ends: where the stiffness on both sides is the same, the reported moment is twice
the bending moment. -/
theorem C66_interior_false (hw : WellFormed six N a) (h : init pd fuel a = some (.ok r))
    (hL : ∀ e ∈ r.shaft, ∀ f ∈ r.shaft, e.s.n = f.s.n → e.s.L = f.s.L)
    {v : Fin r.ndof → ℂ} {X Y : ℂ[X]} (hX : X.natDegree ≤ 3) (hY : Y.natDegree ≤ 3)
    (hv : Sampled r.number_dof (List.ofFn v) r.nodes_pos X Y) {n : ℕ} {z : ℝ} (hz : r.nodes_pos[n]? = some z)
    (he : stiffness (beginAt r n) = stiffness (endAt r n)) :
    ∃ Mx My, r.bendingMoment v = .ok (Mx, My) ∧
      Mx[n]? = some (2 * (-stiffness (endAt r n) * (X.derivative.derivative.eval (z : ℂ)).re)) ∧
      My[n]? = some (2 * (-stiffness (endAt r n) * (Y.derivative.derivative.eval (z : ℂ)).re)) := by
  obtain ⟨Mx, My, hM, -, -, hi⟩ := C66_moment hw h hL hX hY hv
  obtain ⟨h1, h2⟩ := hi _ _ hz
  refine ⟨Mx, My, hM, ?_, ?_⟩
  · rw [h1, he]
    congr 1
    ring
  · rw [h2, he]
    congr 1
    ring

/-- Non-vacuity of C66: a rotor that is bent to a cubic, with equal elements around its node 1. -/
example : ∃ r, init exPandas 10 exArgs = some (.ok r) ∧ WellFormed false 2 exArgs ∧
    (∀ e ∈ r.shaft, ∀ f ∈ r.shaft, e.s.n = f.s.n → e.s.L = f.s.L) ∧
    (∃ v : Fin r.ndof → ℂ, Sampled r.number_dof (List.ofFn v) r.nodes_pos (Polynomial.X ^ 3) (Polynomial.X ^ 2)) ∧
    stiffness (beginAt r 1) = stiffness (endAt r 1) := by
  obtain ⟨r, h1, -⟩ := exRotor_exists
  have hs : r.shaft = [⟨false, { exShaft with n := some 0, tag := defTag "ShaftElement " 0 exShaft.tag }⟩,
      ⟨false, { exShaft with n := some 1, tag := defTag "ShaftElement " 1 exShaft.tag }⟩] := by
    rw [(init_ok h1).shaft]
    show sortShaft _ = _
    unfold sortShaft
    exact List.mergeSort_of_pairwise (by
      simp [nodeOf, exArgs, numberShaft, Nest.flattenAll, Nest.flatten, exEl, exShaft])
  refine ⟨r, h1, exArgs_wf, ?_, bent exArgs_wf h1 _ _, ?_⟩
  · rw [hs]
    intro e he f hf _
    simp only [List.mem_cons, List.not_mem_nil, or_false] at he hf
    rcases he with rfl | rfl <;> rcases hf with rfl | rfl <;> rfl
  · unfold beginAt endAt
    rw [hs]
    simp [stiffness]
    left
    rfl

end Ross.Props
