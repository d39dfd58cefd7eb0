import Verif.Lemmas.StaticDiagram

/-! # The results of the static analysis -/

namespace Ross.StaticLemmas

open Ross Ross.Spec Ross.BearingLemmas Ross.Rotor Ross.RotorLemmas Ross.ShaftLemmas Ross.Props
  Ross.Shaft6Lemmas Ross.AssemblyLemmas Matrix

variable {pd : Pandas} {a : RotorArgs} {r : Rotor} {fuel : ℕ}

/-- What a successful run computes. -/
structure Core (r : Rotor) (st : StaticResults) (u R F : ℕ → ℝ) (ew : List (ℝ × ℝ)) (nf : List ℝ) :
    Prop where
  laws : Laws r st u R F
  len : r.nodes_pos.length = shaftEnd r + 1
  pos : 0 < shaftEnd r
  fill : ∀ k < shaftEnd r, ∃ e ∈ r.shaft, nodeOf e = k
  nodes_pos : r.nodes_pos = (List.range (shaftEnd r + 1)).map (position r.shaft)
  disp_len : st.displacement_y.length = shaftEnd r + 1
  disp : ∀ i < shaftEnd r + 1, st.displacement_y.getD i 0 = u (4 * i + 1)
  keys : st.bearing_forces_nodal.keys.Nodup
  on : ∀ b ∈ carrying r, b.n < shaftEnd r + 1
  get : ∀ i, st.bearing_forces_nodal.get? i = if ∃ b ∈ carrying r, b.n = i then some (R i) else none
  ew_len : ew.length = shaftEnd r
  ew_1 : ∀ j < shaftEnd r, (ew.getD j (0, 0)).1 = 0
  ew_2 : ∀ j < shaftEnd r, (ew.getD j (0, 0)).2 = if j + 1 = shaftEnd r then 0 else
    gAcc * (r.shaft.map fun e => if nodeOf e = j then e.s.m else 0).sum
  nf_len : nf.length = shaftEnd r + 1
  nf_eq : ∀ j < shaftEnd r + 1, nf.getD j 0 = F j -
    gAcc * (r.shaft.map fun e => (if nodeOf e + 1 = j then e.s.m * (e.s.beam_cg / e.s.L) else 0) +
      if nodeOf e = j then e.s.m * (1 - e.s.beam_cg / e.s.L) else 0).sum
  axis_len : st.vx_axis.length = shaftEnd r
  axis : ∀ j < shaftEnd r, st.vx_axis.getD j (0, 0) =
    (position r.shaft j, position r.shaft (j + 1))
  vx : st.vx = (shear (elmForces ew nf)).map fun v => (-v.1, -v.2)
  mx : st.mx = momentFrom 0
    (List.zipWith (fun v x => 0.5 * (v.1 + v.2) * (x.2 - x.1)) st.vx st.vx_axis)
  w_shaft : st.w_shaft = (r.shaft.map fun e => e.s.m).sum * (-gAcc)
  disk_nodal : st.disk_forces_nodal = r.disks.foldl (fun d e => Dict.set d e.d.n (-e.d.m * gAcc)) []
  disk_tag : st.disk_forces_tag = r.disks.foldl (fun d e => Dict.set d e.d.tag (-e.d.m * gAcc)) []

theorem core (h : init pd fuel a = some (.ok r)) {pd' : Pandas} {sp : Scipy} {fuel' : ℕ}
    {st : StaticResults} (hr : r.run_static pd' sp fuel' = some (.ok st)) :
    ∃ u R F ew nf, Core r st u R F ew nf := by
  obtain ⟨a₀, a₁, x, x1, hi, hi1, hx, hx1, hs, -⟩ := run_ok h hr
  obtain ⟨s⟩ := steps hs
  obtain ⟨hl, lr, ld, lf⟩ := laws hi hi1 hx hx1 s
  obtain ⟨c1, c2, c3⟩ := contiguous h s.hloads (by simp) (by simp) (by simp)
  obtain ⟨m1, m2, m3, -, m5, m6, m7⟩ := loads_fold r.shaft s.hloads (by simp) (by simp)
  simp only [List.length_replicate] at m1 m2 m3 m6 m7
  obtain ⟨b1, b2, b3⟩ := bn_fold x.bearings s.hbn (by simp [Dict.keys])
  have hpos : 0 < shaftEnd r := by
    have hlast : shaftEnd r = lastNode r.shaft + 1 := by rw [shaftEnd_last h]; rfl
    omega
  have hn1 : r.nodes_pos.length - 1 = shaftEnd r := by omega
  rw [hn1] at m1 m2 m3 m6 m7
  have hnodes : ∀ i, (∃ b ∈ x.bearings, b.n = i) ↔ ∃ b ∈ carrying r, b.n = i := by
    intro i
    have := (aux_nodes hx).mem_iff (a := i)
    rw [List.mem_map, List.mem_map] at this
    exact this
  obtain ⟨n1, n2, n3⟩ := npSub_ok s.hnf
  have htake : ((red r.number_dof ⟨x1.ndof, s.K1⟩).mulVec s.disp).take (4 * r.nodes_pos.length) =
      (red r.number_dof ⟨x1.ndof, s.K1⟩).mulVec s.disp :=
    List.take_of_length_le (by rw [lf, c1])
  rw [htake] at n1 n2 n3
  rw [from1by4_length lf] at n2
  refine ⟨s.u, fun i => s.reaction.getD i 0,
    fun i => ((red r.number_dof ⟨x1.ndof, s.K1⟩).mulVec s.disp).getD (4 * i + 1) 0,
    s.loads.elm_weight.modify (r.nodes_pos.length - 1 - 1) fun w => (w.1, 0), s.nf, ?_⟩
  have hst := s.hst
  dsimp only at hst
  have eD := congrArg StaticResults.displacement_y hst
  have eB := congrArg StaticResults.bearing_forces_nodal hst
  have eV := congrArg StaticResults.vx hst
  have eM := congrArg StaticResults.mx hst
  have eA := congrArg StaticResults.vx_axis hst
  have eW := congrArg StaticResults.w_shaft hst
  have eN := congrArg StaticResults.disk_forces_nodal hst
  have eT := congrArg StaticResults.disk_forces_tag hst
  dsimp only at eD eB eV eM eA eW eN eT
  constructor
  · exact hl
  · exact c1
  · exact hpos
  · exact c2
  · exact c3
  · rw [eD]; exact from1by4_length ld
  · intro i hi'; rw [eD]; exact from1by4_getD ld hi'
  · rw [eB]; exact b1
  · intro b hb
    obtain ⟨b', hb', hn⟩ := (hnodes b.n).2 ⟨b, hb, rfl⟩
    rw [← hn, ← lr]; exact b2 b' hb'
  · intro i
    rw [eB, b3 i]
    by_cases hc : ∃ b ∈ carrying r, b.n = i
    · rw [if_pos hc, if_pos ((hnodes i).2 hc)]
    · rw [if_neg hc, if_neg fun h' => hc ((hnodes i).1 h')]; rfl
  · rw [List.length_modify, m2]
  · intro j hj
    rw [List.getD_eq_getElem?_getD, List.getElem?_modify,
      List.getElem?_eq_getElem (by rw [m2]; exact hj)]
    have := (m6 j hj).1
    rw [List.getD_eq_getElem?_getD, List.getElem?_eq_getElem (by rw [m2]; exact hj)] at this
    simp [List.getElem?_replicate, hj] at this
    by_cases hj' : r.nodes_pos.length - 1 - 1 = j <;> simp [hj', this]
  · intro j hj
    rw [List.getD_eq_getElem?_getD, List.getElem?_modify,
      List.getElem?_eq_getElem (by rw [m2]; exact hj)]
    have := (m6 j hj).2
    rw [List.getD_eq_getElem?_getD, List.getElem?_eq_getElem (by rw [m2]; exact hj)] at this
    simp [List.getElem?_replicate, hj] at this
    by_cases hj' : j + 1 = shaftEnd r
    · have : r.nodes_pos.length - 1 - 1 = j := by omega
      simp [hj', this]
    · have h' : ¬ r.nodes_pos.length - 1 - 1 = j := by omega
      simp [hj', h', this]
  · exact n2
  · intro j hj
    rw [n3 j, from1by4_getD lf hj, m7 j hj]
    simp [List.getElem?_replicate, Nat.lt_succ_iff.1 hj]
  · rw [eA]; exact m1
  · intro j hj
    rw [eA, m5 j, if_pos (c2 j hj), c3]
    simp [List.getD_eq_getElem?_getD, List.getElem?_range, hj, Nat.lt_succ_of_lt hj]
  · exact eV
  · rw [eM, eV, eA]
  · exact eW
  · rw [eN, hx.disks]
  · rw [eT, hx.disks]

end Ross.StaticLemmas
