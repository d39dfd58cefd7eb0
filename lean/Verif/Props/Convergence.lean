import Verif.Lemmas.Convergence
import Verif.Props.StaticRuns
import Verif.Props.Synchronous

/-! # C29: mesh refinement preserves the rotor -/

namespace Ross.Props

open Ross Ross.Spec Ross.RotorLemmas Ross.BearingLemmas Ross.ConvLemmas Ross.AssemblyLemmas
  Ross.StaticLemmas Ross.ShaftLemmas Rotor

variable {pd pd' : Pandas} {la : Lapack} {fuel fuel' k : ℕ} {a b : RotorArgs} {r x : Rotor}

/-- **C29** (every rotor) the refined rotor has `k` elements for each element of the rotor, one
after the other; those of element `i` have `1 / k` of its length, its material and options, no axial
force, torque or damping, and the shear coefficient of Cowper. -/
theorem C29_tiles (hr : r.refine k = .ok b) (hx : init pd fuel b = some (.ok x)) :
    x.shaft.length = k * r.shaft.length ∧ SingleLayer x.shaft ∧
    ∀ i (hi : i < r.shaft.length) j (_ : j < k), ∃ hp : k * i + j < x.shaft.length,
      x.shaft[k * i + j].six = false ∧ x.shaft[k * i + j].s.L = r.shaft[i].s.L / k ∧
      x.shaft[k * i + j].s.material = r.shaft[i].s.material ∧
      x.shaft[k * i + j].s.shear_effects = r.shaft[i].s.shear_effects ∧
      x.shaft[k * i + j].s.rotary_inertia = r.shaft[i].s.rotary_inertia ∧
      x.shaft[k * i + j].s.gyroscopic = r.shaft[i].s.gyroscopic ∧ Plain x.shaft[k * i + j].s := by
  obtain ⟨hlen, hch, hp⟩ := refined_shaft hr hx
  refine ⟨hlen, hch, fun i hi j hj => ?_⟩
  have hb : k * i + j < x.shaft.length := by
    rw [hlen]
    have : k * (i + 1) ≤ k * r.shaft.length := Nat.mul_le_mul_left _ hi
    rw [Nat.mul_succ] at this; omega
  obtain ⟨y, hy, he⟩ := hp i hi j hj hb
  obtain ⟨h1, -, -, -, -, h6, -, h8, h9, h10, h11, h12, h13, -, h15, h16⟩ := init_attrs hy
  refine ⟨hb, ?_⟩
  rw [he]
  exact ⟨rfl, h1, Option.some.inj h6, h10, h11, h12, h8, h9, h15, h16, h13⟩

/-- **C29** (cylindrical elements) the elements of the refined rotor have the section of the element
they come from. -/
theorem C29_sections_partial (hk : k ≠ 0) (hr : r.refine k = .ok b)
    (hx : init pd fuel b = some (.ok x)) (i : ℕ) (hi : i < r.shaft.length)
    (hc : Cylinder r.shaft[i]) (j : ℕ) (hj : j < k) :
    ∃ hp : k * i + j < x.shaft.length, Part k r.shaft[i].s x.shaft[k * i + j].s := by
  obtain ⟨hlen, -, hp⟩ := refined_shaft hr hx
  obtain ⟨-, -, ht⟩ := C29_tiles hr hx
  obtain ⟨hb, -, t1, t2, t3, t4, t5, -⟩ := ht i hi j hj
  obtain ⟨y, hy, he⟩ := hp i hi j hj hb
  rw [endsAt_cyl hk hc.1 hc.2] at hy
  obtain ⟨-, h2, h3, h4, h5, -⟩ := init_attrs hy
  refine ⟨hb, t1, ?_, ?_, ?_, ?_, t2, t3, t4, t5⟩ <;> rw [he] <;> assumption

/-- **C29** (shafts without layers) node `k i + j` of the refined rotor lies at the fraction `j / k` of
element `i`; in particular node `k i` is where node `i` was. -/
theorem C29_positions_partial (hk : k ≠ 0) (hl : SingleLayer r.shaft) (hr : r.refine k = .ok b)
    (hx : init pd fuel b = some (.ok x)) :
    (∀ i ≤ r.shaft.length, position x.shaft (k * i) = position r.shaft i) ∧
    ∀ i (_ : i < r.shaft.length) j, j ≤ k → position x.shaft (k * i + j) =
      position r.shaft i + j / k * (position r.shaft (i + 1) - position r.shaft i) := by
  refine ⟨fun i hi => ?_, fun i hi j hj => ?_⟩
  · rw [(refined_position hr hx hk i hi).1, position_chain hl]
  · rw [(refined_position hr hx hk i hi.le).2 j hj hi, chain_succ hl hi, position_chain hl i]
    ring

theorem full_of_single {sh : List ShaftEl} (hl : SingleLayer sh) (hL : ∀ e ∈ sh, 0 < e.s.L)
    (hne : sh ≠ []) : Full sh sh.length := by
  have hget : ∀ i (hi : i < sh.length), nodeOf sh[i] = i := by
    intro i hi
    have := congrArg (fun l => l[i]?) hl
    simp only [List.getElem?_map, List.getElem?_eq_getElem hi, List.getElem?_range hi,
      Option.map_some, Option.some.injEq] at this
    exact this
  refine ⟨List.length_pos_iff.2 hne, ?_, fun j => ⟨?_, fun hj => ⟨sh[j], List.getElem_mem _, hget j hj⟩⟩, hL⟩
  · rw [List.pairwise_iff_getElem]
    intro i j hi hj hij
    rw [hget i hi, hget j hj]; omega
  · rintro ⟨e, he, rfl⟩
    obtain ⟨i, hi, rfl⟩ := List.getElem_of_mem he
    rw [hget i hi]; exact hi

/-- **C29** (shafts without layers) the reported node positions: those of the rotor are kept, and the
length of the rotor too. -/
theorem C29_nodes_partial (h : init pd' fuel' a = some (.ok r)) (hk : k ≠ 0) (hl : SingleLayer r.shaft)
    (hL : ∀ e ∈ r.shaft, 0 < e.s.L) (hne : r.shaft ≠ []) (hr : r.refine k = .ok b)
    (hx : init pd fuel b = some (.ok x)) :
    x.nodes_pos.length = k * r.shaft.length + 1 ∧ r.nodes_pos.length = r.shaft.length + 1 ∧
    (∀ i ≤ r.shaft.length, x.nodes_pos[k * i]? = r.nodes_pos[i]?) ∧ x.L = r.L := by
  obtain ⟨hlen, hs, hp⟩ := C29_tiles hr hx
  have hf := full_of_single hl hL hne
  have hlp : 0 < r.shaft.length := List.length_pos_iff.2 hne
  have hfx : Full x.shaft (k * r.shaft.length) := by
    rw [← hlen]
    refine full_of_single hs (fun e he => ?_) fun h0 => ?_
    · obtain ⟨p, hp', rfl⟩ := List.getElem_of_mem he
      have h1 : k * (p / k) + p % k = p := Nat.div_add_mod p k
      have hi : p / k < r.shaft.length := Nat.div_lt_of_lt_mul (by rwa [hlen] at hp')
      obtain ⟨hb, -, h2, -⟩ := hp (p / k) hi (p % k) (Nat.mod_lt _ (Nat.pos_of_ne_zero hk))
      simp only [h1] at h2
      rw [h2]
      exact div_pos (hL _ (List.getElem_mem _)) (by exact_mod_cast Nat.pos_of_ne_zero hk)
    · rw [h0] at hlen
      have := Nat.mul_pos (Nat.pos_of_ne_zero hk) hlp
      rw [List.length_nil] at hlen; omega
  have e1 : x.nodes_pos = (List.range (k * r.shaft.length + 1)).map (position x.shaft) := by
    rw [(init_ok hx).pos, hfx.nodesPos]
  have e2 : r.nodes_pos = (List.range (r.shaft.length + 1)).map (position r.shaft) := by
    rw [(init_ok h).pos, hf.nodesPos]
  have hP := (C29_positions_partial hk hl hr hx).1
  refine ⟨by rw [e1]; simp, by rw [e2]; simp, fun i hi => ?_, ?_⟩
  · have := Nat.mul_le_mul_left k hi
    rw [e1, e2, List.getElem?_map, List.getElem?_map, List.getElem?_range (by omega),
      List.getElem?_range (by omega), Option.map_some, Option.map_some, hP i hi]
  · rw [(init_ok hx).L, (init_ok h).L, e1, e2]
    simp only [List.range_succ, List.map_append, List.map_cons, List.map_nil, List.getLast?_concat,
      Option.getD_some]
    exact hP _ le_rfl

/-- **C29** (every rotor) the disks are those of the rotor, at `k` times their node. -/
theorem C29_disks (h : init pd' fuel' a = some (.ok r)) (hr : r.refine k = .ok b)
    (hx : init pd fuel b = some (.ok x)) :
    List.Forall₂ (fun e y => MovedDisk (k * e.d.n) e y) r.disks x.disks := by
  rw [refined_disks h hr hx, List.forall₂_map_right_iff]
  exact List.forall₂_same.2 fun e _ => scaleDisk_moved k e

/-- **C29** (every rotor) the bearings and seals are those of the rotor, in the same order, with the
same coefficients, at `k` times their node. -/
theorem C29_bearings (h : init pd' fuel' a = some (.ok r)) (hr : r.refine k = .ok b)
    (hx : init pd fuel b = some (.ok x)) :
    List.Forall₂ (fun c y => MovedBrg (k * c.n) c y) r.bearings x.bearings := by
  rw [refined_bearings h hr hx, List.forall₂_map_right_iff]
  exact List.forall₂_same.2 fun e _ => scaleBrg_moved k e

/-- **C29** (4-dof rotors with cylindrical elements, without supports) the refined rotor can
be built for every `k`. -/
theorem C29_accepts_partial (hpd : SortsRows pd) (h : init pd' fuel' a = some (.ok r))
    (h4 : r.number_dof = 4) (hne : r.shaft ≠ [])
    (hp : ∀ e ∈ r.shaft, e.s.beam.Physical) (hc : ∀ e ∈ r.shaft, Cylinder e)
    (hd : ∀ e ∈ r.disks, e.d.n ≤ r.shaft.length) (hb : ∀ b ∈ r.bearings, b.n ≤ r.shaft.length)
    (hn : (r.bearings.map BrgEl.n).Nodup) (ht : ShaftTagsFree r) (hk : k ≠ 0)
    (hf : r.bearings.length + 2 ≤ fuel) :
    ∃ b x, r.refine k = .ok b ∧ init pd fuel b = some (.ok x) := by
  obtain ⟨b, hr⟩ := refine_ok hp hc hk
  have hw := refine_wf h h4 (fun e he => (hp e he).L_pos) hd hb hn ht hne hk hr
  obtain ⟨L, -, rfl⟩ := refine_iff.1 hr
  obtain ⟨x, hx, -⟩ := accepts hpd hw (fuel := fuel) (by simpa using hf)
  exact ⟨_, x, hr, hx⟩

theorem scaleBrg_mats (k : ℕ) (b : BrgEl) (ω : ℝ) :
    (Elm.brg (scaleBrg k b)).M ω = (Elm.brg b).M ω ∧ (Elm.brg (scaleBrg k b)).K ω = (Elm.brg b).K ω ∧
      (Elm.brg (scaleBrg k b)).C ω = (Elm.brg b).C ω ∧ (Elm.brg (scaleBrg k b)).G = (Elm.brg b).G := by
  cases b <;> exact ⟨rfl, rfl, rfl, rfl⟩

theorem scaleBrg_passive (k : ℕ) {b : BrgEl} {ω : ℝ} (h : PassiveBrg ω b) :
    PassiveBrg ω (scaleBrg k b) := by
  cases b <;> exact ⟨h.1, h.2, h.3, h.4⟩

theorem state_exists {N : ℕ} (hx : init pd fuel b = some (.ok x)) (h4 : x.number_dof = 4)
    (hfull : Full x.shaft N) (hpm : x.pms = []) (hpass : Passive x 0)
    (hs6 : ∀ e ∈ x.shaft, e.six = false) (hd : ∀ e ∈ x.disks, e.d.n ≤ N)
    (hb : ∀ b ∈ x.bearings, b.n ≤ N ∧ b.n_link = none ∧ (∃ E, (Elm.brg b).M 0 = .ok E) ∧
      (∃ E, (Elm.brg b).K 0 = .ok E) ∧ ∃ E, (Elm.brg b).C 0 = .ok E) : ∃ A, x.A 0 = .ok A := by
  have hxb := init_ok hx
  have hend : shaftEnd x = N := by rw [shaftEnd_eq hx, lastShaftNode_full hfull]
  have hfits : ∀ e ∈ x.elements, Fits x.number_dof e := by
    intro e he
    rcases (mem_elements hxb e).1 he with ⟨s, hs, h⟩ | ⟨s, hs, h⟩ | ⟨s, hs, h⟩ | ⟨p, hp, h⟩
    · rw [h]; trivial
    · rw [h]; trivial
    · rw [h]; trivial
    · rw [hpm] at hp; cases hp
  obtain ⟨A, hA⟩ := C47_state (Ω := 0) hx hfits (AssemblyLemmas.Passive.inertial hpass) fun e he => by
    unfold InRange
    rw [hend, hpm, h4]
    rcases (mem_elements hxb e).1 he with ⟨s, hs, rfl⟩ | ⟨s, hs, rfl⟩ | ⟨s, hs, rfl⟩ | ⟨p, hp, h⟩
    · have h6 := hs6 s hs
      obtain ⟨n, hn, hle⟩ : ∃ n, s.s.n = some n ∧ n < N :=
        ⟨_, (shaft_given hx hs).1, (hfull.nodes _).1 ⟨s, hs, rfl⟩⟩
      obtain ⟨six, s⟩ := s
      simp only at h6 hn
      subst h6
      refine ⟨fun key hkey => ?_, trivial, ⟨_, rfl⟩, ⟨_, rfl⟩, ⟨_, rfl⟩, ⟨_, rfl⟩⟩
      simp [attach, Elm.n, nodeLetters, dofsAt, hn] at hkey
      rcases hkey with h | h | h | h | h | h | h | h <;> subst h <;> simp <;> omega
    · have h6 := disk_six hx ((mem_elements hxb _).2 (.inr (.inl ⟨s, hs, rfl⟩)))
      have hle := hd s hs
      obtain ⟨six, d⟩ := s
      simp only [h4] at h6
      simp at h6
      subst h6
      refine ⟨fun key hkey => ?_, trivial, ⟨_, rfl⟩, ⟨_, rfl⟩, ⟨_, rfl⟩, ⟨_, rfl⟩⟩
      simp [attach, Elm.n, nodeLetters, dofsAt] at hkey
      rcases hkey with h | h | h | h <;> subst h <;> simpa using hle
    · obtain ⟨h1, h2, h3, h5, h6⟩ := hb s hs
      refine ⟨fun key hkey => ?_, ?_, h3, h5, h6, ?_⟩
      · simp [attach, Elm.n, supportLetters, dofsAt, h2] at hkey
        rcases hkey with h | h <;> subst h <;> simpa using h1
      · show s.n_link ≠ _
        rw [h2]; simp
      · obtain ⟨E, hE⟩ := h5
        cases s with
        | brg _ _ => exact ⟨_, bind_ok.2 ⟨E, hE, rfl⟩⟩
        | brg6 _ => exact ⟨_, bind_ok.2 ⟨E, hE, rfl⟩⟩
    · rw [hpm] at hp; cases hp
  exact ⟨A, hA⟩

/-- **C29** (rotors as in `C29_accepts_partial`, passive, on bearings to ground) the refined rotor has
a state matrix, so the natural frequencies can be computed for every `k`. -/
theorem C29_modal_partial (hpd : SortsRows pd) (h : init pd' fuel' a = some (.ok r))
    (h4 : r.number_dof = 4) (hne : r.shaft ≠ [])
    (hc : ∀ e ∈ r.shaft, Cylinder e) (hp : Passive r 0) (hpm : r.pms = [])
    (hd : ∀ e ∈ r.disks, e.d.n ≤ r.shaft.length)
    (hb : ∀ b ∈ r.bearings, b.n ≤ r.shaft.length ∧ b.n_link = none ∧ (∃ E, (Elm.brg b).M 0 = .ok E) ∧
      (∃ E, (Elm.brg b).K 0 = .ok E) ∧ ∃ E, (Elm.brg b).C 0 = .ok E)
    (hn : (r.bearings.map BrgEl.n).Nodup) (ht : ShaftTagsFree r) (hk : k ≠ 0)
    (hf : r.bearings.length + 2 ≤ fuel) :
    ∃ b x A, r.refine k = .ok b ∧ init pd fuel b = some (.ok x) ∧ x.A 0 = .ok A := by
  have hL : ∀ e ∈ r.shaft, 0 < e.s.L := fun e he => (hp.shaft e he).2.1.L_pos
  obtain ⟨b, hr⟩ := refine_ok (fun e he => (hp.shaft e he).2.1) hc hk
  have hw := refine_wf h h4 hL hd (fun b hb' => (hb b hb').1) hn ht hne hk hr
  obtain ⟨x, hx, hx4, -, hfull⟩ := accepts hpd hw (fuel := fuel) (by
    obtain ⟨L, -, rfl⟩ := refine_iff.1 hr
    simpa using hf)
  have hxb := init_ok hx
  have hx4 : x.number_dof = 4 := by simpa using hx4
  have hxpm : x.pms = [] := by
    obtain ⟨L, -, rfl⟩ := refine_iff.1 hr
    rw [hxb.pms]; rfl
  have hend : shaftEnd x = k * r.shaft.length := by rw [shaftEnd_eq hx, lastShaftNode_full hfull]
  have hdk := refined_disks h hr hx
  have hbr := refined_bearings h hr hx
  obtain ⟨hlen, hs, hparts⟩ := C29_tiles hr hx
  have hpos : (0 : ℝ) < k := by exact_mod_cast Nat.pos_of_ne_zero hk
  have hsh : ∀ e ∈ x.shaft, e.s.Built ∧ e.s.beam.Physical ∧ Plain e.s ∧ e.six = false ∧
      ∃ n, e.s.n = some n ∧ n + 1 ≤ k * r.shaft.length := by
    intro e he
    obtain ⟨p, hp', rfl⟩ := List.getElem_of_mem he
    have h1 : k * (p / k) + p % k = p := Nat.div_add_mod p k
    have hi : p / k < r.shaft.length := Nat.div_lt_of_lt_mul (by rwa [hlen] at hp')
    have hj := Nat.mod_lt p (Nat.pos_of_ne_zero hk)
    obtain ⟨hz, hq⟩ := C29_sections_partial hk hr hx _ hi (hc _ (List.getElem_mem hi)) _ hj
    obtain ⟨hz', h6, -, -, -, -, -, hpl⟩ := hparts _ hi _ hj
    simp only [h1] at hq h6 hpl
    have hph := (hp.shaft _ (List.getElem_mem hi)).2.1
    have hphx : x.shaft[p].s.beam.Physical := by
      constructor
      · show 0 < x.shaft[p].s.L
        rw [hq.length]; exact div_pos hph.L_pos hpos
      · show 0 ≤ x.shaft[p].s.idl
        rw [hq.idl]; exact hph.idl_nonneg
      · show x.shaft[p].s.idl < x.shaft[p].s.odl
        rw [hq.idl, hq.odl]; exact hph.idl_lt
      · show 0 ≤ x.shaft[p].s.idr
        rw [hq.idr]; exact hph.idr_nonneg
      · show x.shaft[p].s.idr < x.shaft[p].s.odr
        rw [hq.idr, hq.odr]; exact hph.idr_lt
      · show 0 < x.shaft[p].s.material.rho
        rw [hq.material]; exact hph.rho_pos
      · show 0 < x.shaft[p].s.material.E
        rw [hq.material]; exact hph.E_pos
      · show 0 < x.shaft[p].s.material.G_s
        rw [hq.material]; exact hph.G_pos
      · show _ < x.shaft[p].s.material.Poisson
        rw [hq.material]; exact hph.nu_gt
    refine ⟨facts_built (physical_facts hphx (Or.inr hpl.2.2.2.2)), hphx, hpl, h6, nodeOf x.shaft[p],
      (shaft_given hx (List.getElem_mem hp')).1, ?_⟩
    exact (hfull.nodes _).1 ⟨_, List.getElem_mem hp', rfl⟩
  have hpass : Passive x 0 := by
    refine ⟨fun e he => ?_, fun j hj => ?_, fun e he => ?_, fun c hc' => ?_, ?_, fun j k1 k2 => ?_⟩
    · obtain ⟨h1, h2, h3, -⟩ := hsh e he
      exact ⟨h1, h2, h3.1.ge, h3.2.1, h3.2.2.1.ge, h3.2.2.2.1.ge⟩
    · rw [hend] at hj
      obtain ⟨e, he, rfl⟩ := (hfull.nodes j).2 hj
      exact ⟨e, he, (shaft_given hx he).1⟩
    · rw [hdk] at he
      obtain ⟨d, hd', rfl⟩ := List.mem_map.1 he
      exact hp.disk d hd'
    · rw [hbr] at hc'
      obtain ⟨d, hd', rfl⟩ := List.mem_map.1 hc'
      exact scaleBrg_passive k (hp.brg d hd')
    · rw [hxpm]; simp
    · rw [hxpm] at k2; simp at k2; omega
  obtain ⟨A, hA⟩ := state_exists hx hx4 hfull hxpm hpass (fun e he => (hsh e he).2.2.2.1)
    (fun e he => by
      rw [hdk] at he
      obtain ⟨d, hd', rfl⟩ := List.mem_map.1 he
      exact Nat.mul_le_mul_left k (hd d hd'))
    (fun c hc' => by
      rw [hbr] at hc'
      obtain ⟨d, hd', rfl⟩ := List.mem_map.1 hc'
      obtain ⟨h1, h2, h3, h5, h6⟩ := hb d hd'
      obtain ⟨e1, e2, e3, -⟩ := scaleBrg_mats k d 0
      exact ⟨by rw [scaleBrg_n]; exact Nat.mul_le_mul_left k h1, by rw [scaleBrg_link, h2],
        e1 ▸ h3, e2 ▸ h5, e3 ▸ h6⟩)
  exact ⟨b, x, A, hr, hx, hA⟩

/-- **C29** what a finished `convergence` returns: the meshes with `2, 4, 8, …` elements per element of
the rotor were analysed up to the first at which the frequency changed by `err_max` or less; the
returned arrays are their numbers of elements, frequencies and errors in percent, and the last of
these meshes replaces the rotor. -/
theorem C29_history {initFuel : ℕ} {n_eigval : ℤ} {err_max : ℝ} {res : ConvArrays}
    (h : r.convergence pd la initFuel fuel n_eigval err_max = some (.ok (x, res))) :
    ∃ (m : ℕ) (mesh : ℕ → Rotor) (w : ℕ → ℝ), wnAt la r n_eigval = .ok (w 0) ∧ mesh m = x ∧
      (∀ i ≤ m, ∃ b, r.refine (2 ^ (i + 1)) = .ok b ∧ init pd initFuel b = some (.ok (mesh i)) ∧
        wnAt la (mesh i) n_eigval = .ok (w (i + 1))) ∧
      res.el_num = (List.range (m + 1)).map (fun i => 2 ^ (i + 1) * r.shaft.length) ∧
      res.eigv_arr = (List.range (m + 1)).map (fun i => w (i + 1)) ∧
      res.error_arr = (List.range (m + 1)).map (fun i => 100 * |1 - w (i + 1) / w i|) ∧
      (∀ i < m, err_max < |1 - w (i + 1) / w i|) ∧ |1 - w (m + 1) / w m| ≤ err_max := by
  unfold convergence at h
  split at h
  · simp at h
  · rename_i v hv
    split_ifs at h with hlt
    · split at h
      · simp at h
      · simp at h
      · rename_i aux arr hloop
        simp only [Option.some.injEq, Except.ok.injEq, Prod.mk.injEq] at h
        obtain ⟨rfl, rfl⟩ := h
        obtain ⟨m, X, w, h0, hm, hP, e1, e2, e3, hgt, hle⟩ := loop_ok fuel _ _ _ hloop
        refine ⟨m, X, w, by rw [h0]; exact hv, hm, fun i hi => ?_, ?_, ?_, ?_, hgt, hle⟩
        · rw [pow_succ']; exact hP i hi
        · simp [e1, pow_succ']
        · simp [e2]
        · simp [e3]
    · simp at h

/-! ### Where the refined rotor is another one -/

/-- **C29** fails for tapered elements: the last of the two halves ends with the mean of the end
diameters, not with the right diameter of the element. -/
theorem C29_taper_false (hr : r.refine 2 = .ok b) (hx : init pd fuel b = some (.ok x)) (i : ℕ)
    (hi : i < r.shaft.length) (ht : r.shaft[i].s.odl ≠ r.shaft[i].s.odr) :
    ∃ hp : 2 * i + 1 < x.shaft.length,
      x.shaft[2 * i + 1].s.odr = (r.shaft[i].s.odl + r.shaft[i].s.odr) / 2 ∧
      x.shaft[2 * i + 1].s.odr ≠ r.shaft[i].s.odr := by
  obtain ⟨hlen, -, hp⟩ := refined_shaft hr hx
  have hb : 2 * i + 1 < x.shaft.length := by omega
  obtain ⟨y, hy, he⟩ := hp i hi 1 (by omega) hb
  obtain ⟨-, -, -, -, h5, -⟩ := init_attrs hy
  have : y.odr = (r.shaft[i].s.odl + r.shaft[i].s.odr) / 2 := by
    rw [h5]; simp [endsAt, Ends.step]; ring
  refine ⟨hb, ?_, ?_⟩ <;> rw [he]
  · exact this
  · show y.odr ≠ _
    rw [this]
    intro h
    apply ht; linarith

theorem refined_inside (h : init pd' fuel' a = some (.ok r)) (hr : r.refine k = .ok b)
    (hx : init pd fuel b = some (.ok x)) (hk : k ≠ 0) {c : BrgEl} (hc : c ∈ r.bearings) :
    c.n ≤ r.shaft.length := by
  have hb := refined_bearings h hr hx
  obtain ⟨hlen, hs, -⟩ := refined_shaft hr hx
  have hi := (init_ok hx).inside
  have hpm : x.pms = [] := by
    obtain ⟨L, -, rfl⟩ := refine_iff.1 hr
    rw [(init_ok hx).pms]; rfl
  rw [hpm] at hi
  simp only [outside, decide_eq_false_iff_not, gt_iff_lt, not_lt] at hi
  have h1 := maxOr0_le.1 hi (k * c.n) (by
    rw [hb, List.map_map]
    refine List.mem_append_right _ (List.mem_map.2 ⟨c, hc, scaleBrg_n k c⟩))
  have h2 : maxOr0 (x.shaft.map fun e => nodeOf e + 1) ≤ k * r.shaft.length := by
    rw [maxOr0_le]
    intro y hy
    obtain ⟨e, he, rfl⟩ := List.mem_map.1 hy
    have : leftNode e ∈ x.shaft.map leftNode := List.mem_map_of_mem he
    rw [hs, List.mem_range, hlen] at this
    exact this
  have h3 : k * c.n ≤ k * r.shaft.length :=
    h1.trans (max_le h2 (Nat.zero_le _))
  exact Nat.le_of_mul_le_mul_left h3 (Nat.pos_of_ne_zero hk)

/-- **C29** fails for rotors on flexible supports: point masses are left out, so that a bearing that
stands on one is refused and `convergence` does not return. -/
theorem C29_supports_false (h : init pd' fuel' a = some (.ok r)) {c : BrgEl} (hc : c ∈ r.bearings)
    (hn : r.shaft.length < c.n) (initFuel : ℕ) (n_eigval : ℤ) (err_max : ℝ) (x : Rotor)
    (res : ConvArrays) :
    r.convergence pd la initFuel fuel n_eigval err_max ≠ some (.ok (x, res)) := by
  intro hcon
  obtain ⟨m, mesh, w, -, -, hP, -⟩ := C29_history hcon
  obtain ⟨b, hr, hx, -⟩ := hP 0 (Nat.zero_le _)
  have := refined_inside h hr hx (by simp) hc
  omega

/-- **C29** fails for 6-dof rotors with a disk or a bearing: the refined shaft has 4-dof elements. -/
theorem C29_six_false (h : init pd' fuel' a = some (.ok r)) (h6 : r.number_dof = 6)
    (hb : r.disks ≠ [] ∨ r.bearings ≠ []) (hne : r.shaft ≠ []) (initFuel : ℕ) (n_eigval : ℤ) (err_max : ℝ)
    (x : Rotor) (res : ConvArrays) :
    r.convergence pd la initFuel fuel n_eigval err_max ≠ some (.ok (x, res)) := by
  intro hcon
  obtain ⟨m, mesh, w, -, -, hP, -⟩ := C29_history hcon
  obtain ⟨b, hr, hx, -⟩ := hP 0 (Nat.zero_le _)
  obtain ⟨hlen, -, ht⟩ := C29_tiles hr hx
  have hlp := List.length_pos_iff.2 hne
  obtain ⟨hp, h0, -⟩ := ht 0 hlp 0 (by simp)
  have hxb := init_ok hx
  have e4 := shaft_six hx ((mem_elements hxb _).2 (.inl ⟨_, List.getElem_mem hp, rfl⟩))
  rw [h0] at e4
  have hn4 : (mesh 0).number_dof ≠ 6 := by
    intro h'; simp [h'] at e4
  rcases hb with hb | hb
  · obtain ⟨d, hd⟩ := List.exists_mem_of_ne_nil _ hb
    have h1 := disk_six h ((mem_elements (init_ok h) _).2 (.inr (.inl ⟨d, hd, rfl⟩)))
    have h2 := disk_six hx (e := scaleDisk _ d) ((mem_elements hxb _).2 (.inr (.inl ⟨_, by
      rw [refined_disks h hr hx]; exact List.mem_map_of_mem hd, rfl⟩)))
    have h3 : (scaleDisk (2 ^ (0 + 1)) d).six = d.six := rfl
    rw [h3, h1, h6] at h2
    simp [hn4] at h2
  · obtain ⟨d, hd⟩ := List.exists_mem_of_ne_nil _ hb
    have h1 := brg_six h (b := d) ((mem_elements (init_ok h) _).2 (.inr (.inr (.inl ⟨d, hd, rfl⟩))))
    have h2 := brg_six hx (b := scaleBrg _ d) ((mem_elements hxb _).2 (.inr (.inr (.inl ⟨_, by
      rw [refined_bearings h hr hx]; exact List.mem_map_of_mem hd, rfl⟩))))
    cases d with
    | brg _ _ => simp only at h1; omega
    | brg6 _ => exact hn4 h2

/-- **C29** fails for shafts with layers: their elements are put one after the other, so the refined
rotor is as long as all elements together. -/
theorem C29_layers (hk : k ≠ 0) (hr : r.refine k = .ok b) (hx : init pd fuel b = some (.ok x)) :
    position x.shaft (k * r.shaft.length) = (r.shaft.map fun e => e.s.L).sum := by
  rw [(refined_position hr hx hk _ le_rfl).1, List.take_of_length_le (by simp)]

/-! ### A concrete rotor -/

theorem rod_single {r : Rotor} {k : ℕ} (hk : k = 1 ∨ k = 2)
    (h : init exPandas 10 (rodArgs k) = some (.ok r)) :
    SingleLayer r.shaft ∧ r.shaft.length = k := by
  have hb := init_ok h
  have e : r.shaft = sortShaft (numberShaft ((List.replicate k rodShaft).map fun s => ⟨false, s⟩)) := by
    rw [hb.shaft]
    show sortShaft (numberShaft (Nest.flattenAll (List.replicate k (.el ⟨false, rodShaft⟩)))) = _
    rcases hk with rfl | rfl <;> rfl
  have hn : ∀ e ∈ (List.replicate k rodShaft).map fun s => (⟨false, s⟩ : ShaftEl), e.s.n = none := by
    intro e he
    obtain ⟨s, hs, rfl⟩ := List.mem_map.1 he
    rw [List.eq_of_mem_replicate hs]; rfl
  rw [sort_numbered hn] at e
  rw [e]
  exact ⟨chain_numbered hn, by simp [numberShaft]⟩

theorem rod_refines {m : ℕ} (hm : m ≠ 0) : ∃ r b x A, init exPandas 10 (rodArgs 2) = some (.ok r) ∧
    r.number_dof = 4 ∧ SingleLayer r.shaft ∧ r.shaft.length = 2 ∧ (∀ e ∈ r.shaft, Cylinder e) ∧
    r.disks ≠ [] ∧ r.bearings ≠ [] ∧ (∃ A, r.A 0 = .ok A) ∧
    r.refine m = .ok b ∧ init exPandas 10 b = some (.ok x) ∧ x.A 0 = .ok A := by
  obtain ⟨r, h1, h2, h3, h4⟩ := accepts exPandas_sorts (rodArgs_wf (Or.inr rfl)) (fuel := 10)
    (by simp [rodArgs])
  have hb := init_ok h1
  obtain ⟨hl, hlen⟩ := rod_single (Or.inr rfl) h1
  have h2 : r.number_dof = 4 := by simpa using h2
  obtain ⟨r', h1', -, hsh, -, -, -, -, hdk, -⟩ := rod_facts (Or.inr rfl)
  rw [h1] at h1'
  cases h1'
  have hbr : ∀ b, b ∈ r.bearings → ∃ n t, n ≤ 2 ∧
      b = .brg false { exBrg n none 1e6 100 with tag := some ("Bearing " ++ t) } := by
    intro b hb'
    rw [hb.bearings, (parts_br_perm (rodArgs 2)).mem_iff] at hb'
    have : tagBearings (rodArgs 2).bearings =
      [.brg false { exBrg 0 none 1e6 100 with tag := some "Bearing 0" },
       .brg false { exBrg 2 none 1e6 100 with tag := some "Bearing 1" }] := rfl
    rw [this] at hb'
    simp only [List.mem_cons, List.not_mem_nil, or_false] at hb'
    rcases hb' with rfl | rfl
    · exact ⟨0, "0", by norm_num, rfl⟩
    · exact ⟨2, "1", by norm_num, rfl⟩
  have hpm : r.pms = [] := by rw [hb.pms]; rfl
  have hend : shaftEnd r = 2 := by rw [shaftEnd_eq h1, lastShaftNode_full h4]
  have hcyl : ∀ e ∈ r.shaft, Cylinder e := (rod_shaft hsh).2.2.1
  have hpass : Passive r 0 := by
    refine ⟨fun e he => ?_, fun j hj => ?_, fun e he => ?_, fun c hc' => ?_, ?_, fun j k1 k2 => ?_⟩
    · obtain ⟨n, t, rfl⟩ := hsh e he
      exact ⟨rod_built _ _, rod_physical _ _, le_rfl, rfl, by norm_num [rodShaft, exShaft],
        by norm_num [rodShaft, exShaft]⟩
    · rw [hend] at hj
      obtain ⟨e, he, rfl⟩ := (h4.nodes j).2 hj
      exact ⟨e, he, (shaft_given h1 he).1⟩
    · rw [hdk, List.mem_singleton] at he
      subst he
      norm_num
    · obtain ⟨n, t, -, rfl⟩ := hbr c hc'
      exact exBrg_passive (by norm_num) (by norm_num)
    · rw [hpm]; simp
    · rw [hpm] at k2; simp at k2; omega
  have hbm : ∀ b ∈ r.bearings, b.n ≤ 2 ∧ b.n_link = none ∧ (∃ E, (Elm.brg b).M 0 = .ok E) ∧
      (∃ E, (Elm.brg b).K 0 = .ok E) ∧ ∃ E, (Elm.brg b).C 0 = .ok E := by
    intro b hb'
    obtain ⟨n, t, hn, rfl⟩ := hbr b hb'
    exact ⟨hn, rfl, ⟨_, rfl⟩, ⟨_, rfl⟩, ⟨_, rfl⟩⟩
  have hd2 : ∀ e ∈ r.disks, e.d.n ≤ 2 := by
    intro e he
    rw [hdk, List.mem_singleton] at he
    subst he; norm_num
  obtain ⟨A0, hA0⟩ := state_exists h1 h2 h4 hpm hpass (fun e he => by
    obtain ⟨n, t, rfl⟩ := hsh e he; rfl) hd2 hbm
  have hne : r.shaft ≠ [] := by intro h0; rw [h0] at hlen; simp at hlen
  have htags : ShaftTagsFree r := by
    refine ⟨fun e he i h => ?_, fun b hb' i h => ?_⟩
    · rw [hdk, List.mem_singleton] at he
      subst he
      have := congrArg String.toList (Option.some.inj h)
      rw [String.toList_append] at this
      simp at this
    · obtain ⟨n, t, -, rfl⟩ := hbr b hb'
      have := congrArg String.toList (Option.some.inj h)
      rw [String.toList_append, String.toList_append] at this
      simp at this
  have hnod : (r.bearings.map BrgEl.n).Nodup := by
    rw [hb.bearings, ((parts_br_perm (rodArgs 2)).map BrgEl.n).nodup_iff, tagBearings_nodes]
    exact (rodArgs_wf (Or.inr rfl)).brg_nodes
  obtain ⟨b, x, A, hr, hx, hA⟩ := C29_modal_partial (fuel := 10) exPandas_sorts h1 h2 hne hcyl hpass
    hpm (by rwa [hlen]) (by rwa [hlen]) hnod htags hm (by
      rw [hb.bearings, (parts_br_perm (rodArgs 2)).length_eq]; decide)
  refine ⟨r, b, x, A, h1, h2, hl, hlen, hcyl, by rw [hdk]; simp, fun h0 => ?_, ⟨A0, hA0⟩, hr, hx, hA⟩
  have := (parts_br_perm (rodArgs 2)).length_eq
  rw [← hb.bearings, h0] at this
  simp [tagBearings, rodArgs] at this

example {m : ℕ} (hm : m ≠ 0) : ∃ r b x, init exPandas 10 (rodArgs 2) = some (.ok r) ∧
    SingleLayer r.shaft ∧ r.shaft.length = 2 ∧ (∀ e ∈ r.shaft, Cylinder e) ∧ r.refine m = .ok b ∧
    init exPandas 10 b = some (.ok x) ∧ x.shaft.length = m * 2 ∧ x.L = r.L := by
  obtain ⟨r, b, x, A, h1, -, hl, hlen, hc, -, -, -, hr, hx, -⟩ := rod_refines hm
  have hL : ∀ e ∈ r.shaft, 0 < e.s.L := by
    intro e he
    obtain ⟨r', h1', -, hsh, -⟩ := rod_facts (Or.inr rfl)
    rw [h1] at h1'
    cases h1'
    obtain ⟨n, t, rfl⟩ := hsh e he
    exact (rod_physical _ _).L_pos
  exact ⟨r, b, x, h1, hl, hlen, hc, hr, hx, by rw [(C29_tiles hr hx).1, hlen],
    (C29_nodes_partial h1 hm hl hL (by intro h0; rw [h0] at hlen; simp at hlen) hr hx).2.2.2⟩

/-- An eigensolver that always finds the eigenvalue `i`, twice. -/
noncomputable def unitLapack : Lapack :=
  ⟨fun _ => [(Complex.I, 0), (Complex.I, 0)], fun _ _ => some [(Complex.I, 0), (Complex.I, 0)]⟩

theorem unit_wn {r : Rotor} {A} (hA : r.A 0 = .ok A) : wnAt unitLapack r 0 = .ok 1 := by
  have hperm : (lexsort [Complex.I, Complex.I]).Perm [0, 1] := List.mergeSort_perm _ _
  have hlen := hperm.length_eq
  have hfil : ([(Complex.I, 0), (Complex.I, 0)] : List (Pair r.ndof)).filter
      (fun p => decide (0.1 < ‖p.1‖)) = [(Complex.I, 0), (Complex.I, 0)] := by
    norm_num [List.filter]
  have hs : sorted ([(Complex.I, 0), (Complex.I, 0)] : List (Pair r.ndof)) =
      .ok [(Complex.I, 0), (Complex.I, 0)] := by
    unfold sorted index
    simp only [List.map_cons, List.map_nil]
    obtain ⟨i, j, hij⟩ := List.length_eq_two.1 hlen
    have hi : i = 0 ∨ i = 1 := by simpa using hperm.mem_iff.1 (by rw [hij]; simp : i ∈ _)
    have hj : j = 0 ∨ j = 1 := by simpa using hperm.mem_iff.1 (by rw [hij]; simp : j ∈ _)
    rw [hij]
    rcases hi with rfl | rfl <;> rcases hj with rfl | rfl <;> rfl
  have he : r.eigen unitLapack 0 = .ok [(Complex.I, 0), (Complex.I, 0)] := by
    unfold eigen
    refine bind_ok.2 ⟨A, hA, ?_⟩
    simp only [unitLapack, Bool.false_eq_true, if_false, if_true]
    rw [← hs]
    congr 1
  unfold wnAt run_modal
  refine bind_ok.2 ⟨_, bind_ok.2 ⟨_, he, rfl⟩, ?_⟩
  simp [wrap]

/-- The analysis of the rod stops after one refinement when the frequency does not change. -/
example : ∃ r x res, init exPandas 10 (rodArgs 2) = some (.ok r) ∧
    r.convergence exPandas unitLapack 10 1 0 0.01 = some (.ok (x, res)) ∧ res.el_num = [4] := by
  obtain ⟨r, b, x, A, h1, -, hl, hlen, hc, -, -, ⟨A0, hA0⟩, hr, hx, hA⟩ := rod_refines (m := 2) (by simp)
  have h : r.convergence exPandas unitLapack 10 1 0 0.01 = some (.ok (x, ⟨[4], [1], [0]⟩)) := by
    unfold convergence
    rw [unit_wn hA0]
    simp only
    rw [if_pos (by norm_num)]
    unfold convLoop
    rw [hr]
    simp only [hx, unit_wn hA]
    rw [if_neg (by norm_num)]
    simp [refined_count hr, hlen]
  exact ⟨r, x, _, h1, h, rfl⟩

/-- A rotor on a flexible support. -/
example : ∃ r, init exPandas 10 exArgs = some (.ok r) ∧ ∃ c ∈ r.bearings, r.shaft.length < c.n := by
  obtain ⟨r, h, -⟩ := exRotor_exists
  have hb := init_ok h
  refine ⟨r, h, .brg false { exBrg 3 none 1e7 10 with tag := some "Bearing 0" }, ?_, ?_⟩
  · rw [hb.bearings, (parts_br_perm exArgs).mem_iff]
    exact List.mem_cons_self
  · rw [hb.shaft, (parts_sh_perm exArgs).length_eq]
    decide

/-- A rotor of 6-dof elements with a disk. -/
example : ∃ r, init exPandas 10 sixArgs = some (.ok r) ∧ r.number_dof = 6 ∧ r.shaft ≠ [] ∧
    r.disks ≠ [] := by
  obtain ⟨r, h1, h2, -, h4⟩ := accepts exPandas_sorts sixArgs_wf (fuel := 10) (by simp [sixArgs])
  refine ⟨r, h1, by simpa using h2, fun h0 => ?_, ?_⟩
  · obtain ⟨e, he, -⟩ := (h4.nodes 0).2 h4.pos
    rw [h0] at he; cases he
  · rw [(init_ok h1).disks]
    intro h; cases h

/-- A shaft of two layers. -/
noncomputable def layerArgs : RotorArgs where
  shaft := [.el ⟨false, { rodShaft with n := some 0 }⟩, .el ⟨false, { rodShaft with n := some 0 }⟩]
  bearings := [.brg false (exBrg 0 none 1e6 100), .brg false (exBrg 1 none 1e6 100)]

theorem layerArgs_wf : WellFormed false 1 layerArgs where
  pos := by norm_num
  nodes := by
    intro k
    show k ∈ [0, 0] ↔ k < 1
    simp
  len := by
    intro e he
    simp [layerArgs, shaftList, Nest.flattenAll, Nest.flatten] at he
    subst he
    norm_num [rodShaft, exShaft]
  shaft_six := by
    intro e he
    simp [layerArgs, shaftList, Nest.flattenAll, Nest.flatten] at he
    subst he; rfl
  disk_six := by simp [layerArgs]
  brg_six := by
    intro e he; simp [layerArgs] at he
    rcases he with rfl | rfl <;> rfl
  disk_on := by simp [layerArgs]
  brg_nodes := by simp [layerArgs, BrgEl.n, BrgEl.base, exBrg]
  brg_on := by
    intro e he; simp [layerArgs] at he
    rcases he with rfl | rfl <;> left <;> simp [BrgEl.n, BrgEl.base, exBrg]
  brg_linked := by
    intro e he h; simp [layerArgs] at he
    rcases he with rfl | rfl <;> simp [BrgEl.n, BrgEl.base, exBrg] at h
  brg_order := by
    intro e he c hc h hl; simp [layerArgs] at he hc
    rcases he with rfl | rfl <;> rcases hc with rfl | rfl <;>
      simp [BrgEl.n, BrgEl.n_link, BrgEl.base, exBrg] at h hl ⊢
  pm_on := by simp [layerArgs]
  tags := by decide

/-- **C29** fails for shafts with layers: the refined rotor is twice as long as the rotor. -/
theorem C29_layers_false : ∃ r b x, init exPandas 10 layerArgs = some (.ok r) ∧ r.refine 2 = .ok b ∧
    init exPandas 10 b = some (.ok x) ∧ 0 < r.L ∧ x.L = 2 * r.L := by
  obtain ⟨r, h1, h2, h3, h4⟩ := accepts exPandas_sorts layerArgs_wf (fuel := 10) (by simp [layerArgs])
  have hb := init_ok h1
  have hsh : ∀ e ∈ r.shaft, ∃ t, e = ⟨false, { rodShaft with n := some 0, tag := t }⟩ := by
    intro e he
    rw [hb.shaft] at he
    have := (parts_sh_perm layerArgs).mem_iff.1 he
    simp only [parts, numberShaft, layerArgs, Nest.flattenAll, Nest.flatten,
      List.append_nil, List.mapIdx_cons, List.mapIdx_nil, List.mem_cons, List.not_mem_nil,
      or_false, List.cons_append, List.nil_append] at this
    rcases this with this | this
    · exact ⟨_, this⟩
    · exact ⟨_, this⟩
  have hlen : r.shaft.length = 2 := by
    rw [hb.shaft, (parts_sh_perm layerArgs).length_eq]; rfl
  have hph : ∀ e ∈ r.shaft, e.s.beam.Physical := by
    intro e he; obtain ⟨t, rfl⟩ := hsh e he; exact rod_physical _ _
  have hcy : ∀ e ∈ r.shaft, Cylinder e := by
    intro e he; obtain ⟨t, rfl⟩ := hsh e he; exact ⟨rfl, rfl⟩
  have hLe : ∀ e ∈ r.shaft, e.s.L = rodShaft.L := by
    intro e he; obtain ⟨t, rfl⟩ := hsh e he; rfl
  have hbr : ∀ b ∈ r.bearings, b.n ≤ 1 ∧ ∃ t, b.tag = some ("Bearing " ++ t) := by
    intro b hb'
    rw [hb.bearings, (parts_br_perm layerArgs).mem_iff] at hb'
    have : tagBearings layerArgs.bearings =
      [.brg false { exBrg 0 none 1e6 100 with tag := some "Bearing 0" },
       .brg false { exBrg 1 none 1e6 100 with tag := some "Bearing 1" }] := rfl
    rw [this] at hb'
    simp only [List.mem_cons, List.not_mem_nil, or_false] at hb'
    rcases hb' with rfl | rfl
    · exact ⟨by norm_num [BrgEl.n, BrgEl.base, exBrg], "0", rfl⟩
    · exact ⟨by norm_num [BrgEl.n, BrgEl.base, exBrg], "1", rfl⟩
  have hdk : r.disks = [] := by rw [hb.disks]; rfl
  have hne : r.shaft ≠ [] := by intro h0; rw [h0] at hlen; simp at hlen
  have htags : ShaftTagsFree r := by
    refine ⟨fun e he i h => ?_, fun b hb' i h => ?_⟩
    · rw [hdk] at he; cases he
    · obtain ⟨-, t, ht⟩ := hbr b hb'
      rw [ht] at h
      have := congrArg String.toList (Option.some.inj h)
      rw [String.toList_append, String.toList_append] at this
      simp at this
  have hnod : (r.bearings.map BrgEl.n).Nodup := by
    rw [hb.bearings, ((parts_br_perm layerArgs).map BrgEl.n).nodup_iff, tagBearings_nodes]
    exact layerArgs_wf.brg_nodes
  obtain ⟨b, hr⟩ := refine_ok (k := 2) hph hcy (by simp)
  have hw := refine_wf h1 (by simpa using h2) (fun e he => (hph e he).L_pos)
    (by rw [hdk]; simp) (fun b hb' => by have := (hbr b hb').1; omega) hnod htags hne (by simp) hr
  obtain ⟨x, hx, -, -, hfx⟩ := accepts exPandas_sorts hw (fuel := 10) (by
    obtain ⟨L, -, rfl⟩ := refine_iff.1 hr
    simp only [List.length_map]
    rw [hb.bearings, (parts_br_perm layerArgs).length_eq]; decide)
  have e2 : r.L = rodShaft.L := by
    rw [hb.L, hb.pos, h4.nodesPos]
    simp only [List.range_succ, List.map_append, List.map_cons, List.map_nil, List.getLast?_concat,
      Option.getD_some]
    rw [← h4.position_succ (by norm_num : 0 < 1), h4.position_zero, zero_add]
    unfold layerLength
    obtain ⟨e, he, h0⟩ := (h4.nodes 0).2 (by norm_num)
    cases hf : r.shaft.find? (fun e => decide (leftNode e = 0)) with
    | none =>
      have := List.find?_eq_none.1 hf e he
      simp only [decide_eq_true_eq] at this
      exact absurd h0 this
    | some e' => exact hLe e' (List.mem_of_find?_eq_some hf)
  have e1 : x.L = 2 * rodShaft.L := by
    rw [(init_ok hx).L, (init_ok hx).pos, hfx.nodesPos]
    simp only [List.range_succ, List.map_append, List.map_cons, List.map_nil, List.getLast?_concat,
      Option.getD_some]
    rw [C29_layers (by simp) hr hx]
    have : r.shaft.map (fun e => e.s.L) = List.replicate 2 rodShaft.L := by
      rw [← hlen, ← List.map_const']
      exact List.map_congr_left fun e he => hLe e he
    rw [this]
    simp
    ring
  exact ⟨r, b, x, h1, hr, hx, by rw [e2]; norm_num [rodShaft, exShaft], by rw [e1, e2]⟩

end Ross.Props
