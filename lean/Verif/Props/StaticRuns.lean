import Verif.Lemmas.StaticRuns
import Verif.Props.Static

/-! # When the static analysis runs, and a shaft of one element (C28) -/

namespace Ross.Props

open Ross Ross.Spec Ross.BearingLemmas Ross.Rotor Ross.RotorLemmas Ross.ShaftLemmas
  Ross.Shaft6Lemmas Ross.AssemblyLemmas Ross.StaticLemmas Matrix

variable {pd pd' : Pandas} {sp : Scipy} {a : RotorArgs} {r : Rotor} {fuel fuel' : ℕ}
  {st : StaticResults} {six : Bool} {N : ℕ}

/-- **C28** the static analysis of a rotor on at least two bearings at different nodes succeeds,
whatever the order in which pandas returns rows, with four or six degrees of freedom. -/
theorem C28_runs (h : init pd fuel a = some (.ok r)) (hw : WellFormed six N a)
    (ht : TagsFree r) (hs : ∀ e ∈ r.shaft, Sound e) (hg : OnGround r) {b c : BrgEl}
    (hb : Carries r b) (hc : Carries r c) (hbc : b.n < c.n) (hpd : SortsRows pd') (sp : Scipy)
    (hfuel : r.bearings.length + 2 ≤ fuel') :
    ∃ st, r.run_static pd' sp fuel' = some (.ok st) := by
  have hcar : ∀ b, Carries r b → b ∈ carrying r := by
    intro b hb
    simpa [carrying, Carries, List.mem_filter] using hb
  have hl := links_ground hg
  refine runs h hw ht hs (fun d hd => ?_) (hcar b hb) (hcar c hc) (hl _ (hcar b hb))
    (hl _ (hcar c hc)) hbc hpd sp hfuel
  rw [hl d hd]; simp

/-- **C52** on a shaft of one element the reported shear at the right end is not that of the left
part: the loop treats the only element as the first and never as the last.  What is reported is
the sum of the shear forces at both ends. -/
theorem C52_single (h : init pd fuel a = some (.ok r))
    (hr : r.run_static pd' sp fuel' = some (.ok st)) (hg : OnGround r)
    (hs : ∀ e ∈ r.shaft, e.s.Built ∧ 1 + e.s.phi ≠ 0) (hc : ∀ e ∈ r.shaft, Cylinder e)
    (h2 : r.nodes_pos.length = 2) :
    st.vx = [(shearRight r st 0, shearRight r st 0 + shearLeft r st 1)] ∧
    shearRight r st 1 = 0 := by
  obtain ⟨u, R, F, ew, nf, c⟩ := core h hr
  have hN : shaftEnd r = 1 := by have := c.len; omega
  obtain ⟨l1, l2⟩ := elm_eq c hg hs hc
  rw [hN] at l1 l2
  have hcl := close_force c h hg hs
  rw [hN] at hcl
  refine ⟨?_, by rw [shearRight, hcl]; ring⟩
  obtain ⟨f, hf⟩ := List.length_eq_one_iff.1 l1
  have h0 := l2 0 (by norm_num)
  rw [hf] at h0
  simp only [List.getD_cons_zero, Nat.zero_add, if_true] at h0
  rw [c.vx, hf, h0, hcl]
  simp only [shear, shearTail, shearRight, shearLeft, Finset.range_zero, Finset.sum_empty,
    List.map_cons, List.map_nil]
  congr 2 <;> ring

/-! ### A concrete rotor -/

noncomputable def rodShaft : ShaftElement :=
  { exShaft with
    idl := 0, odl := 1 / 10, axial_force := 0, n := none, alpha := 0, beta := 0 }

theorem rod_physical (x : Option ℕ) (t : Option String) :
    ({ rodShaft with n := x, tag := t } : ShaftElement).beam.Physical := by
  constructor <;> norm_num [rodShaft, exShaft, exMaterial, ShaftElement.beam]

theorem rod_built (x : Option ℕ) (t : Option String) :
    ({ rodShaft with n := x, tag := t } : ShaftElement).Built :=
  facts_built (physical_facts (rod_physical x t) (Or.inr rfl))

theorem rod_mass (x : Option ℕ) (t : Option String) :
    0 < ({ rodShaft with n := x, tag := t } : ShaftElement).m := by
  norm_num [ShaftElement.m, ShaftElement.volume, ShaftElement.outer, ShaftElement.inner, rodShaft,
    exShaft, exMaterial, Real.pi_pos]

/-- A rod of `k` elements on bearings at both ends, with a disk on node 1. -/
noncomputable def rodArgs (k : ℕ) : RotorArgs where
  shaft := List.replicate k (.el ⟨false, rodShaft⟩)
  disks := [⟨false, ⟨1, 30, 1, 2, some "impeller", 1, ""⟩⟩]
  bearings := [.brg false (exBrg 0 none 1e6 100), .brg false (exBrg k none 1e6 100)]

theorem rodArgs_wf {k : ℕ} (hk : k = 1 ∨ k = 2) : WellFormed false k (rodArgs k) where
  pos := by omega
  nodes := by
    intro j
    rcases hk with rfl | rfl
    · show j ∈ [0] ↔ j < 1
      simp
    · show j ∈ [0, 1] ↔ j < 2
      simp; omega
  len := by
    intro e he
    rcases hk with rfl | rfl <;>
    · simp [rodArgs, shaftList, Nest.flattenAll, Nest.flatten, List.replicate] at he
      subst he
      norm_num [rodShaft, exShaft]
  shaft_six := by
    intro e he
    rcases hk with rfl | rfl <;>
    · simp [rodArgs, shaftList, Nest.flattenAll, Nest.flatten, List.replicate] at he
      subst he; rfl
  disk_six := by intro e he; simp [rodArgs] at he; subst he; rfl
  brg_six := by
    intro e he; simp [rodArgs] at he
    rcases he with rfl | rfl <;> rfl
  disk_on := by intro e he; simp [rodArgs] at he; subst he; simp; omega
  brg_nodes := by simp [rodArgs, BrgEl.n, BrgEl.base, exBrg]; omega
  brg_on := by
    intro e he; simp [rodArgs] at he
    rcases he with rfl | rfl <;> left <;> simp [BrgEl.n, BrgEl.base, exBrg]
  brg_linked := by
    intro e he h; simp [rodArgs] at he
    rcases he with rfl | rfl <;> simp [BrgEl.n, BrgEl.base, exBrg] at h
  brg_order := by
    intro e he c hc h hl; simp [rodArgs] at he hc
    rcases he with rfl | rfl <;> rcases hc with rfl | rfl <;>
      simp [BrgEl.n, BrgEl.n_link, BrgEl.base, exBrg] at h hl ⊢
  pm_on := by simp [rodArgs]
  tags := by rcases hk with rfl | rfl <;> decide

theorem default_ne (c : String) (i j : ℕ) (hc : ∀ x y : List Char, c.toList ++ x ≠ "Bearing ".toList ++ y) :
    some (c ++ toString j) ≠ some ("Bearing " ++ toString i) := by
  intro h
  have := congrArg String.toList (Option.some.inj h)
  rw [String.toList_append, String.toList_append] at this
  exact hc _ _ this

theorem rod_facts {k : ℕ} (hk : k = 1 ∨ k = 2) :
    ∃ r, init exPandas 10 (rodArgs k) = some (.ok r) ∧ r.nodes_pos.length = k + 1 ∧
      (∀ e ∈ r.shaft, ∃ x t, e = ⟨false, { rodShaft with n := some x, tag := t }⟩) ∧
      TagsFree r ∧ OnGround r ∧ r.bearings.length = 2 ∧
      (∃ b c, Carries r b ∧ Carries r c ∧ b.n < c.n) ∧
      r.disks = [⟨false, ⟨1, 30, 1, 2, some "impeller", 1, ""⟩⟩] ∧ 0 < r.m := by
  obtain ⟨r, h1, h2, h3, h4⟩ := accepts exPandas_sorts (rodArgs_wf hk) (fuel := 10) (by simp [rodArgs])
  have hb := init_ok h1
  have hlen : r.nodes_pos.length = k + 1 := by rw [hb.pos, h4.nodesPos]; simp
  have hdk : r.disks = [⟨false, ⟨1, 30, 1, 2, some "impeller", 1, ""⟩⟩] := by rw [hb.disks]; rfl
  have hsh : ∀ e ∈ r.shaft, (∃ j : ℕ, e.s.tag = some ("ShaftElement " ++ toString j)) ∧
      ∃ x t, e = ⟨false, { rodShaft with n := some x, tag := t }⟩ := by
    intro e he
    rw [hb.shaft] at he
    have := (parts_sh_perm (rodArgs k)).mem_iff.1 he
    rcases hk with rfl | rfl
    · simp only [parts, numberShaft, rodArgs, List.replicate, Nest.flattenAll, Nest.flatten,
        List.append_nil, List.mapIdx_cons, List.mapIdx_nil, List.mem_cons, List.not_mem_nil,
        or_false] at this
      exact ⟨⟨0, by rw [this]; rfl⟩, 0, _, this⟩
    · simp only [parts, numberShaft, rodArgs, List.replicate, Nest.flattenAll, Nest.flatten,
        List.append_nil, List.mapIdx_cons, List.mapIdx_nil, List.mem_cons, List.not_mem_nil,
        or_false, List.cons_append, List.nil_append] at this
      rcases this with this | this
      · exact ⟨⟨0, by rw [this]; rfl⟩, 0, _, this⟩
      · exact ⟨⟨1, by rw [this]; rfl⟩, 1, _, this⟩
  have hbr : ∀ b, b ∈ r.bearings ↔
      b = .brg false { exBrg 0 none 1e6 100 with tag := some "Bearing 0" } ∨
      b = .brg false { exBrg k none 1e6 100 with tag := some "Bearing 1" } := by
    intro b
    rw [hb.bearings, (parts_br_perm (rodArgs k)).mem_iff]
    have : tagBearings (rodArgs k).bearings =
      [.brg false { exBrg 0 none 1e6 100 with tag := some "Bearing 0" },
       .brg false { exBrg k none 1e6 100 with tag := some "Bearing 1" }] := rfl
    rw [this]
    simp
  refine ⟨r, h1, hlen, fun e he => (hsh e he).2, ⟨fun e he i => ?_, fun e he i => ?_⟩,
    fun b hb' l hl => ?_, ?_, ⟨_, _, ⟨(hbr _).2 (Or.inl rfl), rfl, ?_⟩,
      ⟨(hbr _).2 (Or.inr rfl), rfl, ?_⟩, ?_⟩, hdk, ?_⟩
  · obtain ⟨⟨j, hj⟩, -⟩ := hsh e he
    rw [hj]
    exact default_ne _ _ _ (by intro x y h; simp at h)
  · rw [hdk] at he
    simp only [List.mem_singleton] at he
    subst he
    intro h
    have := congrArg String.toList (Option.some.inj h)
    rw [String.toList_append] at this
    simp at this
  · rcases (hbr b).1 hb' with rfl | rfl <;> simp [BrgEl.n_link, BrgEl.base, exBrg] at hl
  · rw [hb.bearings, (parts_br_perm (rodArgs k)).length_eq]; rfl
  · rw [hlen]; simp [BrgEl.n, BrgEl.base, exBrg]
  · rw [hlen]; simp [BrgEl.n, BrgEl.base, exBrg]
  · simp [BrgEl.n, BrgEl.base, exBrg]; omega
  · rw [← mass_eq h1, hdk]
    have : 0 ≤ (r.shaft.map fun e => e.s.m).sum := by
      refine List.sum_nonneg fun x hx => ?_
      obtain ⟨e, he, rfl⟩ := List.mem_map.1 hx
      obtain ⟨-, y, t, rfl⟩ := hsh e he
      exact (rod_mass _ _).le
    simp
    linarith

theorem rod_shaft {r : Rotor}
    (h : ∀ e ∈ r.shaft, ∃ x t, e = ⟨false, { rodShaft with n := some x, tag := t }⟩) :
    (∀ e ∈ r.shaft, Sound e) ∧ (∀ e ∈ r.shaft, e.s.Built ∧ 1 + e.s.phi ≠ 0) ∧
    (∀ e ∈ r.shaft, Cylinder e) ∧ EqualLayers r ∧
    (∀ e ∈ r.shaft, e.s.axial_force = 0 ∧ e.s.torque = 0) := by
  refine ⟨fun e he => ?_, fun e he => ?_, fun e he => ?_, fun e he e' he' _ => ?_, fun e he => ?_⟩
  all_goals obtain ⟨x, t, rfl⟩ := h e he
  · exact ⟨rod_built _ _, rod_physical _ _, le_rfl, rfl⟩
  · exact ⟨rod_built _ _, (one_add_phi_pos (built_facts (rod_built _ _)) (rod_physical _ _)).ne'⟩
  · exact ⟨rfl, rfl⟩
  · obtain ⟨x', t', rfl⟩ := h e' he'
    rfl
  · exact ⟨rfl, rfl⟩

/-- The hypotheses of `C28_runs`, and therefore those of `C28_forces`, `C28_moments`,
`C28_reactions`, `C28_weights`, `C52_shear_partial` and `C52_bending_partial`, hold for a rod of two elements. -/
example : ∃ r st, init exPandas 10 (rodArgs 2) = some (.ok r) ∧
    r.run_static exPandas sp 4 = some (.ok st) ∧ OnGround r ∧
    (∀ e ∈ r.shaft, e.s.Built ∧ 1 + e.s.phi ≠ 0) ∧ (∀ e ∈ r.shaft, Cylinder e) ∧ EqualLayers r ∧
    (∀ e ∈ r.shaft, e.s.axial_force = 0 ∧ e.s.torque = 0) ∧ 2 < r.nodes_pos.length ∧ r.m ≠ 0 := by
  obtain ⟨r, h1, h2, h3, h4, h5, h6, ⟨b, c, hb, hc, hbc⟩, -, h8⟩ := rod_facts (k := 2) (Or.inr rfl)
  obtain ⟨s1, s2, s3, s4, s5⟩ := rod_shaft h3
  obtain ⟨st, hst⟩ := C28_runs h1 (rodArgs_wf (Or.inr rfl)) h4 s1 h5 hb hc hbc exPandas_sorts sp
    (fuel' := 4) (by omega)
  exact ⟨r, st, h1, hst, h5, s2, s3, s4, s5, by omega, h8.ne'⟩

/-- **C52** the shear diagram of a rod of a single element on two bearings is wrong. -/
theorem C52_single_false (sp : Scipy) : ∃ r st, init exPandas 10 (rodArgs 1) = some (.ok r) ∧
    r.run_static exPandas sp 4 = some (.ok st) ∧ OnGround r ∧ (∀ e ∈ r.shaft, Sound e) ∧
    (∀ e ∈ r.shaft, Cylinder e) ∧
    st.vx ≠ (List.range (r.nodes_pos.length - 1)).map
      (fun (j : ℕ) => (shearRight r st j, shearLeft r st (j + 1))) := by
  obtain ⟨r, h1, h2, h3, h4, h5, h6, ⟨b, c, hb, hc, hbc⟩, hdk, h8⟩ := rod_facts (k := 1) (Or.inl rfl)
  obtain ⟨s1, s2, s3, s4, s5⟩ := rod_shaft h3
  obtain ⟨st, hst⟩ := C28_runs h1 (rodArgs_wf (Or.inl rfl)) h4 s1 h5 hb hc hbc exPandas_sorts sp
    (fuel' := 4) (by omega)
  refine ⟨r, st, h1, hst, h5, s1, s3, ?_⟩
  rw [(C52_single h1 hst h5 s2 s3 h2).1, h2]
  simp only [Nat.reduceAdd, Nat.reduceSub, List.range_one, List.map_cons, List.map_nil, ne_eq,
    List.cons.injEq, Prod.mk.injEq, true_and, and_true, Nat.zero_add]
  intro h0
  have h0 : shearRight r st 0 = 0 := by linarith
  obtain ⟨u, R, F, ew, nf, c⟩ := core h1 hst
  have hN : shaftEnd r = 1 := by have := c.len; omega
  have hm := close_moment c h1 h5 s2 s3 s4 s5
  rw [hN] at hm
  simp only [bendingAt, Finset.sum_range_one, Nat.zero_add] at hm
  simp only [shearRight, shearLeft, Finset.range_zero, Finset.sum_empty, zero_add] at h0
  rw [h0, zero_mul, zero_add] at hm
  have hpos : position r.shaft 0 < position r.shaft 1 := by
    have hfull : Full r.shaft 1 := by
      rw [(init_ok h1).shaft]; exact (ctx_of_wf (rodArgs_wf (Or.inl rfl))).full
    exact hfull.mono (by norm_num) (by norm_num)
  have hlw : 0 < layerWeight r 0 := by
    obtain ⟨e, he, hn⟩ := c.fill 0 (by omega)
    refine mul_pos (by norm_num [gravity]) (List.sum_pos _ (fun x hx => ?_) ?_)
    · obtain ⟨e, he, rfl⟩ := List.mem_map.1 hx
      obtain ⟨y, t, rfl⟩ := h3 e (List.mem_filter.1 he).1
      exact rod_mass _ _
    · have : e ∈ r.shaft.filter fun e => leftNode e = 0 := by
        rw [List.mem_filter]
        exact ⟨he, decide_eq_true (show leftNode e = 0 from hn)⟩
      intro h'
      rw [List.map_eq_nil_iff] at h'
      rw [h'] at this
      cases this
  rcases mul_eq_zero.1 hm with h | h <;> linarith

end Ross.Props
