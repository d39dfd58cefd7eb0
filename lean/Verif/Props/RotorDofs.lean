import Verif.Lemmas.Slots
import Verif.Lemmas.ExRotor

/-! # C17: global degrees of freedom are numbered consistently -/

namespace Ross.Props

open Ross Ross.Spec Ross.RotorLemmas Ross.Rotor Ross.BearingLemmas

variable {pd : Pandas} {fuel : ℕ} {a : RotorArgs} {r : Rotor}

theorem shaftEnd_eq (h : init pd fuel a = some (.ok r)) : shaftEnd r = lastShaftNode r := by
  have hb := init_ok h
  apply le_antisymm
  · refine maxOr0_le.2 fun y hy => ?_
    obtain ⟨e, he, rfl⟩ := List.mem_map.1 hy
    have := node_le_last hb he
    unfold lastShaftNode nodeOf at *
    omega
  · obtain ⟨e, he⟩ : ∃ e, r.shaft.getLast? = some e :=
      ⟨_, List.getLast?_eq_getLast_of_ne_nil (shaft_ne hb)⟩
    have hl : lastNode r.shaft = nodeOf e := by simp [lastNode, he]
    unfold lastShaftNode
    rw [hl]
    exact le_maxOr0 (List.mem_map.2 ⟨e, List.mem_of_getLast? he, rfl⟩)

/-- The numbering of the specification: a bijection from the degrees of freedom to `[0, size)`. -/
theorem C17_slot_bijective (nd N k : ℕ) (h : nd = 4 ∨ nd = 6) :
    (∀ x y, IsDof nd N k x → IsDof nd N k y → slot nd N x = slot nd N y → x = y) ∧
    (∀ x, IsDof nd N k x → slot nd N x < size nd N k) ∧
    (∀ i, i < size nd N k → ∃ x, IsDof nd N k x ∧ slot nd N x = i) := by
  refine ⟨fun x y => slot_inj h, fun x hx => ?_, fun i => slot_surj h⟩
  rcases hx with ⟨h1, h2⟩ | ⟨h1, h2, h3⟩
  · exact (slot_lt_iff h (by rw [if_pos h1]; exact h2)).2 (by omega)
  · exact (slot_lt_iff h (by rw [if_neg (by omega)]; exact h3)).2 h2

/-- A constructed rotor has 4 or 6 dofs per node and the number of dofs of its shaft nodes and
supports. -/
theorem C17_ndof (h : init pd fuel a = some (.ok r)) :
    (r.number_dof = 4 ∨ r.number_dof = 6) ∧
      r.ndof = size r.number_dof (shaftEnd r) r.pms.length := by
  rw [shaftEnd_eq h]
  exact ⟨nd_cases (init_ok h), ndof_eq (init_ok h)⟩

/-- The elements of a constructed rotor are those of its element lists, each with an index. -/
theorem C17_elements (h : init pd fuel a = some (.ok r)) :
    r.placed.map Prod.fst = r.shaft.map .shaft ++ r.disks.map .disk ++ r.bearings.map .brg ++
      r.pms.map .pm := elements_eq' (init_ok h)

/-- The dof indices of an element: for each direction and node it acts on, in the order of its
matrices, the number of that degree of freedom. -/
theorem C17_index (h : init pd fuel a = some (.ok r)) {e : Elm} {g : Dict DofKey ℕ}
    (he : (e, g) ∈ r.placed) (hf : Fits r.number_dof e) :
    ∃ n, e.n = some n ∧
      g = (attach r.number_dof e n).map fun key => (key, slot r.number_dof (shaftEnd r) key) := by
  rw [shaftEnd_eq h]
  exact placed_eq (init_ok h) he hf

/-- **C17** (i) the indices of one element are pairwise distinct. -/
theorem C17_distinct (h : init pd fuel a = some (.ok r)) {e : Elm} {g : Dict DofKey ℕ}
    (he : (e, g) ∈ r.placed) : g.values.Nodup :=
  values_nodup (init_ok h) he

/-- **C17** (ii) an index of an element lies in `[0, ndof)` exactly when its node is a shaft node or
one of the supports. -/
theorem C17_range_partial (h : init pd fuel a = some (.ok r)) {e : Elm} {g : Dict DofKey ℕ}
    (he : (e, g) ∈ r.placed) (hf : Fits r.number_dof e) {l : String} {n i : ℕ}
    (hi : ((l, n), i) ∈ g) : i < r.ndof ↔ n ≤ shaftEnd r + r.pms.length := by
  have hb := init_ok h
  obtain ⟨m, hm, hg⟩ := placed_eq hb he hf
  simp only at hg hm
  rw [hg] at hi
  obtain ⟨key, hk, hkey⟩ := List.mem_map.1 hi
  obtain ⟨rfl, rfl⟩ := Prod.mk.inj hkey
  have hl := attach_letter hb (placed_mem hb he) hf hm hk
  rw [ndof_eq hb, shaftEnd_eq h]
  exact slot_lt_iff (nd_cases hb) hl

/-- **C17** (iii) two elements share an index exactly when they act on the same node and
direction. -/
theorem C17_shared_partial (h : init pd fuel a = some (.ok r)) {e e' : Elm} {g g' : Dict DofKey ℕ}
    (he : (e, g) ∈ r.placed) (he' : (e', g') ∈ r.placed)
    (hf : Fits r.number_dof e) (hf' : Fits r.number_dof e')
    {key key' : DofKey} {i i' : ℕ} (hi : (key, i) ∈ g) (hi' : (key', i') ∈ g') :
    i = i' ↔ key = key' := by
  have hb := init_ok h
  obtain ⟨m, hm, hg⟩ := placed_eq hb he hf
  obtain ⟨m', hm', hg'⟩ := placed_eq hb he' hf'
  simp only at hg hm hg' hm'
  rw [hg] at hi
  rw [hg'] at hi'
  obtain ⟨k, hk, hkey⟩ := List.mem_map.1 hi
  obtain ⟨k', hk', hkey'⟩ := List.mem_map.1 hi'
  obtain ⟨rfl, rfl⟩ := Prod.mk.inj hkey
  obtain ⟨rfl, rfl⟩ := Prod.mk.inj hkey'
  constructor
  · intro heq
    have h1 := attach_letter hb (placed_mem hb he) hf hm hk
    have h2 := attach_letter hb (placed_mem hb he') hf' hm' hk'
    exact slot_inj (nd_cases hb) (k := max k.2 k'.2) (isDof_of_le h1 (by omega))
      (isDof_of_le h2 (by omega)) heq
  · intro heq; rw [heq]

theorem placed_of_mem (_h : init pd fuel a = some (.ok r)) {e : Elm} (he : e ∈ r.elements) :
    ∃ g, (e, g) ∈ r.placed := by
  obtain ⟨x, hx, rfl⟩ := List.mem_map.1 he
  exact ⟨x.2, hx⟩

/-- **C17** (iv) when the shaft elements fill the nodes without gaps and the supports are the nodes
that follow, every index in `[0, ndof)` belongs to an element. -/
theorem C17_cover_partial (h : init pd fuel a = some (.ok r))
    (hsh : ∀ k, k < shaftEnd r → ∃ e ∈ r.shaft, e.s.n = some k)
    (hpm : ∀ k, shaftEnd r < k → k ≤ shaftEnd r + r.pms.length →
      ∃ p ∈ r.pms, p.n = some k ∧ PmFull r.number_dof p)
    {i : ℕ} (hi : i < r.ndof) : ∃ e g key, (e, g) ∈ r.placed ∧ (key, i) ∈ g := by
  have hb := init_ok h
  have hnd := nd_cases hb
  rw [ndof_eq hb, ← shaftEnd_eq h] at hi
  obtain ⟨⟨l, n⟩, hk, rfl⟩ := slot_surj hnd hi
  rcases hk with ⟨h1, h2⟩ | ⟨h1, h2, h3⟩
  · simp only at h1 h2
    have hpos : 0 < shaftEnd r := by rw [shaftEnd_eq h]; exact Nat.succ_pos _
    obtain ⟨e, he, hen⟩ := hsh (if n < shaftEnd r then n else n - 1) (by split_ifs <;> omega)
    obtain ⟨g, hg⟩ := placed_of_mem h ((mem_elements hb (.shaft e)).2 (Or.inl ⟨e, he, rfl⟩))
    obtain ⟨m, hm, hgm⟩ := placed_eq hb hg trivial
    simp only at hgm hm
    refine ⟨_, g, (l, n), hg, ?_⟩
    rw [hgm, shaftEnd_eq h]
    refine List.mem_map.2 ⟨(l, n), ?_, rfl⟩
    have hmn : m = if n < shaftEnd r then n else n - 1 := by
      have : e.s.n = some m := hm
      rw [hen] at this
      exact (Option.some.inj this).symm
    simp only [attach, List.mem_append, mem_dofsAt]
    split_ifs at hmn with hn
    · exact Or.inl ⟨h2, hmn.symm⟩
    · exact Or.inr ⟨h2, by omega⟩
  · simp only at h1 h2 h3
    obtain ⟨p, hp, hpn, hpf⟩ := hpm n h1 h2
    obtain ⟨g, hg⟩ := placed_of_mem h
      ((mem_elements hb (.pm p)).2 (Or.inr (Or.inr (Or.inr ⟨p, hp, rfl⟩))))
    have hf : Fits r.number_dof (.pm p) := by cases p <;> simp_all [Fits, PmFull]
    obtain ⟨m, hm, hgm⟩ := placed_eq hb hg hf
    simp only at hgm hm
    refine ⟨_, g, (l, n), hg, ?_⟩
    rw [hgm, shaftEnd_eq h]
    refine List.mem_map.2 ⟨(l, n), ?_, rfl⟩
    have hmn : n = m := by
      have : p.n = some m := hm
      rw [hpn] at this
      exact Option.some.inj this
    subst hmn
    cases p with
    | pm p =>
      have h4 : r.number_dof = 4 := hpf
      rw [h4] at h3
      exact mem_dofsAt.2 ⟨h3, rfl⟩
    | pm6 p =>
      have h4 : r.number_dof = 6 := hpf
      rw [h4] at h3
      exact mem_dofsAt.2 ⟨h3, rfl⟩

/-! ### Where the claim fails -/

/-- A 6-dof point mass on the support of a 4-dof rotor. -/
noncomputable def exArgs6 : RotorArgs :=
  { exArgs with pms := [.pm6 ⟨some 3, 10, 10, 10, none, ""⟩] }

theorem exArgs6_wf : WellFormed false 2 exArgs6 :=
  { exArgs_wf with
    brg_on := by
      intro e he; simp [exArgs6, exArgs] at he
      rcases he with rfl | rfl | rfl
      · right; exact ⟨_, List.mem_cons_self, rfl⟩
      · left; norm_num [BrgEl.n, BrgEl.base, exBrg]
      · left; norm_num [BrgEl.n, BrgEl.base, exBrg]
    pm_on := by
      intro p hp; simp [exArgs6] at hp; subst hp
      exact ⟨_, List.mem_cons_self, rfl⟩
    tags := by decide }

/-- A 6-dof point mass on a shaft node of a 4-dof rotor. -/
noncomputable def exArgs60 : RotorArgs :=
  { exArgs with pms := [.pm6 ⟨some 0, 10, 10, 10, none, ""⟩, .pm ⟨some 3, some 10, 10, 10, none, ""⟩] }

theorem exArgs60_wf : WellFormed false 2 exArgs60 :=
  { exArgs_wf with
    brg_on := by
      intro e he; simp [exArgs60, exArgs] at he
      rcases he with rfl | rfl | rfl
      · right; exact ⟨_, List.mem_cons_of_mem _ List.mem_cons_self, rfl⟩
      · left; norm_num [BrgEl.n, BrgEl.base, exBrg]
      · left; norm_num [BrgEl.n, BrgEl.base, exBrg]
    pm_on := by
      intro p hp; simp [exArgs60] at hp
      rcases hp with rfl | rfl
      · exact ⟨_, List.mem_cons_of_mem _ List.mem_cons_self, rfl⟩
      · exact ⟨_, List.mem_cons_self, rfl⟩
    tags := by decide }

/-- A bearing linked to a node that does not exist. -/
noncomputable def exArgsL : RotorArgs :=
  { exArgs with bearings := [.brg false (exBrg 3 (some 99) 1e7 10),
      .brg false (exBrg 0 (some 3) 1e6 100), .brg true (exBrg 2 none 1e6 100)] }

theorem exArgsL_wf : WellFormed false 2 exArgsL :=
  { exArgs_wf with
    brg_six := by
      intro e he; simp [exArgsL] at he
      rcases he with rfl | rfl | rfl <;> rfl
    brg_nodes := by simp [exArgsL, BrgEl.n, BrgEl.base, exBrg]
    brg_on := by
      intro e he; simp [exArgsL] at he
      rcases he with rfl | rfl | rfl
      · right; exact ⟨_, List.mem_cons_self, rfl⟩
      · left; norm_num [BrgEl.n, BrgEl.base, exBrg]
      · left; norm_num [BrgEl.n, BrgEl.base, exBrg]
    brg_linked := by
      intro e he h; simp [exArgsL] at he
      rcases he with rfl | rfl | rfl
      · exact ⟨_, List.mem_cons_of_mem _ List.mem_cons_self, rfl⟩
      · norm_num [BrgEl.n, BrgEl.base, exBrg] at h
      · norm_num [BrgEl.n, BrgEl.base, exBrg] at h
    brg_order := by
      intro e he c hc h hl; simp [exArgsL] at he hc
      rcases he with rfl | rfl | rfl <;> rcases hc with rfl | rfl | rfl <;>
        simp [BrgEl.n, BrgEl.n_link, BrgEl.base, exBrg] at h hl ⊢
    pm_on := by
      intro p hp; simp [exArgsL, exArgs] at hp; subst hp
      exact ⟨_, List.mem_cons_self, rfl⟩
    tags := by decide }

theorem lastShaftNode_full {N : ℕ} (hf : Full r.shaft N) : lastShaftNode r = N := hf.last

/-- The constructor accepts a 6-dof point mass in a 4-dof rotor; its axial index is not below
`ndof`. -/
theorem C17_disagree_range : ∃ pd fuel a r, init pd fuel a = some (.ok r) ∧
    ∃ x ∈ r.placed, ∃ i ∈ x.2.values, ¬ i < r.ndof := by
  obtain ⟨r, h1, h2, h3, h4⟩ := accepts exPandas_sorts exArgs6_wf (fuel := 10)
    (by simp [exArgs6, exArgs])
  have hb := init_ok h1
  have hm : (Elm.pm (.pm6 ⟨some 3, 10, 10, 10, some "Point Mass 0", ""⟩)) ∈ r.elements := by
    rw [mem_elements hb, hb.pms]
    exact Or.inr (Or.inr (Or.inr ⟨_, List.mem_cons_self, rfl⟩))
  obtain ⟨x, hx, hxe⟩ := List.mem_map.1 hm
  obtain ⟨n, hn, hg⟩ := (place_ok hb.placed).2 x hx
  have hlen : r.pms.length = 1 := by rw [hb.pms]; rfl
  have hl := h4.last
  rw [hxe] at hn hg
  have hn3 : n = 3 := (Option.some.inj hn).symm
  have hl1 : lastNode r.shaft = 1 := by omega
  refine ⟨exPandas, 10, exArgs6, r, h1, x, hx, 14, ?_, ?_⟩
  · have hl2 : (Elm.pm (.pm6 ⟨some 3, 10, 10, 10, some "Point Mass 0", ""⟩)).n_link = none := rfl
    rw [hg, hl2, globalDofs_none _ _ _ _ (dofMapping_keys _), hn3, hl1, h2]
    simp [Elm.dofMapping, Dict.values, base]
  · rw [ndof_eq hb, h2, hlen, lastShaftNode_full h4]
    simp [size]

/-- The constructor accepts a bearing linked to a node that does not exist; its index is not below
`ndof`. -/
theorem C17_disagree_link : ∃ pd fuel a r, init pd fuel a = some (.ok r) ∧
    ∃ e g, (e, g) ∈ r.placed ∧ Fits r.number_dof e ∧ ∃ i ∈ g.values, ¬ i < r.ndof := by
  obtain ⟨r, h1, h2, h3, h4⟩ := accepts exPandas_sorts exArgsL_wf (fuel := 10)
    (by simp [exArgsL, exArgs])
  have hb := init_ok h1
  have hm : Elm.brg ((BrgEl.brg false (exBrg 3 (some 99) 1e7 10)).setTag (some "Bearing 0")) ∈
      r.elements := by
    rw [mem_elements hb, hb.bearings]
    refine Or.inr (Or.inr (Or.inl ⟨_, (parts_br_perm _).mem_iff.2 List.mem_cons_self, rfl⟩))
  obtain ⟨x, hx, hxe⟩ := List.mem_map.1 hm
  have hf : Fits r.number_dof x.1 := by rw [hxe]; trivial
  have hlen : r.pms.length = 1 := by rw [hb.pms]; rfl
  have hse : shaftEnd r = 2 := by rw [shaftEnd_eq h1, lastShaftNode_full h4]
  obtain ⟨n, hn, hg⟩ := placed_eq hb hx hf
  rw [hxe] at hn
  have hn3 : n = 3 := (Option.some.inj hn).symm
  refine ⟨exPandas, 10, exArgsL, r, h1, x.1, x.2, hx, hf, slot 4 2 ("x", 99), ?_, ?_⟩
  · rw [hg, lastShaftNode_full h4, h2, hxe]
    refine List.mem_map.2 ⟨(("x", 99), slot 4 2 ("x", 99)), List.mem_map.2 ⟨("x", 99), ?_, rfl⟩, rfl⟩
    subst hn3
    simp [attach, BrgEl.n_link, BrgEl.setTag, BrgEl.base, exBrg, dofsAt, supportLetters]
  · rw [ndof_eq hb, h2, hlen, lastShaftNode_full h4]
    simp [size, slot]
    omega

/-- The constructor accepts a 6-dof point mass on a shaft node of a 4-dof rotor; its axial motion
and a rotation of the shaft get the same index. -/
theorem C17_disagree_shared : ∃ pd fuel a r, init pd fuel a = some (.ok r) ∧
    ∃ e g e' g' key key' i, (e, g) ∈ r.placed ∧ (e', g') ∈ r.placed ∧ (key, i) ∈ g ∧
      (key', i) ∈ g' ∧ key ≠ key' := by
  obtain ⟨r, h1, h2, h3, h4⟩ := accepts exPandas_sorts exArgs60_wf (fuel := 10)
    (by simp [exArgs60, exArgs])
  have hb := init_ok h1
  have hm : (Elm.pm (.pm6 ⟨some 0, 10, 10, 10, some "Point Mass 0", ""⟩)) ∈ r.elements := by
    rw [mem_elements hb, hb.pms]
    exact Or.inr (Or.inr (Or.inr ⟨_, List.mem_cons_self, rfl⟩))
  obtain ⟨x, hx, hxe⟩ := List.mem_map.1 hm
  obtain ⟨n, hn, hg⟩ := (place_ok hb.placed).2 x hx
  rw [hxe] at hn hg
  have hn0 : n = 0 := (Option.some.inj hn).symm
  obtain ⟨e, he, he0⟩ := (h4.nodes 0).2 (by norm_num)
  obtain ⟨g', hg'⟩ := placed_of_mem h1 ((mem_elements hb (.shaft e)).2 (Or.inl ⟨e, he, rfl⟩))
  obtain ⟨m, hm, hgm⟩ := placed_eq hb hg' trivial
  simp only at hm hgm
  have hm0 : m = 0 := by
    have : e.s.n = some m := hm
    rw [nodeOf, this] at he0; exact he0
  refine ⟨exPandas, 10, exArgs60, r, h1, x.1, x.2, .shaft e, g', ("z", 0), ("alpha", 0), 2, hx, hg',
    ?_, ?_, by decide⟩
  · have hl2 : (Elm.pm (.pm6 ⟨some 0, 10, 10, 10, some "Point Mass 0", ""⟩)).n_link = none := rfl
    rw [hg, hl2, globalDofs_none _ _ _ _ (dofMapping_keys _), hn0, h2]
    simp [Elm.dofMapping, base]
  · rw [hgm, hm0, h2]
    refine List.mem_map.2 ⟨("alpha", 0), ?_, ?_⟩
    · simp [attach, dofsAt, nodeLetters]
    · simp [slot, nodeLetters]

/-- The hypotheses above are met: a rotor with a disk, a support and three bearings is constructed,
fits, and its shaft and supports leave no gap. -/
example : ∃ r, init exPandas 10 exArgs = some (.ok r) ∧ r.ndof = 14 ∧
    (∀ x ∈ r.placed, Fits r.number_dof x.1) ∧
    (∀ k, k < shaftEnd r → ∃ e ∈ r.shaft, e.s.n = some k) ∧
    (∀ k, shaftEnd r < k → k ≤ shaftEnd r + r.pms.length →
      ∃ p ∈ r.pms, p.n = some k ∧ PmFull r.number_dof p) := by
  obtain ⟨r, h1, h2, h4⟩ := exRotor_exists
  have hb := init_ok h1
  have hlen : r.pms.length = 1 := by rw [hb.pms]; rfl
  have hse : shaftEnd r = 2 := by rw [shaftEnd_eq h1, lastShaftNode_full h4]
  refine ⟨r, h1, ?_, ?_, ?_, ?_⟩
  · rw [(C17_ndof h1).2, h2, hlen, hse]; rfl
  · intro x hx
    rcases (mem_elements hb x.1).1 (placed_mem hb hx) with ⟨s, hs, h⟩ | ⟨s, hs, h⟩ | ⟨s, hs, h⟩ |
      ⟨p, hp, h⟩
    · rw [h]; trivial
    · rw [h]; trivial
    · rw [h]; trivial
    · rw [hb.pms] at hp
      simp only [parts, tagPms, exArgs, List.mapIdx_cons, List.mapIdx_nil, List.mem_singleton] at hp
      rw [h, hp]; trivial
  · intro k hk
    rw [hse] at hk
    obtain ⟨e, he, hek⟩ := (h4.nodes k).2 hk
    refine ⟨e, he, ?_⟩
    rw [hb.shaft] at he
    rw [parts_sh_n he, hek]
  · intro k hk hk'
    have : k = 3 := by omega
    subst this
    have hp : PmEl.pm ⟨some 3, some 10, 10, 10, some "Point Mass 0", ""⟩ ∈ r.pms := by
      rw [hb.pms]; exact List.mem_cons_self
    exact ⟨_, hp, rfl, h2⟩

end Ross.Props
