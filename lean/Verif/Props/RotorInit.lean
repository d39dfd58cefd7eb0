import Mathlib.Data.Finset.Sort
import Verif.Lemmas.Term
import Verif.Lemmas.ExRotor
import Verif.Lemmas.ExAssembly
import Verif.Props.RotorDofs
import Verif.Spec.Work

/-! # C20, C21, C22: positions, tags and failures of the rotor constructor -/

namespace Ross.Props

open Ross Ross.Spec Ross.RotorLemmas Ross.BearingLemmas Ross.Rotor

variable {pd : Pandas} {fuel : ℕ} {a : RotorArgs} {r : Rotor}

theorem shaft_ne (h : init pd fuel a = some (.ok r)) : r.shaft ≠ [] := by
  have := (init_ok h).dof
  intro h0
  rw [h0] at this
  simp [checkNumberDof] at this

theorem shaft_sorted (h : init pd fuel a = some (.ok r)) :
    r.shaft.Pairwise fun x y => nodeOf x ≤ nodeOf y := by
  rw [(init_ok h).shaft]; exact parts_sh_sorted a

/-- **C20** one position for every node where a shaft element starts, in increasing order, and one
for the end of the shaft; the position of a node is the sum of the lengths of the layers to its
left. -/
theorem C20_nodes (h : init pd fuel a = some (.ok r)) :
    r.nodes_pos = ((leftNodes r.shaft).sort (· ≤ ·) ++ [shaftEnd r]).map (position r.shaft) ∧
      r.L = position r.shaft (shaftEnd r) := by
  have hb := init_ok h
  have hse : lastNode r.shaft + 1 = shaftEnd r := by
    rw [AssemblyLemmas.shaftEnd_last h]; rfl
  have hg : groups r.shaft = (leftNodes r.shaft).sort (· ≤ ·) := by
    refine List.Perm.eq_of_pairwise (le := (· < ·)) (fun a b _ _ h1 h2 => by omega)
      (groups_sorted (shaft_sorted h)) (Finset.sortedLT_sort _).pairwise ?_
    rw [List.perm_ext_iff_of_nodup (show (groups r.shaft).Nodup from List.nodup_dedup _)
      (Finset.sort_nodup _ _)]
    intro k
    rw [mem_groups, Finset.mem_sort]
  refine ⟨?_, ?_⟩
  · rw [hb.pos, nodesPos_eq (shaft_ne h) (shaft_sorted h), hg, hse]
  · rw [hb.L, hb.pos, last_pos (shaft_ne h) (shaft_sorted h), hse]

/-- **C20** shaft elements without a given node lie end to end from 0: the `k`-th position is the sum
of the first `k` lengths, and `L` is the sum of all. -/
theorem C20_auto (h : init pd fuel a = some (.ok r)) (hn : ∀ e ∈ shaftList a, e.s.n = none) :
    r.nodes_pos = (List.range ((shaftList a).length + 1)).map
      (fun k => (((shaftList a).take k).map fun e => e.s.L).sum) ∧
    r.L = ((shaftList a).map fun e => e.s.L).sum := by
  have hb := init_ok h
  set l := shaftList a with hl
  have hgiven : (parts a).sh₀.map nodeOf = List.range l.length := by
    rw [numberShaft_nodes, givenNodes, ← hl]
    refine List.ext_getElem (by simp) fun i h1 h2 => ?_
    have hi : i < l.length := by simpa using h2
    simp [hn (l[i]'hi) (List.getElem_mem _)]
  have hnodup : (r.shaft.map nodeOf).Nodup := by
    rw [hb.shaft, ((parts_sh_perm a).map _).nodup_iff, hgiven]
    exact List.nodup_range
  have hleft : leftNodes r.shaft = Finset.range l.length := by
    ext k
    rw [mem_leftNodes, Finset.mem_range, ← List.mem_range, ← hgiven, List.mem_map, hb.shaft]
    constructor
    · rintro ⟨e, he, rfl⟩; exact ⟨e, (parts_sh_perm a).mem_iff.1 he, rfl⟩
    · rintro ⟨e, he, rfl⟩; exact ⟨e, (parts_sh_perm a).mem_iff.2 he, rfl⟩
  have hlayer : ∀ k (hk : k < l.length), layerLength r.shaft k = l[k].s.L := by
    intro k hk
    have hmem : (numberShaft l).length = l.length := by simp [numberShaft]
    have h0 : (numberShaft l)[k]'(by rw [hmem]; exact hk) ∈ r.shaft := by
      rw [hb.shaft]
      exact (parts_sh_perm a).mem_iff.2 (List.getElem_mem _)
    set e := (numberShaft l)[k]'(by rw [hmem]; exact hk) with he
    have hnode : nodeOf e = k := by
      simp [he, numberShaft, nodeOf, hn l[k] (List.getElem_mem _)]
    have hL : e.s.L = l[k].s.L := by simp [he, numberShaft]
    unfold layerLength
    rw [leftNode_eq]
    cases hf : r.shaft.find? fun e => nodeOf e = k with
    | none => exact absurd hnode (by simpa using List.find?_eq_none.1 hf e h0)
    | some x =>
      have hx := List.mem_of_find?_eq_some hf
      have hxk : nodeOf x = k := by simpa using List.find?_some hf
      have : x = e := List.inj_on_of_nodup_map hnodup hx h0 (by rw [hxk, hnode])
      rw [← hL, ← this]; rfl
  have hpos : ∀ k ≤ l.length, position r.shaft k = ((l.take k).map fun e => e.s.L).sum := by
    intro k hk
    unfold position
    rw [hleft]
    have : (Finset.range l.length).filter (fun x => x < k) = Finset.range k := by
      ext x; simp; omega
    rw [this]
    clear this
    induction k with
    | zero => simp
    | succ k ih =>
      rw [Finset.sum_range_succ, ih (by omega), hlayer k (by omega),
        List.take_succ_eq_append_getElem (by omega), List.map_append, List.sum_append]
      simp
  have hlen : 0 < l.length := by
    have := shaft_ne h
    rw [hb.shaft] at this
    have h2 := (parts_sh_perm a).length_eq
    have h3 : (parts a).sh₀.length = l.length := by simp [parts, numberShaft, hl, shaftList]
    rw [← h3, ← h2]; exact List.length_pos_iff.2 this
  have hse : shaftEnd r = l.length := by
    rw [AssemblyLemmas.shaftEnd_last h, lastShaftNode, hb.shaft, lastNode_eq, hgiven]
    have h1 : maxOr0 (List.range l.length) ≤ l.length - 1 :=
      maxOr0_le.2 fun y hy => by have := List.mem_range.1 hy; omega
    have h2 : l.length - 1 ≤ maxOr0 (List.range l.length) :=
      le_maxOr0 (List.mem_range.2 (by omega))
    omega
  obtain ⟨h1, h2⟩ := C20_nodes h
  have hsort : (Finset.range l.length).sort (· ≤ ·) = List.range l.length := by
    refine List.Perm.eq_of_pairwise (le := (· < ·)) (fun a b _ _ h1 h2 => by omega)
      (Finset.sortedLT_sort _).pairwise List.pairwise_lt_range ?_
    rw [List.perm_ext_iff_of_nodup (Finset.sort_nodup _ _) List.nodup_range]
    intro k; simp
  constructor
  · rw [h1, hleft, hsort, hse, ← List.range_succ]
    refine List.map_congr_left fun k hk => hpos k ?_
    have := List.mem_range.1 hk; omega
  · rw [h2, hse, hpos _ le_rfl, List.take_length]

/-- **C20** elements that share a left node start at the same position: the centre of gravity of a
shaft element is measured from the position of its left node. -/
theorem C20_layers (h : init pd fuel a = some (.ok r)) :
    r.axial_cg_pos = r.shaft.map fun e => e.s.beam_cg + position r.shaft (leftNode e) := by
  rw [(init_ok h).cg, axialCg_eq (shaft_sorted h)]
  rfl

/-- **C20** the centre of gravity of a rotor whose shaft elements fill the nodes without gaps is the
mass-weighted mean of the positions of shaft elements and disks. -/
theorem C20_CG (h : init pd fuel a = some (.ok r))
    (hfill : ∀ k < shaftEnd r, ∃ e ∈ r.shaft, e.s.n = some k) (_hm : r.m ≠ 0) :
    r.CG = ((r.shaft.map fun e => e.s.m * (e.s.beam_cg + position r.shaft (leftNode e))).sum +
      (r.disks.map fun e => e.d.m * position r.shaft e.d.n).sum) /
        ((r.shaft.map fun e => e.s.m).sum + (r.disks.map fun e => e.d.m).sum) := by
  have hb := init_ok h
  obtain ⟨dkpos, h1, h2⟩ := hb.CG
  have hleft : leftNodes r.shaft = Finset.range (shaftEnd r) := by
    ext k
    rw [mem_leftNodes, Finset.mem_range]
    constructor
    · rintro ⟨e, he, rfl⟩
      have := le_maxOr0 (List.mem_map.2 ⟨e, he, rfl⟩ :
        nodeOf e + 1 ∈ r.shaft.map fun e => nodeOf e + 1)
      exact this
    · intro hk
      obtain ⟨e, he, hek⟩ := hfill k hk
      exact ⟨e, he, by simp [nodeOf, hek]⟩
  have hsort : (Finset.range (shaftEnd r)).sort (· ≤ ·) = List.range (shaftEnd r) := by
    refine List.Perm.eq_of_pairwise (le := (· < ·)) (fun a b _ _ h1 h2 => by omega)
      (Finset.sortedLT_sort _).pairwise List.pairwise_lt_range ?_
    rw [List.perm_ext_iff_of_nodup (Finset.sort_nodup _ _) List.nodup_range]
    intro k; simp
  have hdk : dkpos = r.disks.map fun e => position r.shaft e.d.n := by
    have h3 := (mapM_ok_iff _ _ _).1 h1
    rw [(C20_nodes h).1, hleft, hsort, ← List.range_succ] at h3
    clear h1 h2
    generalize r.disks = dks at h3 ⊢
    induction dks generalizing dkpos with
    | nil => simpa using h3.symm
    | cons d t ih =>
      cases dkpos with
      | nil => simp at h3
      | cons z zs =>
      rw [List.map_cons, List.map_cons, List.cons.injEq] at h3
      obtain ⟨hz, h3⟩ := h3
      rw [List.map_cons, ih _ h3]
      congr 1
      unfold posAt at hz
      rw [List.getElem?_map] at hz
      by_cases hd : d.d.n < shaftEnd r + 1
      · rw [List.getElem?_range hd] at hz
        exact (Except.ok.inj hz).symm
      · rw [List.getElem?_eq_none (by simp; omega)] at hz
        cases hz
  have hsum : ∀ {α : Type} (l : List α) (f : α → ℝ),
      (l.map fun x => f x / r.m).sum = (l.map f).sum / r.m := by
    intro α l f
    induction l with
    | nil => simp
    | cons x t ih => simp only [List.map_cons, List.sum_cons, ih]; ring
  rw [h2, centre, axialCg_eq (shaft_sorted h), hdk, zip_self_map, zip_self_map, List.map_map,
    List.map_map]
  have e1 : ((fun x : ShaftEl × ℝ => x.1.s.m * x.2 / r.m) ∘
      fun e => (e, e.s.beam_cg + position r.shaft (nodeOf e))) =
      fun e => (e.s.m * (e.s.beam_cg + position r.shaft (leftNode e))) / r.m := rfl
  have e2 : ((fun x : DiskEl × ℝ => x.1.d.m * x.2 / r.m) ∘
      fun e => (e, position r.shaft e.d.n)) =
      fun e => (e.d.m * position r.shaft e.d.n) / r.m := rfl
  rw [e1, e2, hsum, hsum, ← add_div]
  congr 1
  rw [hb.m, hb.m_disks, hb.m_shaft, add_comm]

/-- **C21** in a constructed rotor every element has a tag, the tags are those of the description
(given or default), and they are pairwise distinct. -/
theorem C21_tags (h : init pd fuel a = some (.ok r)) :
    (r.elements.map Elm.tag).Perm ((allTags a).map some) ∧ (allTags a).Nodup ∧
      (∀ e ∈ r.elements, e.tag.isSome) ∧
      ∀ e ∈ r.elements, ∀ e' ∈ r.elements, e.tag = e'.tag → e = e' := by
  have hb := init_ok h
  have he : r.elements = (parts a).elements := by
    rw [elements_eq' hb, hb.shaft, hb.disks, hb.bearings, hb.pms]; rfl
  have hp : (r.elements.map Elm.tag).Perm ((allTags a).map some) := he ▸ tags_perm a
  refine ⟨hp, ?_, ?_, ?_⟩
  · have := hb.tags
    rw [(tags_perm a).nodup_iff] at this
    exact List.Nodup.of_map _ this
  · intro e hem
    have := hp.mem_iff.1 (List.mem_map.2 ⟨e, hem, rfl⟩)
    obtain ⟨t, -, ht⟩ := List.mem_map.1 this
    rw [← ht]; rfl
  · intro e hem e' hem' ht
    exact List.inj_on_of_nodup_map (he ▸ hb.tags) hem hem' ht

/-- **C21** a repeated tag is refused with `ValueError`. -/
theorem C21_duplicate (h : ¬ (allTags a).Nodup) : init pd fuel a = some (.error .valueError) := by
  have : ¬ ((parts a).elements.map Elm.tag).Nodup := by
    rw [(tags_perm a).nodup_iff]
    exact fun h' => h (List.Nodup.of_map _ h')
  unfold init build
  simp only [this, not_false_eq_true, if_true]

/-- **C22** construction always ends: the loop over the bearings takes at most one step per bearing
and two more. -/
theorem C22_terminates (pd : Pandas) (a : RotorArgs) :
    ∃ res, ∀ fuel, a.bearings.length + 2 ≤ fuel → init pd fuel a = some res := by
  obtain ⟨res, h⟩ := init_ends pd a le_rfl
  exact ⟨res, fun fuel hf => init_fuel h hf⟩

theorem mem_parts_sh {e : ShaftEl} (h : e ∈ (parts a).sh) : nodeOf e ∈ givenNodes a := by
  rw [← numberShaft_nodes]
  exact List.mem_map.2 ⟨e, (parts_sh_perm a).mem_iff.1 h, rfl⟩

/-- **C22** a disk or bearing beyond the shaft and all point masses is refused with
`ValueError`. -/
theorem C22_outside {six : Bool} (ht : (allTags a).Nodup) (hs : SameDofs six a) {k : ℕ}
    (hk : (∃ e ∈ a.disks, e.d.n = k) ∨ ∃ b ∈ a.bearings, b.n = k)
    (hsh : ∀ m ∈ givenNodes a, m + 1 < k) (hpm : ∀ p ∈ a.pms, ∀ n, p.n = some n → n < k) :
    init pd fuel a = some (.error .valueError) := by
  have htags : ((parts a).elements.map Elm.tag).Nodup :=
    (tags_perm a).nodup_iff.2 (ht.map (Option.some_injective _))
  have hout : outside (parts a).sh (parts a).dk (parts a).br (parts a).pm = true := by
    unfold outside
    simp only [decide_eq_true_eq]
    have hmem : k ∈ (parts a).sh.map nodeOf ++ (parts a).dk.map (·.d.n) ++
        (parts a).br.map BrgEl.n := by
      rcases hk with ⟨e, he, rfl⟩ | ⟨b, hb, rfl⟩
      · refine List.mem_append_left _ (List.mem_append_right _ ?_)
        obtain ⟨i, hi, rfl⟩ := List.mem_iff_getElem.1 he
        exact List.mem_map.2 ⟨_, List.mem_mapIdx.2 ⟨i, hi, rfl⟩, rfl⟩
      · refine List.mem_append_right _ ?_
        obtain ⟨c, hc, hcn, -⟩ := tagBearings_mem hb
        exact List.mem_map.2 ⟨c, (parts_br_perm a).mem_iff.2 hc, hcn⟩
    refine lt_of_lt_of_le ?_ (le_maxOr0 hmem)
    have hkpos : 0 < k := by
      obtain ⟨e, he⟩ := List.exists_mem_of_ne_nil _ hs.ne
      obtain ⟨i, hi, rfl⟩ := List.mem_iff_getElem.1 he
      have := hsh _ (List.mem_mapIdx.2 ⟨i, hi, rfl⟩)
      omega
    have h1 : maxOr0 ((parts a).sh.map fun e => nodeOf e + 1) ≤ k - 1 := by
      refine maxOr0_le.2 fun y hy => ?_
      obtain ⟨e, he, rfl⟩ := List.mem_map.1 hy
      have := hsh _ (mem_parts_sh he)
      omega
    have h2 : maxOr0 ((parts a).pm.filterMap PmEl.n) ≤ k - 1 := by
      refine maxOr0_le.2 fun y hy => ?_
      obtain ⟨p, hp, hpn⟩ := List.mem_filterMap.1 hy
      obtain ⟨q, hq, hqn⟩ := mem_tagPms hp
      have := hpm q hq y (by rw [← hqn, hpn])
      omega
    omega
  unfold init build
  dsimp only
  rw [if_neg (not_not.2 htags), check_same hs]
  have : buildFrom pd a (parts a) (if six then 6 else 4) = .error .valueError := by
    unfold buildFrom
    dsimp only
    rw [if_pos hout]
  simp only [Except.bind, bind, this]

/-- **C22** a disk beyond the end of a shaft without gaps is refused, even when point masses have
higher nodes. -/
theorem C22_disk_off_shaft {N : ℕ} (hn : ∀ k, k ∈ givenNodes a ↔ k < N)
    {e : DiskEl} (he : e ∈ a.disks) (hlt : N < e.d.n) :
    ∃ err, ∀ fuel, init pd fuel a = some (.error err) := by
  cases hb : build pd a with
  | error err => exact ⟨err, fun fuel => by unfold init; rw [hb]⟩
  | ok r =>
    exfalso
    have hb := build_ok hb
    obtain ⟨dkpos, h1, -⟩ := hb.CG
    obtain ⟨i, hi, rfl⟩ := List.mem_iff_getElem.1 he
    have hmem : ((parts a).dk)[i]'(by simpa [parts, tagDisks] using hi) ∈ r.disks := by
      rw [hb.disks]; exact List.getElem_mem _
    have h2 := (mapM_ok_iff _ _ _).1 h1
    have h3 := List.mem_map_of_mem (f := fun e : DiskEl => posAt r.nodes_pos e.d.n) hmem
    rw [h2] at h3
    obtain ⟨z, -, hz⟩ := List.mem_map.1 h3
    have hsh : r.shaft ≠ [] := by
      intro h0
      have := hb.dof
      rw [h0] at this
      simp [checkNumberDof] at this
    have hlen : r.nodes_pos.length ≤ N + 1 := by
      rw [hb.pos, nodesPos_eq hsh (by rw [hb.shaft]; exact parts_sh_sorted a)]
      simp only [List.length_map, List.length_append, List.length_singleton]
      have : (groups r.shaft).length ≤ N := by
        have hsub : groups r.shaft ⊆ List.range N := by
          intro k hk
          rw [mem_groups, mem_leftNodes] at hk
          obtain ⟨e, he, rfl⟩ := hk
          rw [List.mem_range, ← hn]
          rw [hb.shaft] at he
          exact mem_parts_sh he
        have := (List.subperm_of_subset (List.nodup_dedup _) hsub).length_le
        simpa [groups] using this
      omega
    unfold posAt at hz
    have hd : ((parts a).dk[i]'(by simpa [parts, tagDisks] using hi)).d.n = a.disks[i].d.n := by
      simp [parts, tagDisks]
    rw [hd, List.getElem?_eq_none (by omega)] at hz
    cases hz

theorem build_placed {six : Bool} {N : ℕ} (ht : (allTags a).Nodup) (hs : SameDofs six a)
    (hp : PlacedWell N a) {e : PyErr} (h : build pd a = .error e) : e = .valueError := by
  have htags : ((parts a).elements.map Elm.tag).Nodup :=
    (tags_perm a).nodup_iff.2 (ht.map (Option.some_injective _))
  unfold build at h
  dsimp only at h
  rw [if_neg (not_not.2 htags), check_same hs] at h
  simp only [Except.bind, bind] at h
  unfold buildFrom at h
  dsimp only at h
  by_cases hout : outside (parts a).sh (parts a).dk (parts a).br (parts a).pm = true
  · rw [if_pos hout] at h; cases h; rfl
  exfalso
  rw [if_neg hout] at h
  have hleft : ∀ k, k ∈ groups (parts a).sh ↔ k < N := by
    intro k
    rw [← hp.nodes, mem_groups, mem_leftNodes, ← numberShaft_nodes, List.mem_map]
    constructor
    · rintro ⟨e, he, rfl⟩; exact ⟨e, (parts_sh_perm a).mem_iff.1 he, rfl⟩
    · rintro ⟨e, he, rfl⟩; exact ⟨e, (parts_sh_perm a).mem_iff.2 he, rfl⟩
  have hglen : (groups (parts a).sh).length = N := by
    have : (groups (parts a).sh).Perm (List.range N) := by
      rw [List.perm_ext_iff_of_nodup (show (groups _).Nodup from List.nodup_dedup _) List.nodup_range]
      intro k; rw [hleft, List.mem_range]
    simpa using this.length_eq
  have hlen : (nodesPos (parts a).sh).length = N + 1 := by
    unfold nodesPos; simp [hglen]
  obtain ⟨dkpos, hdk⟩ := mapM_ok_of (f := fun e : DiskEl => posAt (nodesPos (parts a).sh) e.d.n)
    (l := (parts a).dk) (by
      intro d hd
      obtain ⟨x, hx, -, hxn⟩ := mem_tagDisks hd
      have := hp.disk_on x hx
      unfold posAt
      rw [List.getElem?_eq_getElem (by omega)]
      exact ⟨_, rfl⟩)
  obtain ⟨pl, hpl⟩ := mapM_ok_of
    (f := place (if six then 6 else 4) (lastNode (parts a).sh)) (l := (parts a).elements) (by
      intro e he
      have : ∃ n, e.n = some n := by
        simp only [Parts.elements, List.mem_append, List.mem_map] at he
        rcases he with ((⟨e, he, rfl⟩ | ⟨e, he, rfl⟩) | ⟨e, he, rfl⟩) | ⟨e, he, rfl⟩
        · exact ⟨_, parts_sh_n he⟩
        · exact ⟨_, rfl⟩
        · exact ⟨_, rfl⟩
        · obtain ⟨q, hq, hqn⟩ := mem_tagPms he
          obtain ⟨n, hn⟩ := Option.isSome_iff_exists.1 (hp.pm_node q hq)
          exact ⟨n, by rw [← hn, ← hqn]; rfl⟩
      obtain ⟨n, hn⟩ := this
      exact ⟨_, by unfold place; rw [hn]⟩)
  rw [hdk, hpl] at h
  cases h

/-- **C22** a bearing whose node carries no shaft element, disk or other bearing and to which no
other bearing is linked is refused with `ValueError`. -/
theorem C22_unconnected (hpd : SortsRows pd) {six : Bool} {N : ℕ} (ht : (allTags a).Nodup)
    (hs : SameDofs six a) (hp : PlacedWell N a) {b : BrgEl} {l₁ l₂ : List BrgEl}
    (hb : a.bearings = l₁ ++ b :: l₂) (hN : N < b.n)
    (hbr : ∀ c ∈ l₁ ++ l₂, c.n ≠ b.n ∧ c.n_link ≠ some b.n)
    (hf : a.bearings.length + 2 ≤ fuel) :
    init pd fuel a = some (.error .valueError) := by
  unfold init
  cases h : build pd a with
  | error e => simp only [build_placed ht hs hp h]
  | ok r =>
    have hbu := build_ok h
    have hi : l₁.length < a.bearings.length := by rw [hb]; simp
    have hget : a.bearings[l₁.length] = b := by simp [hb]
    have hlt : l₁.length < (tagBearings a.bearings).length := by simpa [tagBearings] using hi
    set b' := (tagBearings a.bearings)[l₁.length] with hb'
    have hb'n : b'.n = b.n := by
      simp only [hb', tagBearings, List.getElem_mapIdx, setTag_n, hget]
    have hb'm : b' ∈ r.bearings := by
      rw [hbu.bearings]; exact (parts_br_perm a).mem_iff.2 (List.getElem_mem _)
    have hlen : r.bearings.length = a.bearings.length := by
      rw [hbu.bearings, (parts_br_perm a).length_eq]; simp [tagBearings]
    have hun := unconnected hpd h hb'm (fuel := fuel) ?_ ?_ ?_ (by omega)
    · simp only [hun]
    · intro e he
      rw [hbu.shaft] at he
      have := (hp.nodes _).1 (mem_parts_sh he)
      rw [hb'n]; omega
    · intro e he
      rw [hbu.disks] at he
      obtain ⟨x, hx, -, hxn⟩ := mem_tagDisks he
      have := hp.disk_on x hx
      rw [hb'n]; omega
    · intro c hc htag
      rw [hbu.bearings] at hc
      obtain ⟨j, hj, hcj⟩ := List.mem_iff_getElem.1 ((parts_br_perm a).mem_iff.1 hc)
      have hj' : j < a.bearings.length := by simpa [tagBearings] using hj
      have hne : j ≠ l₁.length := by
        intro h0
        subst h0
        exact htag (by rw [← hcj, hb'])
      have hcn : c.n = a.bearings[j].n := by
        rw [← hcj]; simp only [tagBearings, List.getElem_mapIdx, setTag_n]
      have hcl : c.n_link = a.bearings[j].n_link := by
        rw [← hcj]; simp only [tagBearings, List.getElem_mapIdx, setTag_link]
      rw [hcn, hcl, hb'n]
      refine hbr _ ?_
      have : a.bearings.eraseIdx l₁.length = l₁ ++ l₂ := by
        rw [hb, List.eraseIdx_append_of_length_le le_rfl]; simp
      rw [← this]
      rw [List.mem_eraseIdx_iff_getElem]
      exact ⟨j, hj', hne, rfl⟩

/-- **C22** disagreement: a rotor whose last node carries two bearings and no disk is never
constructed, although nothing about it is malformed. -/
theorem C22_two_bearings_last_refused (hpd : SortsRows pd) {N : ℕ}
    (hn : ∀ k ∈ givenNodes a, k < N) (hd : ∀ e ∈ a.disks, e.d.n ≠ N)
    (h2 : 2 ≤ (a.bearings.filter fun b => b.n = N).length) :
    ∃ err, ∀ fuel, a.bearings.length + 2 ≤ fuel → init pd fuel a = some (.error err) := by
  obtain ⟨res, hres⟩ := C22_terminates pd a
  cases res with
  | error e => exact ⟨e, hres⟩
  | ok r =>
    exfalso
    have h := hres _ le_rfl
    have hbu := init_ok h
    have hbr : r.bearings.Perm (tagBearings a.bearings) := by
      rw [hbu.bearings]; exact parts_br_perm a
    have hcount : 2 ≤ (r.bearings.filter fun b => b.n = N).length := by
      rw [(hbr.filter _).length_eq, ← List.countP_eq_length_filter]
      rw [← List.countP_eq_length_filter] at h2
      have e1 : (fun b : BrgEl => decide (b.n = N)) = (fun n => decide (n = N)) ∘ BrgEl.n := rfl
      rw [e1, ← List.countP_map] at h2 ⊢
      rw [tagBearings_nodes]; exact h2
    obtain ⟨b, c, t, hfl⟩ : ∃ b c t, (r.bearings.filter fun b => b.n = N) = b :: c :: t := by
      generalize (r.bearings.filter fun b => b.n = N) = l at hcount
      match l, hcount with
      | [], hc => simp at hc
      | [_], hc => simp at hc
      | b :: c :: t, _ => exact ⟨b, c, t, rfl⟩
    · have hbm := List.mem_filter.1 (hfl ▸ List.mem_cons_self : b ∈ r.bearings.filter fun b => b.n = N)
      have hcm := List.mem_filter.1 (hfl ▸ List.mem_cons_of_mem _ List.mem_cons_self :
        c ∈ r.bearings.filter fun b => b.n = N)
      have hnd : ((r.bearings.filter fun b => b.n = N).map BrgEl.tag).Nodup := by
        have h3 := (tags_split hbu.tags).2.1
        rw [← hbu.bearings] at h3
        exact h3.sublist (List.filter_sublist.map _)
      rw [hfl, List.map_cons, List.map_cons, List.nodup_cons] at hnd
      refine two_on_last hpd h (N := N) ?_ ?_ hbm.1 hcm.1 ?_ (by simpa using hbm.2) (by simpa using hcm.2)
      · intro e he
        rw [hbu.shaft] at he
        exact (hn _ (mem_parts_sh he)).ne
      · intro e he
        rw [hbu.disks] at he
        obtain ⟨x, hx, -, hxn⟩ := mem_tagDisks he
        rw [hxn]; exact hd x hx
      · intro h0; exact hnd.1 (by rw [h0]; exact List.mem_cons_self)

/-- **C22** a well-formed description is accepted. -/
theorem C22_accepts (hpd : SortsRows pd) {six : Bool} {N : ℕ} (h : WellFormed six N a)
    (hf : a.bearings.length + 2 ≤ fuel) : ∃ r, init pd fuel a = some (.ok r) := by
  obtain ⟨r, h1, -⟩ := accepts hpd h hf
  exact ⟨r, h1⟩

example : ∃ r, init exPandas 10 exArgs = some (.ok r) ∧ (∀ e ∈ shaftList exArgs, e.s.n = none) ∧
    (∀ k < shaftEnd r, ∃ e ∈ r.shaft, e.s.n = some k) := by
  obtain ⟨r, f⟩ := exRotor_facts
  refine ⟨r, f.init, ?_, ?_⟩
  · intro e he
    simp [exArgs, shaftList, Nest.flattenAll, Nest.flatten] at he
    subst he; rfl
  · intro k hk
    rw [f.stop] at hk
    obtain ⟨e, he, hek⟩ := (f.full.nodes k).2 hk
    refine ⟨e, he, ?_⟩
    rw [(init_ok f.init).shaft] at he
    rw [parts_sh_n he, hek]

theorem exArgs_same : SameDofs false exArgs := wf_same exArgs_wf

theorem exArgs_placed : PlacedWell 2 exArgs :=
  ⟨exArgs_wf.nodes, exArgs_wf.disk_on, by simp [exArgs, PmEl.n]⟩

/-- The example rotor with the tag of its disk given to a bearing too. -/
example : ¬ (allTags { exArgs with
    bearings := [.brg false { exBrg 0 none 1 1 with tag := "impeller" }]
    pms := [] }).Nodup := by decide

/-- The example rotor with an additional bearing far outside. -/
example : ∃ a, (allTags a).Nodup ∧ SameDofs false a ∧ (∃ b ∈ a.bearings, b.n = 9) ∧
    (∀ m ∈ givenNodes a, m + 1 < 9) ∧ ∀ p ∈ a.pms, ∀ n, p.n = some n → n < 9 := by
  refine ⟨{ exArgs with bearings := .brg false (exBrg 9 none 1 1) :: exArgs.bearings }, by decide, ?_,
    ⟨_, List.mem_cons_self, rfl⟩, ?_, ?_⟩
  · refine ⟨exArgs_same.ne, exArgs_same.shaft, exArgs_same.disk, ?_⟩
    intro b hb
    rcases List.mem_cons.1 hb with rfl | hb
    · rfl
    · exact exArgs_same.brg b hb
  · intro m hm
    have := (exArgs_wf.nodes m).1 hm
    omega
  · intro p hp n hn
    simp [exArgs] at hp
    subst hp
    simp [PmEl.n] at hn
    omega

/-- A bearing standing on the support node 3 that is linked to nothing: the rotor has a point mass
there, so the node is not outside, but no bearing connects it. -/
example : ∃ (a : RotorArgs) (b : BrgEl), (allTags a).Nodup ∧ SameDofs false a ∧ PlacedWell 2 a ∧
    a.bearings = [] ++ b :: [] ∧ 2 < b.n ∧ a.pms ≠ [] := by
  refine ⟨{ exArgs with bearings := [.brg false (exBrg 3 none 1 1)] }, _, by decide, ?_, ?_, rfl,
    by decide, by simp [exArgs]⟩
  · refine ⟨exArgs_same.ne, exArgs_same.shaft, exArgs_same.disk, ?_⟩
    intro b hb
    simp at hb
    subst hb; rfl
  · exact ⟨exArgs_wf.nodes, exArgs_wf.disk_on, by simp [exArgs, PmEl.n]⟩

/-- Two bearings on the last node of the example shaft. -/
example : ∃ a, (∀ k ∈ givenNodes a, k < 2) ∧ (∀ e ∈ a.disks, e.d.n ≠ 2) ∧
    2 ≤ (a.bearings.filter fun b => b.n = 2).length ∧ (allTags a).Nodup ∧ SameDofs false a ∧
    PlacedWell 2 a := by
  refine ⟨{ exArgs with
      bearings := [.brg false (exBrg 2 none 1 1), .brg true (exBrg 2 none 1 1)],
      pms := [] },
    fun k hk => (exArgs_wf.nodes k).1 hk, ?_, by decide, by decide, ?_, ?_⟩
  · intro e he
    simp [exArgs] at he
    subst he; norm_num
  · refine ⟨exArgs_same.ne, exArgs_same.shaft, exArgs_same.disk, ?_⟩
    intro b hb
    simp at hb
    rcases hb with rfl | rfl <;> rfl
  · exact ⟨exArgs_wf.nodes, exArgs_wf.disk_on, by simp⟩

end Ross.Props
