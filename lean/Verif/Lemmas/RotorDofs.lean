import Verif.Lemmas.Rotor
import Verif.Spec.Attach

/-! # Global degrees of freedom of constructed rotors -/

namespace Ross.RotorLemmas

open Ross Ross.Spec Ross.BearingLemmas Ross.Rotor

variable {pd : Pandas} {a : RotorArgs} {r : Rotor}

theorem nd_cases (hb : Built pd a r) : r.number_dof = 4 ∨ r.number_dof = 6 := (check_ok hb.dof).2.1

theorem shaft_ne (hb : Built pd a r) : r.shaft ≠ [] := (check_ok hb.dof).1

theorem groups_length_le (hb : Built pd a r) :
    (groups r.shaft).length ≤ lastNode r.shaft + 1 := by
  have h1 : (groups r.shaft) ⊆ List.range (lastNode r.shaft + 1) := by
    intro n hn
    obtain ⟨e, he, rfl⟩ := List.mem_map.1 (List.mem_dedup.1 hn)
    exact List.mem_range.2 (Nat.lt_succ_of_le (node_le_last hb he))
  have h2 : (groups r.shaft).Nodup := List.nodup_dedup _
  simpa using (h2.subperm h1).length_le

theorem nodesPos_length (sh : List ShaftEl) : (nodesPos sh).length = (groups sh).length + 1 := by
  simp [nodesPos]

theorem disk_pos (hb : Built pd a r) {e : DiskEl} (he : e ∈ r.disks) :
    e.d.n < r.nodes_pos.length := by
  obtain ⟨dkpos, h1, -⟩ := hb.CG
  rw [mapM_ok_iff] at h1
  have h2 : posAt r.nodes_pos e.d.n ∈ r.disks.map fun e => posAt r.nodes_pos e.d.n :=
    List.mem_map.2 ⟨e, he, rfl⟩
  rw [h1] at h2
  obtain ⟨z, -, hz⟩ := List.mem_map.1 h2
  unfold posAt at hz
  by_contra hc
  rw [List.getElem?_eq_none (by omega)] at hz
  simp at hz

/-- A disk is on a shaft node. -/
theorem disk_le (hb : Built pd a r) {e : DiskEl} (he : e ∈ r.disks) :
    e.d.n ≤ lastNode r.shaft + 1 := by
  have h1 := disk_pos hb he
  rw [hb.pos, nodesPos_length] at h1
  have := groups_length_le hb
  omega

theorem slot_node {nd nl n i : ℕ} {l : String} (hn : n ≤ nl + 1)
    (hi : (nodeLetters nd).idxOf l = i) : slot nd (nl + 1) (l, n) = base nd nl n + i := by
  simp [slot, base, hn, hi]

theorem slot_support {nd nl n i : ℕ} {l : String} (hnd : nd = 4 ∨ nd = 6)
    (h1 : (nodeLetters nd).idxOf l = i) (h2 : (supportLetters nd).idxOf l = i) :
    slot nd (nl + 1) (l, n) = base nd nl n + i := by
  by_cases hn : n ≤ nl + 1
  · exact slot_node hn h1
  · have h3 : ∃ d, n = nl + 2 + d := ⟨n - (nl + 2), by omega⟩
    obtain ⟨d, rfl⟩ := h3
    simp only [slot, hn, if_false, base, h2]
    rcases hnd with rfl | rfl <;> omega

theorem base_next (nd nl n : ℕ) (h : n + 1 ≤ nl + 1) : base nd nl (n + 1) = base nd nl n + nd := by
  have : n ≤ nl + 1 := by omega
  simp [base, h, this, Nat.mul_add]

theorem idx4 : (nodeLetters 4).idxOf "x" = 0 ∧ (nodeLetters 4).idxOf "y" = 1 ∧
    (nodeLetters 4).idxOf "alpha" = 2 ∧ (nodeLetters 4).idxOf "beta" = 3 ∧
    (supportLetters 4).idxOf "x" = 0 ∧ (supportLetters 4).idxOf "y" = 1 := by decide

theorem idx6 : (nodeLetters 6).idxOf "x" = 0 ∧ (nodeLetters 6).idxOf "y" = 1 ∧
    (nodeLetters 6).idxOf "z" = 2 ∧ (nodeLetters 6).idxOf "alpha" = 3 ∧
    (nodeLetters 6).idxOf "beta" = 4 ∧ (nodeLetters 6).idxOf "theta" = 5 ∧
    (supportLetters 6).idxOf "x" = 0 ∧ (supportLetters 6).idxOf "y" = 1 ∧
    (supportLetters 6).idxOf "z" = 2 := by decide

theorem link_slot {nd nl k : ℕ} (hnd : nd = 4 ∨ nd = 6) :
    linkKeys nd nl k =
      (dofsAt (supportLetters nd) k).map fun key => (key, slot nd (nl + 1) key) := by
  rcases hnd with rfl | rfl
  · obtain ⟨a1, a2, a3, a4, a5, a6⟩ := idx4
    have s1 := slot_support (nl := nl) (n := k) (Or.inl rfl) a1 a5
    have s2 := slot_support (nl := nl) (n := k) (Or.inl rfl) a2 a6
    simp [linkKeys, dofsAt, supportLetters, s1, s2]
  · obtain ⟨a1, a2, a3, a4, a5, a6, a7, a8, a9⟩ := idx6
    have s1 := slot_support (nl := nl) (n := k) (Or.inr rfl) a1 a7
    have s2 := slot_support (nl := nl) (n := k) (Or.inr rfl) a2 a8
    have s3 := slot_support (nl := nl) (n := k) (Or.inr rfl) a3 a9
    simp [linkKeys, dofsAt, supportLetters, s1, s2, s3]

/-- The global index of every dof of an element is the slot of that dof. -/
theorem placed_eq (hb : Built pd a r) {x : Elm × Dict DofKey ℕ} (hx : x ∈ r.placed)
    (hf : Fits r.number_dof x.1) :
    ∃ n, x.1.n = some n ∧ x.2 = (attach r.number_dof x.1 n).map
      fun key => (key, slot r.number_dof (lastShaftNode r) key) := by
  obtain ⟨n, hn, hx2⟩ := (place_ok hb.placed).2 x hx
  refine ⟨n, hn, ?_⟩
  rw [hx2]
  obtain ⟨-, hnd, hs, hd, hbr⟩ := check_ok hb.dof
  obtain ⟨e, dd⟩ := x
  unfold lastShaftNode
  simp only at hn hf hx2 ⊢
  have he := (mem_elements hb e).1 (placed_mem hb hx)
  set nd := r.number_dof
  set nl := lastNode r.shaft with hnl
  rcases he with ⟨⟨six, s⟩, hs', rfl⟩ | ⟨⟨six, s⟩, hd', rfl⟩ | ⟨b, hb', rfl⟩ | ⟨p, hp', rfl⟩
  · -- shaft
    have hle : n ≤ nl := by
      have h1 := node_le_last hb hs'
      simp only [Elm.n] at hn
      simpa [nodeOf, hn] using h1
    have hle' : n + 1 ≤ nl + 1 := by omega
    have h6 := hs _ hs'
    simp only [Elm.n_link]
    rw [globalDofs_none _ _ _ _ (dofMapping_keys _)]
    rcases hnd with h4 | h4
    · rw [h4] at h6 ⊢
      simp only [Nat.reduceEqDiff, decide_false] at h6
      subst h6
      obtain ⟨a1, a2, a3, a4, -, -⟩ := idx4
      have e1 := base_next 4 nl n hle'
      have s1 := slot_node (nl := nl) (show n ≤ nl + 1 by omega) a1
      have s2 := slot_node (nl := nl) (show n ≤ nl + 1 by omega) a2
      have s3 := slot_node (nl := nl) (show n ≤ nl + 1 by omega) a3
      have s4 := slot_node (nl := nl) (show n ≤ nl + 1 by omega) a4
      have t1 := slot_node (nl := nl) hle' a1
      have t2 := slot_node (nl := nl) hle' a2
      have t3 := slot_node (nl := nl) hle' a3
      have t4 := slot_node (nl := nl) hle' a4
      simp [Elm.dofMapping, attach, dofsAt, nodeLetters, s1, s2, s3, s4, t1, t2, t3, t4, e1,
        Nat.add_comm 1 n, Nat.add_assoc]
    · rw [h4] at h6 ⊢
      simp only [decide_true] at h6
      subst h6
      obtain ⟨a1, a2, a3, a4, a5, a6, -, -, -⟩ := idx6
      have e1 := base_next 6 nl n hle'
      have s1 := slot_node (nl := nl) (show n ≤ nl + 1 by omega) a1
      have s2 := slot_node (nl := nl) (show n ≤ nl + 1 by omega) a2
      have s3 := slot_node (nl := nl) (show n ≤ nl + 1 by omega) a3
      have s4 := slot_node (nl := nl) (show n ≤ nl + 1 by omega) a4
      have s5 := slot_node (nl := nl) (show n ≤ nl + 1 by omega) a5
      have s6 := slot_node (nl := nl) (show n ≤ nl + 1 by omega) a6
      have t1 := slot_node (nl := nl) hle' a1
      have t2 := slot_node (nl := nl) hle' a2
      have t3 := slot_node (nl := nl) hle' a3
      have t4 := slot_node (nl := nl) hle' a4
      have t5 := slot_node (nl := nl) hle' a5
      have t6 := slot_node (nl := nl) hle' a6
      simp [Elm.dofMapping, attach, dofsAt, nodeLetters, s1, s2, s3, s4, s5, s6, t1, t2, t3, t4,
        t5, t6, e1, Nat.add_comm 1 n, Nat.add_assoc]
  · -- disk
    have hle : n ≤ nl + 1 := by
      have h1 : s.n ≤ nl + 1 := disk_le hb hd'
      simp only [Elm.n, Option.some.injEq] at hn
      rw [← hn]; exact h1
    have h6 := hd _ hd'
    simp only [Elm.n_link]
    rw [globalDofs_none _ _ _ _ (dofMapping_keys _)]
    rcases hnd with h4 | h4
    · rw [h4] at h6 ⊢
      simp only [Nat.reduceEqDiff, decide_false] at h6
      subst h6
      obtain ⟨a1, a2, a3, a4, -, -⟩ := idx4
      have s1 := slot_node (nl := nl) hle a1
      have s2 := slot_node (nl := nl) hle a2
      have s3 := slot_node (nl := nl) hle a3
      have s4 := slot_node (nl := nl) hle a4
      simp [Elm.dofMapping, attach, dofsAt, nodeLetters, s1, s2, s3, s4]
    · rw [h4] at h6 ⊢
      simp only [decide_true] at h6
      subst h6
      obtain ⟨a1, a2, a3, a4, a5, a6, -, -, -⟩ := idx6
      have s1 := slot_node (nl := nl) hle a1
      have s2 := slot_node (nl := nl) hle a2
      have s3 := slot_node (nl := nl) hle a3
      have s4 := slot_node (nl := nl) hle a4
      have s5 := slot_node (nl := nl) hle a5
      have s6 := slot_node (nl := nl) hle a6
      simp [Elm.dofMapping, attach, dofsAt, nodeLetters, s1, s2, s3, s4, s5, s6]
  · -- bearing
    have h6 := hbr _ hb'
    have hown : ((Elm.brg b).dofMapping.map fun kv => ((kv.1.1, kv.1.2 + n), base nd nl n + kv.2)) =
        (dofsAt (supportLetters nd) n).map fun key => (key, slot nd (nl + 1) key) := by
      rw [← link_slot hnd]
      cases b with
      | brg s b =>
        simp only at h6
        rw [h6]
        simp [Elm.dofMapping, linkKeys]
      | brg6 b =>
        simp only at h6
        rw [h6]
        simp [Elm.dofMapping, linkKeys]
    simp only [Elm.n_link, attach]
    cases hl : b.n_link with
    | none =>
      rw [globalDofs_none _ _ _ _ (dofMapping_keys _), hown]
    | some k =>
      simp only
      by_cases hk : k = n
      · subst hk
        rw [if_pos rfl, globalDofs_self _ _ _ _ h6, link_slot hnd]
      · rw [if_neg hk, globalDofs_some _ _ _ _ _ (dofMapping_keys _) _ hk, hown, link_slot hnd,
          List.map_append]
        intro y hy
        cases b <;> simp [Elm.dofMapping] at hy <;> rcases hy with h | h <;> try (rw [h])
        rcases h with h | h <;> rw [h]
  · -- point mass
    simp only [Elm.n_link]
    rw [globalDofs_none _ _ _ _ (dofMapping_keys _)]
    cases p with
    | pm p =>
      rcases hnd with h4 | h4
      · rw [h4]
        obtain ⟨a1, a2, -, -, a5, a6⟩ := idx4
        have s1 := slot_support (nl := nl) (n := n) (Or.inl rfl) a1 a5
        have s2 := slot_support (nl := nl) (n := n) (Or.inl rfl) a2 a6
        simp [Elm.dofMapping, attach, dofsAt, s1, s2]
      · rw [h4]
        obtain ⟨a1, a2, a3, -, -, -, a7, a8, a9⟩ := idx6
        have s1 := slot_support (nl := nl) (n := n) (Or.inr rfl) a1 a7
        have s2 := slot_support (nl := nl) (n := n) (Or.inr rfl) a2 a8
        simp [Elm.dofMapping, attach, dofsAt, s1, s2]
    | pm6 p =>
      have h4 : nd = 6 := hf
      rw [h4]
      obtain ⟨a1, a2, a3, -, -, -, a7, a8, a9⟩ := idx6
      have s1 := slot_support (nl := nl) (n := n) (Or.inr rfl) a1 a7
      have s2 := slot_support (nl := nl) (n := n) (Or.inr rfl) a2 a8
      have s3 := slot_support (nl := nl) (n := n) (Or.inr rfl) a3 a9
      simp [Elm.dofMapping, attach, dofsAt, s1, s2, s3]

end Ross.RotorLemmas
