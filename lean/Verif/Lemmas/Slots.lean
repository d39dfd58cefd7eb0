import Verif.Lemmas.RotorDofs

/-! # The numbering specification is a bijection -/

namespace Ross.RotorLemmas

open Ross Ross.Spec Ross.BearingLemmas Ross.Rotor

theorem node_len {nd : ℕ} (h : nd = 4 ∨ nd = 6) : (nodeLetters nd).length = nd := by
  rcases h with rfl | rfl <;> rfl

theorem support_len {nd : ℕ} (h : nd = 4 ∨ nd = 6) : (supportLetters nd).length = nd / 2 := by
  rcases h with rfl | rfl <;> rfl

theorem node_nodup {nd : ℕ} (h : nd = 4 ∨ nd = 6) : (nodeLetters nd).Nodup := by
  rcases h with rfl | rfl <;> decide

theorem support_nodup {nd : ℕ} (h : nd = 4 ∨ nd = 6) : (supportLetters nd).Nodup := by
  rcases h with rfl | rfl <;> decide

theorem support_sub {nd : ℕ} (h : nd = 4 ∨ nd = 6) {l : String} (hl : l ∈ supportLetters nd) :
    l ∈ nodeLetters nd := by
  rcases h with rfl | rfl <;> revert hl <;> simp [supportLetters, nodeLetters] <;> tauto

theorem slot_lt_iff {nd N k : ℕ} (h : nd = 4 ∨ nd = 6) {key : String × ℕ}
    (hk : key.1 ∈ if key.2 ≤ N then nodeLetters nd else supportLetters nd) :
    slot nd N key < size nd N k ↔ key.2 ≤ N + k := by
  unfold slot size
  by_cases hn : key.2 ≤ N
  · rw [if_pos hn] at hk ⊢
    have := List.idxOf_lt_length_of_mem hk
    rw [node_len h] at this
    generalize (nodeLetters nd).idxOf key.1 = i at this
    constructor
    · intro _; omega
    · intro _
      have h2 : nd * key.2 ≤ nd * N := Nat.mul_le_mul_left _ hn
      rw [Nat.mul_succ]
      generalize nd / 2 * k = z
      omega
  · rw [if_neg hn] at hk ⊢
    have := List.idxOf_lt_length_of_mem hk
    rw [support_len h] at this
    generalize (supportLetters nd).idxOf key.1 = i at this
    rcases h with rfl | rfl <;> omega

theorem slot_inj {nd N k : ℕ} (h : nd = 4 ∨ nd = 6) {x y : String × ℕ}
    (hx : IsDof nd N k x) (hy : IsDof nd N k y) (he : slot nd N x = slot nd N y) : x = y := by
  obtain ⟨lx, nx⟩ := x
  obtain ⟨ly, ny⟩ := y
  unfold IsDof at hx hy
  simp only at hx hy
  unfold slot at he
  simp only at he
  rcases hx with ⟨h1, h2⟩ | ⟨h1, h1', h2⟩ <;> rcases hy with ⟨h3, h4⟩ | ⟨h3, h3', h4⟩
  · rw [if_pos h1, if_pos h3] at he
    have i1 := List.idxOf_lt_length_of_mem h2
    have i2 := List.idxOf_lt_length_of_mem h4
    rw [node_len h] at i1 i2
    have : nx = ny ∧ (nodeLetters nd).idxOf lx = (nodeLetters nd).idxOf ly := by
      rcases h with rfl | rfl <;> omega
    rw [this.1, (List.idxOf_inj h2).1 this.2]
  · exfalso
    rw [if_pos h1, if_neg (by omega)] at he
    have i1 := List.idxOf_lt_length_of_mem h2
    rw [node_len h] at i1
    rcases h with rfl | rfl <;> omega
  · exfalso
    rw [if_neg (by omega), if_pos h3] at he
    have i1 := List.idxOf_lt_length_of_mem h4
    rw [node_len h] at i1
    rcases h with rfl | rfl <;> omega
  · rw [if_neg (by omega), if_neg (by omega)] at he
    have i1 := List.idxOf_lt_length_of_mem h2
    have i2 := List.idxOf_lt_length_of_mem h4
    rw [support_len h] at i1 i2
    have : nx = ny ∧ (supportLetters nd).idxOf lx = (supportLetters nd).idxOf ly := by
      rcases h with rfl | rfl <;> omega
    rw [this.1, (List.idxOf_inj h2).1 this.2]

theorem slot_surj {nd N k i : ℕ} (h : nd = 4 ∨ nd = 6) (hi : i < size nd N k) :
    ∃ key, IsDof nd N k key ∧ slot nd N key = i := by
  unfold size at hi
  by_cases h1 : i < nd * (N + 1)
  · have hlt : i % nd < (nodeLetters nd).length := by
      rw [node_len h]; exact Nat.mod_lt _ (by omega)
    have hle : i / nd ≤ N := by
      have := Nat.div_lt_of_lt_mul h1
      omega
    refine ⟨((nodeLetters nd)[i % nd], i / nd), Or.inl ⟨hle, List.getElem_mem _⟩, ?_⟩
    simp only [slot, hle, if_true]
    rw [(node_nodup h).idxOf_getElem]
    exact Nat.div_add_mod i nd
  · have hpos : 0 < nd / 2 := by omega
    set j := i - nd * (N + 1) with hj
    have hjk : j < nd / 2 * k := by omega
    have hlt : j % (nd / 2) < (supportLetters nd).length := by
      rw [support_len h]; exact Nat.mod_lt _ hpos
    have hle : j / (nd / 2) < k := Nat.div_lt_of_lt_mul hjk
    have hnn : 0 ≤ j / (nd / 2) := Nat.zero_le _
    refine ⟨((supportLetters nd)[j % (nd / 2)], N + 1 + j / (nd / 2)),
      Or.inr ⟨?_, ?_, List.getElem_mem _⟩, ?_⟩
    · show N < N + 1 + j / (nd / 2)
      generalize j / (nd / 2) = z at *; omega
    · show N + 1 + j / (nd / 2) ≤ N + k
      generalize j / (nd / 2) = z at *; omega
    · have hn : ¬ N + 1 + j / (nd / 2) ≤ N := by
        generalize j / (nd / 2) = z at *; omega
      simp only [slot, hn, if_false]
      rw [(support_nodup h).idxOf_getElem]
      have h2 : N + 1 + j / (nd / 2) - N - 1 = j / (nd / 2) := by omega
      rw [h2]
      have := Nat.div_add_mod j (nd / 2)
      omega

/-- The slot of a key with a legal letter, whatever its node. -/
theorem isDof_of_le {nd N k : ℕ} {key : String × ℕ}
    (hk : key.1 ∈ if key.2 ≤ N then nodeLetters nd else supportLetters nd) (hle : key.2 ≤ N + k) :
    IsDof nd N k key := by
  by_cases hn : key.2 ≤ N
  · rw [if_pos hn] at hk; exact Or.inl ⟨hn, hk⟩
  · rw [if_neg hn] at hk; exact Or.inr ⟨by omega, hle, hk⟩

variable {pd : Pandas} {a : RotorArgs} {r : Rotor}

theorem ndof_eq (hb : Built pd a r) :
    r.ndof = size r.number_dof (lastShaftNode r) r.pms.length := by
  rw [hb.ndof, ndofOf, size, lastShaftNode, hb.shaft, lastNode_eq]

theorem mem_dofsAt {ls : List String} {n : ℕ} {key : DofKey} :
    key ∈ dofsAt ls n ↔ key.1 ∈ ls ∧ key.2 = n := by
  obtain ⟨l, m⟩ := key
  simp only [dofsAt, List.mem_map, Prod.mk.injEq]
  constructor
  · rintro ⟨l', h, rfl, rfl⟩; exact ⟨h, rfl⟩
  · rintro ⟨h, rfl⟩; exact ⟨l, h, rfl, rfl⟩

theorem dofsAt_nodup {ls : List String} (h : ls.Nodup) (n : ℕ) : (dofsAt ls n).Nodup :=
  h.map fun _ _ e => (Prod.mk.inj e).1

/-- The nodes of an element. -/
theorem attach_letter (hb : Built pd a r) {e : Elm} (he : e ∈ r.elements)
    (hf : Fits r.number_dof e) {n : ℕ} (hn : e.n = some n) {key : DofKey}
    (hk : key ∈ attach r.number_dof e n) :
    key.1 ∈ if key.2 ≤ lastShaftNode r then nodeLetters r.number_dof
      else supportLetters r.number_dof := by
  have hnd := nd_cases hb
  have hsup : key.1 ∈ supportLetters r.number_dof → key.1 ∈ if key.2 ≤ lastShaftNode r then
      nodeLetters r.number_dof else supportLetters r.number_dof := by
    intro h
    split_ifs
    · exact support_sub hnd h
    · exact h
  have hnode : key.1 ∈ nodeLetters r.number_dof → key.2 ≤ lastShaftNode r →
      key.1 ∈ if key.2 ≤ lastShaftNode r then
        nodeLetters r.number_dof else supportLetters r.number_dof := by
    intro h h'
    rw [if_pos h']; exact h
  rcases (mem_elements hb e).1 he with ⟨s, hs, rfl⟩ | ⟨s, hs, rfl⟩ | ⟨b, hs, rfl⟩ | ⟨p, hs, rfl⟩
  · have h1 := node_le_last hb hs
    have h2 : nodeOf s = n := by simp only [Elm.n] at hn; simp [nodeOf, hn]
    simp only [attach, List.mem_append, mem_dofsAt] at hk
    unfold lastShaftNode at *
    rcases hk with ⟨h3, h4⟩ | ⟨h3, h4⟩ <;> exact hnode h3 (by omega)
  · have h1 := disk_le hb hs
    simp only [Elm.n, Option.some.injEq] at hn
    simp only [attach, mem_dofsAt] at hk
    unfold lastShaftNode at *
    exact hnode hk.1 (by omega)
  · apply hsup
    simp only [attach] at hk
    cases hl : b.n_link with
    | none => rw [hl] at hk; exact (mem_dofsAt.1 hk).1
    | some k =>
      rw [hl] at hk
      simp only at hk
      split_ifs at hk
      · exact (mem_dofsAt.1 hk).1
      · rcases List.mem_append.1 hk with hk | hk <;> exact (mem_dofsAt.1 hk).1
  · apply hsup
    cases p with
    | pm p =>
      have := (mem_dofsAt.1 hk).1
      rcases hnd with h | h <;> rw [h] <;> simp [supportLetters] at this ⊢ <;> tauto
    | pm6 p =>
      have h6 : r.number_dof = 6 := hf
      rw [h6]
      exact (mem_dofsAt.1 hk).1

theorem attach_nodup (hb : Built pd a r) {e : Elm} {n : ℕ} :
    (attach r.number_dof e n).Nodup := by
  have hnd := nd_cases hb
  rcases e with s | s | b | (p | p)
  · simp only [attach]
    refine List.nodup_append.2 ⟨dofsAt_nodup (node_nodup hnd) _, dofsAt_nodup (node_nodup hnd) _, ?_⟩
    intro x hx y hy hxy
    rw [mem_dofsAt] at hx hy
    rw [hxy] at hx; omega
  · exact dofsAt_nodup (node_nodup hnd) _
  · simp only [attach]
    cases b.n_link with
    | none => exact dofsAt_nodup (support_nodup hnd) _
    | some k =>
      simp only
      split_ifs with hk
      · exact dofsAt_nodup (support_nodup hnd) _
      · refine List.nodup_append.2
          ⟨dofsAt_nodup (support_nodup hnd) _, dofsAt_nodup (support_nodup hnd) _, ?_⟩
        intro x hx y hy hxy
        rw [mem_dofsAt] at hx hy
        rw [hxy] at hx; omega
  · exact dofsAt_nodup (by decide) _
  · exact dofsAt_nodup (by decide) _

/-- Global indices of one element are distinct. -/
theorem values_nodup (hb : Built pd a r) {x : Elm × Dict DofKey ℕ} (hx : x ∈ r.placed) :
    x.2.values.Nodup := by
  by_cases hf : Fits r.number_dof x.1
  · obtain ⟨n, hn, h⟩ := placed_eq hb hx hf
    rw [h, Dict.values, List.map_map]
    have : (Prod.snd ∘ fun key => (key, slot r.number_dof (lastShaftNode r) key)) =
        fun key : DofKey => slot r.number_dof (lastShaftNode r) key := rfl
    rw [this]
    refine List.Nodup.map_on ?_ (attach_nodup hb)
    intro k hk k' hk' he
    have h1 := attach_letter hb (placed_mem hb hx) hf hn hk
    have h2 := attach_letter hb (placed_mem hb hx) hf hn hk'
    exact slot_inj (nd_cases hb) (k := max k.2 k'.2) (isDof_of_le h1 (by omega))
      (isDof_of_le h2 (by omega)) he
  · obtain ⟨n, hn, h⟩ := (place_ok hb.placed).2 x hx
    obtain ⟨e, d⟩ := x
    rcases e with s | s | b | (p | p)
    · exact absurd trivial hf
    · exact absurd trivial hf
    · exact absurd trivial hf
    · exact absurd trivial hf
    · simp only at h
      have hl : (Elm.pm (.pm6 p)).n_link = none := rfl
      rw [h, hl, globalDofs_none _ _ _ _ (dofMapping_keys _)]
      simp [Elm.dofMapping, Dict.values]

end Ross.RotorLemmas
