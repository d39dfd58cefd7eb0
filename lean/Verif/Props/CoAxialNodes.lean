import Verif.Spec.CoAxialNodes
import Verif.Props.CoAxialPos

/-! # C131: the nodes and the length of coaxial rotors -/

namespace Ross.CoAxialPosLemmas

open Ross Ross.Rotor Ross.CoAxialPos Ross.Spec.CoAxial Ross.CoAxialLemmas

theorem nodes_numb (n t : ℕ) (ls : List (List ShaftEl)) :
    (numb n t ls).flatten.Pairwise fun a b => nodeOf a < nodeOf b := by
  induction ls generalizing n t with
  | nil => simp [numb]
  | cons l ls ih =>
    rw [numb, List.flatten_cons, List.pairwise_append]
    refine ⟨?_, ih _ _, ?_⟩
    · rw [List.pairwise_iff_getElem]
      intro i j hi hj hij
      simp only [List.getElem_mapIdx, nodeOf, Option.getD_some]
      omega
    · intro x hx y hy
      obtain ⟨i, hi, rfl⟩ := List.mem_mapIdx.1 hx
      obtain ⟨k, h1, h2, -⟩ := mem_numb hy
      simp only [nodeOf, h1, Option.getD_some]
      omega

theorem numbered_numb (raw : List (List ShaftEl)) : numbered raw = numb 0 0 raw := by
  rw [numb_eq]
  simp only [Nat.zero_add]
  rfl

theorem groups_length (raw : List (List ShaftEl)) : (groups (numbered raw).flatten).length = (numbered raw).flatten.length := by
  unfold groups
  have h : ((numbered raw).flatten.map nodeOf).Nodup := by
    rw [numbered_numb]
    refine List.pairwise_map.2 ((nodes_numb 0 0 raw).imp ?_)
    intro a b h
    omega
  rw [h.dedup]
  simp only [List.length_map]

theorem numbered_length (raw : List (List ShaftEl)) : (numbered raw).flatten.length = raw.flatten.length := by
  rw [List.length_flatten, List.length_flatten]
  congr 1
  apply List.ext_getElem?
  intro n
  simp only [numbered, List.getElem?_map, List.getElem?_mapIdx, Option.map_map]
  cases raw[n]? <;> simp

/-- One insertion of `nodesPos`. -/
noncomputable def endStep (N : ℕ) (p : Pos) (l : List ℝ) (s : List ShaftEl) : Res (List ℝ) :=
  let pos := ((s.getLast?).map fun e => nodeOf e + 1).getD 0
  if pos - 1 < N then .ok (insertAt l pos (p.r (pos - 1))) else .error .indexError

theorem ends_length {N : ℕ} {p : Pos} : ∀ (ss : List (List ShaftEl)) {l v : List ℝ}, ss.foldlM (endStep N p) l = .ok v →
    v.length = l.length + ss.length := by
  intro ss
  induction ss with
  | nil => intro l v h; cases Except.ok.inj h; rfl
  | cons s ss ih =>
    intro l v h
    rw [List.foldlM_cons] at h
    obtain ⟨l', h1, h⟩ := BearingLemmas.bind_ok.1 h
    unfold endStep at h1
    simp only at h1
    split at h1
    · cases Except.ok.inj h1
      rw [ih h]
      simp [insertAt]
      omega
    · cases h1

theorem ends_ok {N : ℕ} {p : Pos} : ∀ (ss : List (List ShaftEl)) {l : List ℝ},
    (∀ s ∈ ss, ∀ e, s.getLast? = some e → nodeOf e < N) → 0 < N → ∃ v, ss.foldlM (endStep N p) l = .ok v := by
  intro ss
  induction ss with
  | nil => intro l _ _; exact ⟨l, rfl⟩
  | cons s ss ih =>
    intro l h hN
    have hs : ∃ l', endStep N p l s = .ok l' := by
      unfold endStep
      simp only
      cases hl : s.getLast? with
      | none => exact ⟨_, if_pos (by simpa using hN)⟩
      | some e =>
        have := h s List.mem_cons_self e hl
        exact ⟨_, if_pos (by simpa using this)⟩
    obtain ⟨l', hl'⟩ := hs
    obtain ⟨v, hv⟩ := ih (l := l') (fun s hs => h s (List.mem_cons_of_mem _ hs)) hN
    exact ⟨v, by rw [List.foldlM_cons]; exact BearingLemmas.bind_ok.2 ⟨l', hl', hv⟩⟩

theorem nodesPos_eq {raw : List (List ShaftEl)} (hne : ∀ l ∈ raw, l ≠ []) (p : Pos) :
    ∃ inner : List ℝ, inner.length = raw.flatten.length ∧ CoAxialPos.nodesPos (numbered raw) p =
      ((numbered raw).dropLast.foldlM (endStep raw.flatten.length p) inner >>= fun ends =>
        .ok (ends ++ [p.r (raw.flatten.length - 1)])) := by
  have hs := numbered_straight hne
  refine ⟨(groups (numbered raw).flatten).map fun g => ((((List.range raw.flatten.length).filter fun c =>
    colN (numbered raw).flatten c = g).map p.l).max?).getD 0, ?_, ?_⟩
  · rw [List.length_map, groups_length, numbered_length]
  · unfold CoAxialPos.nodesPos
    simp only [hs.sort, numbered_length]
    rfl

end Ross.CoAxialPosLemmas

namespace Ross.Props

open Ross Ross.Rotor Ross.CoAxialPos Ross.Spec.CoAxial Ross.CoAxialPosLemmas Ross.RotorLemmas

variable {raw : List (List ShaftEl)}

/-- **C131** a coaxial rotor has a position for each of its nodes. -/
theorem C131_count (hne : ∀ l ∈ raw, l ≠ []) (h0 : raw ≠ []) {p : Pos} {v : List ℝ}
    (hv : CoAxialPos.nodesPos (numbered raw) p = .ok v) : v.length = nodeCount raw := by
  obtain ⟨inner, h1, h2⟩ := nodesPos_eq hne p
  rw [h2] at hv
  obtain ⟨ends, h3, h4⟩ := BearingLemmas.bind_ok.1 hv
  cases Except.ok.inj h4
  have hl : (numbered raw).length = raw.length := by simp [numbered]
  have hpos : 0 < raw.length := List.length_pos_of_ne_nil h0
  rw [List.length_append, ends_length _ h3, List.length_dropLast, h1, hl]
  have : ∀ r : List (List ShaftEl), nodeCount r = r.flatten.length + r.length := by
    intro r
    induction r with
    | nil => rfl
    | cons a r ih =>
      have : nodeCount (a :: r) = a.length + 1 + nodeCount r := by simp [nodeCount]
      rw [this, ih]
      simp
      omega
  rw [this]
  simp
  omega

/-- **C131 (partial)** the positions of the nodes are found when there are three shafts or fewer.  Missing: more shafts,
see `C131_four_false`. -/
theorem C131_three_partial (hne : ∀ l ∈ raw, l ≠ []) (h0 : raw ≠ []) (h3 : raw.length ≤ 3) (p : Pos) :
    ∃ v, CoAxialPos.nodesPos (numbered raw) p = .ok v := by
  obtain ⟨inner, h1, h2⟩ := nodesPos_eq hne p
  have hs := numbered_straight hne
  have hl : (numbered raw).length = raw.length := by simp [numbered]
  have hposr : 0 < raw.length := List.length_pos_of_ne_nil h0
  have hN : 0 < raw.flatten.length := by
    have hm := List.getElem_mem (l := raw) (n := 0) hposr
    have : 0 < (raw[0]).length := List.length_pos_of_ne_nil (hne _ hm)
    have := (List.sublist_flatten_of_mem hm).length_le
    omega
  obtain ⟨ends, he⟩ := ends_ok (N := raw.flatten.length) (p := p) (numbered raw).dropLast (l := inner) (by
    intro s hsm e he
    obtain ⟨j, hj⟩ := List.mem_iff_getElem?.1 hsm
    have hjlt := (List.getElem?_eq_some_iff.1 hj).1
    rw [List.length_dropLast, hl] at hjlt
    rw [List.getElem?_dropLast, if_pos (by omega)] at hj
    rw [List.getLast?_eq_getElem?] at he
    have hn := hs.node j s hj _ e he
    have hlt := (List.getElem?_eq_some_iff.1 he).1
    -- the last shaft has an element
    obtain ⟨u, hu⟩ : ∃ u, (numbered raw)[raw.length - 1]? = some u := ⟨_, List.getElem?_eq_getElem (by omega)⟩
    have hu0 : 0 < u.length := List.length_pos_of_ne_nil (hs.ne _ u hu)
    have b1 := before_lt hu
    have b2 := before_succ hj
    have b3 := before_mono (ls := numbered raw) (show j + 1 ≤ raw.length - 1 by omega)
    rw [numbered_length] at b1
    omega) hN
  exact ⟨_, by rw [h2]; exact BearingLemmas.bind_ok.2 ⟨ends, he, rfl⟩⟩

/-- **C131 (false in general)** a rotor of four shafts of one element each is not accepted, wherever they are. -/
theorem C131_four_false (p : Pos) :
    CoAxialPos.nodesPos (numbered [[exLen 1], [exLen 1], [exLen 1], [exLen 1]]) p = .error .indexError := by
  have hs : Straight (numbered [[exLen 1], [exLen 1], [exLen 1], [exLen 1]]) := numbered_straight (by simp)
  unfold CoAxialPos.nodesPos
  simp only [hs.sort]
  simp [numbered, before, nodeOf]
  rfl

/-- **C131 (partial)** the length of a coaxial rotor is the furthest end of its elements, if that is the end of the shaft
that is last in the list.  Missing: other rotors, see `C131_length_false`. -/
theorem C131_length_partial (hne : ∀ l ∈ raw, l ≠ []) (h0 : raw ≠ []) {p : Pos} {L : ℝ}
    (hL : rotorLength (numbered raw) p = .ok L)
    (hlast : ∀ c < raw.flatten.length, p.r c ≤ p.r (raw.flatten.length - 1)) : FurthestEnd (numbered raw) p L := by
  unfold rotorLength at hL
  obtain ⟨v, hv, hL⟩ := BearingLemmas.bind_ok.1 hL
  obtain ⟨inner, h1, h2⟩ := nodesPos_eq hne p
  rw [h2] at hv
  obtain ⟨ends, h3, h4⟩ := BearingLemmas.bind_ok.1 hv
  cases Except.ok.inj h4
  simp only [List.getLast?_append, List.getLast?_singleton, Option.some_or] at hL
  cases Except.ok.inj hL
  have hN : 0 < raw.flatten.length := by
    have hposr : 0 < raw.length := List.length_pos_of_ne_nil h0
    have hm := List.getElem_mem (l := raw) (n := 0) hposr
    have : 0 < (raw[0]).length := List.length_pos_of_ne_nil (hne _ hm)
    have := (List.sublist_flatten_of_mem hm).length_le
    omega
  unfold FurthestEnd
  rw [numbered_length]
  exact ⟨⟨_, by omega, rfl⟩, hlast⟩

/-- **C131 (false in general)** a shaft of length 2 from 1 to 3 inside a shaft of length 4, given first: the rotor has
length 3. -/
theorem C131_length_false : ∃ p, positions (numbered [[exLen 1, exLen 2, exLen 1], [exLen 2]])
      [.brg false (exBrg 1 (some 4) 1 1)] = .ok p ∧
    rotorLength (numbered [[exLen 1, exLen 2, exLen 1], [exLen 2]]) p = .ok 3 ∧ p.l 0 = 0 ∧ p.r 2 = 4 := by
  have hs : Straight (numbered [[exLen 1, exLen 2, exLen 1], [exLen 2]]) := numbered_straight (by simp)
  unfold positions rotorLength CoAxialPos.nodesPos
  simp only [hs.sort]
  simp [numbered, before, allLoop, shaftLoop, step, colL, colN, linkOf, nodeOf, before1, exLen, exBrg,
    BrgEl.isSeal, BrgEl.n_link, BrgEl.n, BrgEl.base, groups, insertAt]
  refine ⟨_, rfl, ?_, ?_, ?_⟩
  · refine Eq.trans (b := Except.ok _) rfl (congrArg Except.ok ?_)
    simp [addSlice, Function.update]
    norm_num
  · simp [addSlice, Function.update]
  · simp [addSlice, Function.update]
    norm_num

/-- **C131 (partial)** with two shafts the list of outer diameters has, for each node, that of the element which begins
there, and for the last node of a shaft that of the element which ends there.  Missing: more shafts. -/
theorem C131_diameters_partial {a b : List ShaftEl} (ha : a ≠ []) (hb : b ≠ []) :
    ∃ v, CoAxialPos.nodesOd (numbered [a, b]) = .ok v ∧ v.length = a.length + b.length + 2 ∧
      ∀ j l k e, [a, b][j]? = some l → l[k]? = some e → v[before [a, b] j + j + k]? = some e.s.o_d ∧
        (k + 1 = l.length → v[before [a, b] j + j + k + 1]? = some e.s.o_d) := by
  have hs : Straight (numbered [a, b]) := numbered_straight (by simp [ha, hb])
  have hpa : 0 < a.length := List.length_pos_of_ne_nil ha
  have hpb : 0 < b.length := List.length_pos_of_ne_nil hb
  set col := colOd (numbered [a, b]).flatten with hcol
  have hN : (numbered [a, b]).flatten.length = a.length + b.length := by rw [numbered_length]; simp
  have hlen : (numbered [a, b]).length = 2 := by simp [numbered]
  obtain ⟨a', b', hab, hla, hlb, hoa, hob⟩ : ∃ a' b', numbered [a, b] = [a', b'] ∧ a'.length = a.length ∧ b'.length = b.length ∧
      (∀ (k : ℕ) (e : ShaftEl), a[k]? = some e → ∃ e' : ShaftEl, a'[k]? = some e' ∧ e'.s.o_d = e.s.o_d) ∧
      (∀ (k : ℕ) (e : ShaftEl), b[k]? = some e → ∃ e' : ShaftEl, b'[k]? = some e' ∧ e'.s.o_d = e.s.o_d) := by
    refine ⟨_, _, rfl, by simp, by simp, ?_, ?_⟩
    · intro k e he
      refine ⟨_, List.getElem?_mapIdx.trans (congrArg (Option.map _) he), ?_⟩
      rfl
    · intro k e he
      refine ⟨_, List.getElem?_mapIdx.trans (congrArg (Option.map _) he), ?_⟩
      rfl
  have hbef : before (numbered [a, b]) 1 = a.length := by rw [hab]; simp [before, hla]
  have hca : ∀ k e, a[k]? = some e → col k = e.s.o_d := by
    intro k e he
    obtain ⟨e', h1, h2⟩ := hoa k e he
    have hlt := (List.getElem?_eq_some_iff.1 h1).1
    rw [hcol, colOd, hab]
    simp [List.getElem?_append_left hlt, h1, h2]
  have hcb : ∀ k e, b[k]? = some e → col (a.length + k) = e.s.o_d := by
    intro k e he
    obtain ⟨e', h1, h2⟩ := hob k e he
    rw [hcol, colOd, hab]
    simp [List.getElem?_append_right, hla, h1, h2]
  let p' : Pos := ⟨col, fun c => if c + 1 = a.length ∨ c + 1 = a.length + b.length then col c else col (c + 1)⟩
  have heq : CoAxialPos.nodesOd (numbered [a, b]) = CoAxialPos.nodesPos (numbered [a, b]) p' := by
    unfold CoAxialPos.nodesOd CoAxialPos.nodesPos
    simp only [hs.sort, hN]
    obtain ⟨x, hx⟩ : ∃ x, a'.getLast? = some x := by
      rw [List.getLast?_eq_getElem?]
      exact ⟨_, List.getElem?_eq_getElem (by omega)⟩
    have hn : nodeOf x = a.length - 1 := by
      rw [List.getLast?_eq_getElem?] at hx
      have := hs.node 0 a' (by rw [hab]; rfl) _ x hx
      simp only [before, List.take_zero, List.map_nil, List.sum_nil] at this
      omega
    have hd : (numbered [a, b]).dropLast = [a'] := by rw [hab]; rfl
    have e1 : p'.r (a.length - 1) = col (a.length - 1) := if_pos (Or.inl (by omega))
    have e2 : p'.r (a.length + b.length - 1) = col (a.length + b.length - 1) := if_pos (Or.inr (by omega))
    rw [hd]
    simp only [List.foldlM_cons, List.foldlM_nil, hx, Option.map_some, Option.getD_some, hn, Nat.add_sub_cancel, e1, e2]
    rfl
  obtain ⟨v, h1, h2, h3⟩ := C129_nodes_partial ha hb p'
  refine ⟨v, heq.trans h1, h2, ?_⟩
  intro j l k e hj he
  have hk := (List.getElem?_eq_some_iff.1 he).1
  match j, hj with
  | 0, hj =>
    cases Option.some.inj hj
    have hc := hca k e he
    have b0 : ∀ ls : List (List ShaftEl), before ls 0 = 0 := fun ls => by simp [before]
    refine ⟨h3 0 k _ ⟨a', by rw [hab]; rfl, fun _ => ?_, fun h h' => ?_⟩ ?_, fun hl => h3 0 (k + 1) _
      ⟨a', by rw [hab]; rfl, fun h => ?_, fun h h' => ?_⟩ ?_⟩
    · rw [b0, Nat.zero_add]; exact hc
    · rw [b0, Nat.zero_add]
      have : p'.r (k - 1) = col (k - 1 + 1) := if_neg (by omega)
      rw [this, Nat.sub_add_cancel h, hc]
    · intro l hl; cases Option.some.inj hl; omega
    · omega
    · rw [b0, Nat.zero_add, Nat.add_sub_cancel]
      have : p'.r k = col k := if_pos (Or.inl hl)
      rw [this, hc]
    · intro l hl'; cases Option.some.inj hl'; omega
  | 1, hj =>
    cases Option.some.inj hj
    have hc := hcb k e he
    refine ⟨h3 1 k _ ⟨b', by rw [hab]; rfl, fun _ => ?_, fun h h' => ?_⟩ ?_, fun hl => h3 1 (k + 1) _
      ⟨b', by rw [hab]; rfl, fun h => ?_, fun h h' => ?_⟩ ?_⟩
    · rw [hbef]; exact hc
    · rw [hbef]
      have : p'.r (a.length + k - 1) = col (a.length + k - 1 + 1) := if_neg (by omega)
      rw [this, Nat.sub_add_cancel (by omega), hc]
    · intro l hl; cases Option.some.inj hl; omega
    · omega
    · rw [hbef, ← Nat.add_assoc, Nat.add_sub_cancel]
      have : p'.r (a.length + k) = col (a.length + k) := if_pos (Or.inr (by omega))
      rw [this, hc]
    · intro l hl'; cases Option.some.inj hl'; omega

example : ∃ v, CoAxialPos.nodesOd (numbered [[exLen 1, exLen 2], [exLen 3]]) = .ok v ∧ v.length = 5 := by
  obtain ⟨v, h1, h2, -⟩ := C131_diameters_partial (a := [exLen 1, exLen 2]) (b := [exLen 3]) (by simp) (by simp)
  exact ⟨v, h1, h2⟩

example : ∃ p v, positions (numbered exPosEven) exPosEvenBr = .ok p ∧ CoAxialPos.nodesPos (numbered exPosEven) p = .ok v ∧
    v.length = 5 := by
  have hne : ∀ l ∈ exPosEven, l ≠ [] := by simp [exPosEven]
  obtain ⟨p, hp, -⟩ := C129_spans_partial hne exPosEven_even
  obtain ⟨v, hv⟩ := C131_three_partial hne (by simp [exPosEven]) (by simp [exPosEven]) p
  exact ⟨p, v, hp, hv, C131_count hne (by simp [exPosEven]) hv⟩

/-- Two shafts of length 1 that are not linked: the furthest end is at 2. -/
example : ∃ p, positions (numbered [[exLen 1], [exLen 1]]) [.brg false (exBrg 0 none 1 1)] = .ok p ∧
    rotorLength (numbered [[exLen 1], [exLen 1]]) p = .ok 2 ∧ FurthestEnd (numbered [[exLen 1], [exLen 1]]) p 2 := by
  have hne : ∀ l ∈ [[exLen 1], [exLen 1]], l ≠ [] := by simp
  have hs : Straight (numbered [[exLen 1], [exLen 1]]) := numbered_straight hne
  have key : ∃ p, positions (numbered [[exLen 1], [exLen 1]]) [.brg false (exBrg 0 none 1 1)] = .ok p ∧
      p.r 0 = 1 ∧ p.r 1 = 2 := by
    unfold positions
    simp only [hs.sort]
    simp [numbered, before, allLoop, shaftLoop, step, colL, colN, linkOf, nodeOf, before1, exLen, exBrg,
      BrgEl.isSeal, BrgEl.n_link, BrgEl.n, BrgEl.base]
    refine ⟨_, rfl, ?_, ?_⟩
    · simp [Function.update]
    · simp [Function.update]
      norm_num
  obtain ⟨p, hp, h0, h1⟩ := key
  obtain ⟨v, hv⟩ := C131_three_partial hne (by simp) (by simp) p
  obtain ⟨inner, -, h2⟩ := nodesPos_eq hne p
  have hL : rotorLength (numbered [[exLen 1], [exLen 1]]) p = .ok 2 := by
    unfold rotorLength
    refine BearingLemmas.bind_ok.2 ⟨v, hv, ?_⟩
    rw [h2] at hv
    obtain ⟨ends, -, h4⟩ := BearingLemmas.bind_ok.1 hv
    cases Except.ok.inj h4
    simp [h1]
  refine ⟨p, hp, hL, C131_length_partial hne (by simp) hL ?_⟩
  intro c hc
  have hc : c < 2 := hc
  have : ([[exLen 1], [exLen 1]] : List (List ShaftEl)).flatten.length - 1 = 1 := rfl
  rw [this, h1]
  obtain rfl | rfl : c = 0 ∨ c = 1 := by omega
  · rw [h0]; norm_num
  · rw [h1]

end Ross.Props
