import Verif.Spec.CoAxialPos
import Verif.Lemmas.CoAxialPos
import Verif.Props.CoAxialDofs
import Verif.Lemmas.ExRotor

/-! # C129: the axial positions of coaxial rotors -/

namespace Ross.CoAxialPosLemmas

open Ross Ross.Rotor Ross.CoAxialPos Ross.Spec.CoAxial

theorem flat_get {α : Type} : ∀ (ls : List (List α)) {p : ℕ} {l : List α}, ls[p]? = some l → ∀ {q : ℕ}, q < l.length →
    ls.flatten[((ls.take p).map List.length).sum + q]? = l[q]? := by
  intro ls
  induction ls with
  | nil => intro p l h; simp at h
  | cons a ls ih =>
    intro p l h q hq
    rcases p with - | p
    · cases Option.some.inj h
      simp [List.getElem?_append_left hq]
    · have := ih (p := p) (l := l) (by simpa using h) hq
      rw [List.flatten_cons, List.getElem?_append_right (by simp [List.take_succ_cons]; omega), ← this]
      congr 1
      simp [List.take_succ_cons]
      omega

theorem before_lt {ls : List (List ShaftEl)} {p : ℕ} {l : List ShaftEl} (h : ls[p]? = some l) :
    before ls p + l.length ≤ ls.flatten.length := by
  by_contra hc
  rcases Nat.eq_zero_or_pos l.length with h0 | h0
  · have : before ls p ≤ ls.flatten.length := by
      unfold before
      rw [List.length_flatten]
      exact ((List.take_sublist p ls).map List.length).sum_le_sum (by simp)
    omega
  · have := flat_get ls h (q := l.length - 1) (by omega)
    rw [List.getElem?_eq_none (by unfold before at hc; omega), List.getElem?_eq_getElem (by omega)] at this
    cases this

theorem before_succ {ls : List (List ShaftEl)} {p : ℕ} {l : List ShaftEl} (h : ls[p]? = some l) :
    before ls (p + 1) = before ls p + l.length := by
  unfold before
  rw [List.take_succ, h]
  simp

theorem before_mono {ls : List (List ShaftEl)} {p q : ℕ} (h : p ≤ q) : before ls p ≤ before ls q := by
  unfold before
  have : ls.take p = (ls.take q).take p := by rw [List.take_take, Nat.min_eq_left h]
  rw [this]
  exact ((List.take_sublist p _).map List.length).sum_le_sum (by simp)

/-- What is used of the numbering. -/
structure Straight (ls : List (List ShaftEl)) : Prop where
  ne : ∀ (p : ℕ) l, ls[p]? = some l → l ≠ []
  node : ∀ (p : ℕ) l, ls[p]? = some l → ∀ (q : ℕ) e, l[q]? = some e → nodeOf e = before ls p + q + p
  sort : sortShaft ls.flatten = ls.flatten

theorem numbered_straight {raw : List (List ShaftEl)} (hne : ∀ l ∈ raw, l ≠ []) : Straight (numbered raw) := by
  have hlen : (numbered raw).map List.length = raw.map List.length := by
    apply List.ext_getElem?
    intro n
    simp only [numbered, List.getElem?_map, List.getElem?_mapIdx, Option.map_map]
    cases raw[n]? <;> simp
  have hb : ∀ p, before (numbered raw) p = before raw p := by
    intro p
    unfold before
    rw [List.map_take, List.map_take, hlen]
  have hnum : numbered raw = CoAxialLemmas.numb 0 0 raw := by
    rw [CoAxialLemmas.numb_eq]
    simp only [Nat.zero_add]
    rfl
  constructor
  · intro p l hl
    simp only [numbered, List.getElem?_mapIdx] at hl
    obtain ⟨l', hl', rfl⟩ := Option.map_eq_some_iff.1 hl
    have := hne l' (List.mem_of_getElem? hl')
    intro hc
    exact this (by simpa using hc)
  · intro p l hl q e he
    rw [hb]
    simp only [numbered, List.getElem?_mapIdx] at hl
    obtain ⟨l', hl', rfl⟩ := Option.map_eq_some_iff.1 hl
    rw [List.getElem?_mapIdx] at he
    obtain ⟨e', he', rfl⟩ := Option.map_eq_some_iff.1 he
    simp only [nodeOf, Option.getD_some]
    omega
  · rw [hnum]
    exact CoAxialLemmas.sort_numb 0 0 raw

theorem linkOf_some {br : List BrgEl} {n b : ℕ} (h : linkOf br n = some b) :
    ∃ x ∈ br, x.isSeal = false ∧ x.n_link = some n ∧ x.n = b := by
  unfold linkOf at h
  obtain ⟨x, hx, rfl⟩ := Option.map_eq_some_iff.1 h
  have h1 := List.mem_of_find?_eq_some hx
  have h2 := List.find?_some hx
  obtain ⟨h3, h4⟩ := List.mem_filter.1 h1
  exact ⟨x, h3, by simpa using h4, by simpa using h2, rfl⟩

theorem linkOf_none {br : List BrgEl} {n : ℕ} (h : ∀ x ∈ br, x.isSeal = false → x.n_link ≠ some n) : linkOf br n = none := by
  unfold linkOf
  rw [Option.map_eq_none_iff, List.find?_eq_none]
  intro x hx
  obtain ⟨h3, h4⟩ := List.mem_filter.1 hx
  simpa using h x h3 (by simpa using h4)

theorem colL_at {ls : List (List ShaftEl)} {p q : ℕ} {l : List ShaftEl} {e : ShaftEl} (hl : ls[p]? = some l)
    (he : l[q]? = some e) : colL ls.flatten (before ls p + q) = e.s.L := by
  unfold colL before
  rw [flat_get ls hl (List.getElem?_eq_some_iff.1 he).1, he]
  rfl

theorem colN_at {ls : List (List ShaftEl)} {p q : ℕ} {l : List ShaftEl} {e : ShaftEl} (hl : ls[p]? = some l)
    (he : l[q]? = some e) : colN ls.flatten (before ls p + q) = nodeOf e := by
  unfold colN before
  rw [flat_get ls hl (List.getElem?_eq_some_iff.1 he).1, he]
  rfl

/-- The loop succeeds and places all shafts. -/
theorem positions_placed {ls : List (List ShaftEl)} {br : List BrgEl} (hs : Straight ls) (hc : CarriedEvenly ls br) :
    ∃ s, positions ls br = .ok s ∧ ∀ p l, ls[p]? = some l →
      Placed (colL ls.flatten) ls.flatten.length (linkOf br) (before ls p) p l.length s := by
  have key := all_spec (L := colL ls.flatten) (nl := colN ls.flatten) (N := ls.flatten.length) (link := linkOf br) ls 0 0
    ⟨fun _ => 0, fun _ => 0⟩ ?_ ?_ ?_ (fun m hm => by omega) (fun _ => rfl) ?_
  · obtain ⟨s, h1, -, h2⟩ := key
    refine ⟨s, ?_, fun p l hl => by simpa using h2 p l hl⟩
    unfold positions
    simp only [hs.sort]
    exact h1
  · intro p l hl
    refine ⟨hs.ne p l hl, fun q e he => ?_⟩
    have := hs.node p l hl q e he
    omega
  · rw [List.length_flatten]
    omega
  · intro p l hl q hq hq0
    have e1 := colN_at hl (List.getElem?_eq_getElem hq)
    have e2 := colN_at hl (List.getElem?_eq_getElem (show q - 1 < l.length by omega))
    have n1 := hs.node p l hl q _ (List.getElem?_eq_getElem hq)
    have n2 := hs.node p l hl (q - 1) _ (List.getElem?_eq_getElem (show q - 1 < l.length by omega))
    have e3 : 0 + before ls p + q - 1 = before ls p + (q - 1) := by omega
    rw [e3, Nat.zero_add, e1, e2, n1, n2]
    omega
  · intro p l hl q hq
    simp only [Nat.zero_add]
    have hL := colL_at hl (List.getElem?_eq_getElem hq)
    have hlen : HasLength ls p q (l[q]).s.L := ⟨l, _, hl, List.getElem?_eq_getElem hq, rfl⟩
    have first : ∀ m ℓ, HasLength ls 0 m ℓ → 1 ≤ p → m < before ls p ∧ colL ls.flatten m = ℓ := by
      rintro m ℓ ⟨l0, e0, h0, h1, rfl⟩ hp
      have hb0 : before ls 0 = 0 := by simp [before]
      have h2 := before_mono (ls := ls) hp
      have h3 := before_succ h0
      have h4 := (List.getElem?_eq_some_iff.1 h1).1
      have h5 := colL_at h0 h1
      rw [hb0, Nat.zero_add] at h5
      exact ⟨by rw [Nat.zero_add] at h3; omega, h5⟩
    constructor
    · intro b hb
      obtain ⟨x, hx, hxs, hxl, rfl⟩ := linkOf_some hb
      have hto : LinksTo ls x p q := ⟨hxs, by rw [hxl]; congr 1; omega, l, hl, hq.le⟩
      obtain ⟨h1, h2, -⟩ := hc x hx p q hto
      obtain ⟨g1, g2⟩ := first _ _ (h2 _ hlen) h1
      exact ⟨h1, g1, by rw [g2, hL]⟩
    · intro b _ hb
      obtain ⟨x, hx, hxs, hxl, rfl⟩ := linkOf_some hb
      have hto : LinksTo ls x p (q + 1) := ⟨hxs, by rw [hxl]; congr 1; omega, l, hl, hq⟩
      obtain ⟨h1, -, h3⟩ := hc x hx p (q + 1) hto
      obtain ⟨h4, h5⟩ := h3 _ (by omega) (by simpa using hlen)
      obtain ⟨g1, g2⟩ := first _ _ h5 h1
      exact ⟨h4, by omega, by rw [g2, hL]⟩

end Ross.CoAxialPosLemmas

namespace Ross.Props

open Ross Ross.Rotor Ross.CoAxialPos Ross.Spec.CoAxial Ross.CoAxialPosLemmas Ross.RotorLemmas

variable {raw : List (List ShaftEl)} {br : List BrgEl}

/-- **C129 (partial)** in a coaxial rotor whose linked elements have equal lengths, each shaft element spans its
length, and the next one of its shaft begins where it ends.  Missing: elements of different lengths, see
`C129_lengths_false`. -/
theorem C129_spans_partial (hne : ∀ l ∈ raw, l ≠ []) (hc : CarriedEvenly (numbered raw) br) :
    ∃ p, positions (numbered raw) br = .ok p ∧ ∀ j k ℓ, HasLength (numbered raw) j k ℓ →
      p.r (before (numbered raw) j + k) = p.l (before (numbered raw) j + k) + ℓ ∧
      ∀ ℓ', HasLength (numbered raw) j (k + 1) ℓ' →
        p.l (before (numbered raw) j + (k + 1)) = p.r (before (numbered raw) j + k) := by
  obtain ⟨p, hp, hpl⟩ := positions_placed (numbered_straight hne) hc
  refine ⟨p, hp, ?_⟩
  rintro j k ℓ ⟨l, e, hl, he, rfl⟩
  obtain ⟨x, hx, -⟩ := hpl j l hl
  have hk := (List.getElem?_eq_some_iff.1 he).1
  obtain ⟨h1, h2⟩ := hx k hk
  refine ⟨by rw [h1, h2, colL_at hl he], ?_⟩
  rintro ℓ' ⟨l', e', hl', he', rfl⟩
  cases Option.some.inj (hl.symm.trans hl')
  obtain ⟨h3, -⟩ := hx (k + 1) (List.getElem?_eq_some_iff.1 he').1
  rw [h2, h3, upTo_succ]
  ring

/-- **C129 (partial)** the first shaft begins at 0, when there are two elements or more. -/
theorem C129_first_partial (hne : ∀ l ∈ raw, l ≠ []) (hc : CarriedEvenly (numbered raw) br) (h2 : 2 ≤ raw.flatten.length)
    (h0 : raw ≠ []) : ∃ p, positions (numbered raw) br = .ok p ∧ NodeAt (numbered raw) p 0 0 0 := by
  obtain ⟨p, hp, hpl⟩ := positions_placed (numbered_straight hne) hc
  have hs := numbered_straight hne
  refine ⟨p, hp, ?_⟩
  obtain ⟨a, t, rfl⟩ := List.exists_cons_of_ne_nil h0
  obtain ⟨l, hl⟩ : ∃ l, (numbered (a :: t))[0]? = some l := by simp [numbered]
  obtain ⟨x, hx, -, -, hf⟩ := hpl 0 l hl
  have hb0 : before (numbered (a :: t)) 0 = 0 := by simp [before]
  have hlen : (numbered (a :: t)).flatten.length = (a :: t).flatten.length := by
    rw [List.length_flatten, List.length_flatten]
    congr 1
    apply List.ext_getElem?
    intro n
    simp only [numbered, List.getElem?_map, List.getElem?_mapIdx, Option.map_map]
    cases (a :: t)[n]? <;> simp
  have hfree : ∀ m ≤ l.length, linkOf br m = none := by
    intro m hm
    apply linkOf_none
    intro b hb hbs hbl
    have := (hc b hb 0 m ⟨hbs, by rw [hbl, hb0]; simp, l, hl, hm⟩).1
    omega
  have hx0 : x = 0 := by
    refine (hf fun q hq => ?_).2 hb0 (by rw [hlen]; exact h2)
    rw [hb0]
    exact ⟨hfree _ (by omega), hfree _ (by omega)⟩
  refine ⟨l, hl, fun h => ?_, by omega⟩
  obtain ⟨h1, -⟩ := hx 0 h
  rw [h1, hx0]
  simp [upTo]

/-- **C129 (partial)** a shaft that no bearing links to begins where the one before it in the list ends. -/
theorem C129_free_partial (hne : ∀ l ∈ raw, l ≠ []) (hc : CarriedEvenly (numbered raw) br) {j : ℕ} (hj : j + 1 < raw.length)
    (hno : ∀ b ∈ br, ∀ k, ¬ LinksTo (numbered raw) b (j + 1) k) :
    ∃ p l z, positions (numbered raw) br = .ok p ∧ (numbered raw)[j]? = some l ∧
      NodeAt (numbered raw) p j l.length z ∧ NodeAt (numbered raw) p (j + 1) 0 z := by
  obtain ⟨p, hp, hpl⟩ := positions_placed (numbered_straight hne) hc
  have hs := numbered_straight hne
  have hlen : (numbered raw).length = raw.length := by simp [numbered]
  obtain ⟨l, hl⟩ : ∃ l, (numbered raw)[j]? = some l := ⟨_, List.getElem?_eq_getElem (by omega)⟩
  obtain ⟨l', hl'⟩ : ∃ l, (numbered raw)[j + 1]? = some l := ⟨_, List.getElem?_eq_getElem (by omega)⟩
  obtain ⟨x, hx, -, -, hf⟩ := hpl (j + 1) l' hl'
  have hb := before_succ hl
  have hpos : 0 < l.length := List.length_pos_of_ne_nil (hs.ne j l hl)
  have hpos' : 0 < l'.length := List.length_pos_of_ne_nil (hs.ne _ l' hl')
  have hx0 : x = p.r (before (numbered raw) (j + 1) - 1) := by
    refine (hf fun q hq => ⟨?_, ?_⟩).1 (by omega)
    · exact linkOf_none fun b hb' hbs hbl => hno b hb' q ⟨hbs, by rw [hbl]; congr 1; omega, l', hl', by omega⟩
    · exact linkOf_none fun b hb' hbs hbl => hno b hb' (q + 1) ⟨hbs, by rw [hbl]; congr 1; omega, l', hl', by omega⟩
  refine ⟨p, l, x, hp, hl, ⟨l, hl, fun h => by omega, fun _ _ => ?_⟩, ⟨l', hl', fun h => ?_, by omega⟩⟩
  · rw [hx0, hb]
  · rw [(hx 0 h).1]
    simp [upTo]

/-- **C129 (partial)** a shaft that one bearing links to is at that bearing: the node that is linked to has the
position of the node of the first shaft that the bearing is on. -/
theorem C129_carried_partial (hne : ∀ l ∈ raw, l ≠ []) (hc : CarriedEvenly (numbered raw) br) {b : BrgEl} (hb : b ∈ br)
    {j k : ℕ} (hto : LinksTo (numbered raw) b j k)
    (honly : ∀ b' ∈ br, ∀ k', LinksTo (numbered raw) b' j k' → k' = k ∧ b'.n = b.n) :
    ∃ p z, positions (numbered raw) br = .ok p ∧ NodeAt (numbered raw) p 0 b.n z ∧ NodeAt (numbered raw) p j k z := by
  obtain ⟨p, hp, hpl⟩ := positions_placed (numbered_straight hne) hc
  have hs := numbered_straight hne
  set ls := numbered raw with hls
  obtain ⟨hbs, hbl, l, hl, hk⟩ := hto
  have hb0 : before ls 0 = 0 := by simp [before]
  obtain ⟨hj, hright, hleft⟩ := hc b hb j k ⟨hbs, hbl, l, hl, hk⟩
  obtain ⟨x, hx, hL, hR, -⟩ := hpl j l hl
  -- the links into this shaft
  have hnone : ∀ k', k' ≤ l.length → k' ≠ k → linkOf br (before ls j + j + k') = none := by
    intro k' hk' hne'
    exact linkOf_none fun b' hb' hs' hl' => hne' (honly b' hb' k' ⟨hs', hl', l, hl, hk'⟩).1
  have hsome : linkOf br (before ls j + j + k) = some b.n := by
    cases h : linkOf br (before ls j + j + k) with
    | none =>
      unfold linkOf at h
      rw [Option.map_eq_none_iff, List.find?_eq_none] at h
      exact absurd (by simpa using hbl) (h b (List.mem_filter.2 ⟨hb, by simpa using hbs⟩))
    | some y =>
      obtain ⟨b', hb', hs', hl', rfl⟩ := linkOf_some h
      rw [(honly b' hb' k ⟨hs', hl', l, hl, hk⟩).2]
  -- the first shaft
  have cont : ∀ (j : ℕ) l, ls[j]? = some l → ∀ m, 1 ≤ m → m < l.length →
      p.r (before ls j + m - 1) = p.l (before ls j + m) := by
    intro j l hl m h1 hm
    obtain ⟨x, hx, -⟩ := hpl j l hl
    have e1 := (hx m hm).1
    have e2 := (hx (m - 1) (by omega)).2
    rw [show before ls j + m - 1 = before ls j + (m - 1) by omega, e1, e2]
    have := upTo_succ (colL ls.flatten) (before ls j) (m - 1)
    rw [show m - 1 + 1 = m by omega] at this
    rw [this]
    ring
  rcases Nat.lt_or_ge k l.length with hlt | hge
  · obtain ⟨l0, e0, h0, he0, -⟩ := hright (l[k]).s.L ⟨l, _, hl, List.getElem?_eq_getElem hlt, rfl⟩
    have hn0 := (List.getElem?_eq_some_iff.1 he0).1
    have hz : p.l (before ls j + k) = p.l b.n := by
      refine hL k hlt b.n (by rw [← hsome]; congr 1; omega) fun q h1 h2 => ⟨?_, ?_⟩
      · rw [← hnone q (by omega) (by omega)]; congr 1; omega
      · rw [← hnone (q + 1) (by omega) (by omega)]; congr 1; omega
    refine ⟨p, p.l b.n, hp, ⟨l0, h0, fun _ => by rw [hb0, Nat.zero_add], fun h1 _ => ?_⟩, ⟨l, hl, fun _ => hz, fun h1 _ => ?_⟩⟩
    · rw [cont 0 l0 h0 b.n h1 hn0, hb0, Nat.zero_add]
    · rw [cont j l hl k h1 hlt, hz]
  · have hkl : k = l.length := by omega
    have hpos : 0 < l.length := List.length_pos_of_ne_nil (hs.ne j l hl)
    obtain ⟨hbn, l0, e0, h0, he0, -⟩ := hleft (l[k - 1]).s.L (by omega)
      ⟨l, _, hl, List.getElem?_eq_getElem (by omega), rfl⟩
    have hn0 := (List.getElem?_eq_some_iff.1 he0).1
    have hz : p.r (before ls j + (k - 1)) = p.r (b.n - 1) := by
      refine hR (k - 1) (by omega) b.n ?_ ?_ fun q h1 h2 => by omega
      · rw [← hnone (k - 1) (by omega) (by omega)]; congr 1; omega
      · rw [← hsome]; congr 1; omega
    refine ⟨p, p.r (b.n - 1), hp, ⟨l0, h0, fun h1 => ?_, fun h1 _ => by rw [hb0, Nat.zero_add]⟩,
      ⟨l, hl, fun h1 => by omega, fun h1 _ => ?_⟩⟩
    · rw [← cont 0 l0 h0 b.n hbn h1, hb0, Nat.zero_add]
    · rw [← hz]
      congr 1
      omega

/-- **C129 (partial)** with two shafts the list of the positions of the nodes has one value for each node, that of the
ends of the elements at it.  Missing: more shafts, see `C129_nodes_false`. -/
theorem C129_nodes_partial {a b : List ShaftEl} (ha : a ≠ []) (hb : b ≠ []) (p : Pos) :
    ∃ v, CoAxialPos.nodesPos (numbered [a, b]) p = .ok v ∧ v.length = a.length + b.length + 2 ∧
      ∀ j k z, NodeAt (numbered [a, b]) p j k z → (∀ l, [a, b][j]? = some l → k ≤ l.length) →
        v[before [a, b] j + j + k]? = some z := by
  have hs : Straight (numbered [a, b]) := numbered_straight (by simp [ha, hb])
  set ls := numbered [a, b] with hls
  obtain ⟨a', ha'⟩ : ∃ l, ls[0]? = some l := by simp [hls, numbered]
  obtain ⟨b', hb'⟩ : ∃ l, ls[1]? = some l := by simp [hls, numbered]
  have hab : ls = [a', b'] := by
    have h2 : ls.length = 2 := by simp [hls, numbered]
    apply List.ext_getElem?
    intro n
    match n with
    | 0 => exact ha'
    | 1 => exact hb'
    | n + 2 => simp [h2]
  have hla : a'.length = a.length := by
    rw [hls] at ha'
    simp [numbered] at ha'
    rw [← ha']; simp
  have hlb : b'.length = b.length := by
    rw [hls] at hb'
    simp [numbered] at hb'
    rw [← hb']; simp
  have hpa : 0 < a.length := List.length_pos_of_ne_nil ha
  have hpb : 0 < b.length := List.length_pos_of_ne_nil hb
  have b0 : before ls 0 = 0 := by simp [before]
  have b1 : before ls 1 = a.length := by rw [hab]; simp [before, hla]
  have na : ∀ q e, a'[q]? = some e → nodeOf e = q := fun q e he => by
    have := hs.node 0 a' ha' q e he
    omega
  have nb : ∀ q e, b'[q]? = some e → nodeOf e = a.length + q + 1 := fun q e he => by
    have := hs.node 1 b' hb' q e he
    omega
  have hN : ls.flatten.length = a.length + b.length := by rw [hab]; simp [hla, hlb]
  have hcol : ∀ c < a.length + b.length, colN ls.flatten c = if c < a.length then c else c + 1 := by
    intro c hc
    split
    · next h =>
      have := colN_at ha' (List.getElem?_eq_getElem (show c < a'.length by omega))
      rw [b0, Nat.zero_add] at this
      rw [this]
      exact na _ _ (List.getElem?_eq_getElem _)
    · next h =>
      have := colN_at hb' (List.getElem?_eq_getElem (show c - a.length < b'.length by omega))
      rw [b1, show a.length + (c - a.length) = c by omega] at this
      rw [this, nb _ _ (List.getElem?_eq_getElem _)]
      omega
  have hmap : ls.flatten.map nodeOf = (List.range (a.length + b.length)).map (colN ls.flatten) := by
    apply List.ext_getElem (by rw [List.length_map, hN]; simp)
    intro n h1 h2
    rw [List.length_map] at h1
    rw [List.getElem_map, List.getElem_map, List.getElem_range]
    unfold colN
    rw [List.getElem?_eq_getElem h1]
    rfl
  have hinj : ∀ c < a.length + b.length, ∀ d < a.length + b.length, colN ls.flatten c = colN ls.flatten d → c = d := by
    intro c hc d hd h
    rw [hcol c hc, hcol d hd] at h
    split at h <;> split at h <;> omega
  have hgr : groups ls.flatten = (List.range (a.length + b.length)).map (colN ls.flatten) := by
    unfold groups
    rw [hmap]
    apply List.Nodup.dedup
    refine List.Nodup.map_on ?_ List.nodup_range
    intro c hc d hd h
    exact hinj c (List.mem_range.1 hc) d (List.mem_range.1 hd) h
  have hin : ((groups ls.flatten).map fun g =>
      ((((List.range ls.flatten.length).filter fun c => colN ls.flatten c = g).map p.l).max?).getD 0) =
      (List.range (a.length + b.length)).map p.l := by
    rw [hgr, List.map_map]
    apply List.map_congr_left
    intro c hc
    have hc := List.mem_range.1 hc
    have : (List.range ls.flatten.length).filter (fun d => decide (colN ls.flatten d = colN ls.flatten c)) = [c] := by
      rw [hN, List.filter_congr (q := fun d => d == c)]
      · rw [List.filter_beq, List.count_eq_one_of_mem List.nodup_range (List.mem_range.2 hc)]
        rfl
      · intro d hd
        rw [Bool.eq_iff_iff, decide_eq_true_eq, beq_iff_eq]
        exact ⟨fun h => hinj d (List.mem_range.1 hd) c hc h, fun h => by rw [h]⟩
    simp only [Function.comp, this]
    simp
  have hlast : ((a'.getLast?).map fun e => nodeOf e + 1).getD 0 = a.length := by
    rw [List.getLast?_eq_getElem?, List.getElem?_eq_getElem (by omega)]
    simp only [Option.map_some, Option.getD_some]
    rw [na _ _ (List.getElem?_eq_getElem _)]
    omega
  refine ⟨insertAt ((List.range (a.length + b.length)).map p.l) a.length (p.r (a.length - 1)) ++
    [p.r (a.length + b.length - 1)], ?_, ?_, ?_⟩
  · unfold CoAxialPos.nodesPos
    simp only [hs.sort, hin]
    rw [hN]
    have : ls.dropLast = [a'] := by rw [hab]; rfl
    rw [this]
    simp only [List.foldlM_cons, List.foldlM_nil, hlast]
    rw [if_pos (by omega)]
    rfl
  · simp [insertAt]
    omega
  · rintro j k z ⟨l, hl, h1, h2⟩ hk
    have hlen : (((List.range (a.length + b.length)).map p.l).take a.length).length = a.length := by simp
    unfold insertAt
    match j, hl, hk with
    | 0, hl, hk =>
      have hk := hk a rfl
      cases Option.some.inj (ha'.symm.trans hl)
      rw [b0] at h1 h2
      simp only [before, List.take_zero, List.map_nil, List.sum_nil, Nat.zero_add] at h1 h2 ⊢
      rw [List.append_assoc]
      rcases Nat.lt_or_ge k a.length with h | h
      · rw [List.getElem?_append_left (by omega), List.getElem?_take_of_lt h, List.getElem?_map,
          List.getElem?_range (by omega), Option.map_some, h1 (by omega)]
      · obtain rfl : k = a.length := by omega
        rw [List.getElem?_append_right (by omega), hlen, Nat.sub_self, ← h2 (by omega) (by omega)]
        rfl
    | 1, hl, hk =>
      have hk := hk b rfl
      cases Option.some.inj (hb'.symm.trans hl)
      rw [b1] at h1 h2
      have e1 : before [a, b] 1 + 1 + k = a.length + (k + 1) := by simp [before]; omega
      rw [e1, List.append_assoc, List.getElem?_append_right (by omega), hlen, Nat.add_sub_cancel_left, List.cons_append,
        List.getElem?_cons_succ]
      rcases Nat.lt_or_ge k b.length with h | h
      · rw [List.getElem?_append_left (by simp; omega), List.getElem?_drop, List.getElem?_map,
          List.getElem?_range (by omega), Option.map_some, h1 (by omega)]
      · obtain rfl : k = b.length := by omega
        rw [List.getElem?_append_right (by simp), ← h2 (by omega) (by omega)]
        simp
    | j + 2, hl, hk =>
      rw [hab] at hl
      simp at hl

/-- A shaft element of the given length. -/
noncomputable def exLen (ℓ : ℝ) : ShaftEl := ⟨false, { exShaft with L := ℓ }⟩

/-- Two elements of lengths 1 and 2, a second shaft of one element of length 3 that begins at the node between them. -/
noncomputable def exPosRaw : List (List ShaftEl) := [[exLen 1, exLen 2], [exLen 3]]

noncomputable def exPosBr : List BrgEl := [.brg false (exBrg 1 (some 3) 1 1)]

/-- **C129 (false in general)** a bearing that links elements of different lengths: the element of length 3 of the second
shaft is given the ends 1 and 3. -/
theorem C129_lengths_false : HasLength (numbered exPosRaw) 1 0 3 ∧
    ∃ p, positions (numbered exPosRaw) exPosBr = .ok p ∧ p.l 2 = 1 ∧ p.r 2 = 3 := by
  have hs : Straight (numbered exPosRaw) := numbered_straight (by simp [exPosRaw])
  refine ⟨⟨_, _, rfl, rfl, rfl⟩, ?_⟩
  unfold positions
  simp only [hs.sort]
  simp [numbered, exPosRaw, exPosBr, before, allLoop, shaftLoop, step, colL, colN, linkOf, nodeOf, before1, exLen, exBrg,
    BrgEl.isSeal, BrgEl.n_link, BrgEl.n, BrgEl.base]
  refine ⟨_, rfl, ?_, ?_⟩ <;> simp [addSlice, Function.update] <;> norm_num

/-- **C129 (false in general)** a coaxial rotor of one shaft of one element of length 3 begins at 3. -/
theorem C129_first_false : ∃ p, positions (numbered [[exLen 3]]) [.brg false (exBrg 0 none 1 1)] = .ok p ∧
    p.l 0 = 3 ∧ p.r 0 = 6 := by
  have hs : Straight (numbered [[exLen 3]]) := numbered_straight (by simp)
  unfold positions
  simp only [hs.sort]
  simp [numbered, before, allLoop, shaftLoop, step, colL, colN, linkOf, nodeOf, before1, exLen, exBrg,
    BrgEl.isSeal, BrgEl.n_link, BrgEl.n, BrgEl.base]
  norm_num
  refine ⟨_, rfl, ?_, ?_⟩ <;> simp [addSlice, Function.update] <;> norm_num

/-- **C129 (false in general)** of three shafts of one element of length 1, none linked, the second ends at 2 but the list
of the positions of the nodes has 3 for its last node. -/
theorem C129_nodes_false : ∃ p, positions (numbered [[exLen 1], [exLen 1], [exLen 1]]) [.brg false (exBrg 0 none 1 1)] = .ok p ∧
    NodeAt (numbered [[exLen 1], [exLen 1], [exLen 1]]) p 1 1 2 ∧
    CoAxialPos.nodesPos (numbered [[exLen 1], [exLen 1], [exLen 1]]) p = .ok [0, 1, 1, 3, 2, 3] := by
  have hs : Straight (numbered [[exLen 1], [exLen 1], [exLen 1]]) := numbered_straight (by simp)
  unfold positions CoAxialPos.nodesPos
  simp only [hs.sort]
  simp [numbered, before, allLoop, shaftLoop, step, colL, colN, linkOf, nodeOf, before1, exLen, exBrg,
    BrgEl.isSeal, BrgEl.n_link, BrgEl.n, BrgEl.base, NodeAt, groups, insertAt, List.range, List.range.loop]
  refine ⟨_, rfl, ?_, ?_⟩
  · simp [Function.update]
    norm_num
  · simp [Function.update, List.range, List.range.loop]
    norm_num
    rfl

/-- Two elements of lengths 1 and 2, a second shaft of one element of length 2 carried at its end by the end of the first. -/
noncomputable def exPosEven : List (List ShaftEl) := [[exLen 1, exLen 2], [exLen 2]]

noncomputable def exPosEvenBr : List BrgEl := [.brg false (exBrg 2 (some 4) 1 1)]

theorem exPosEven_even : CarriedEvenly (numbered exPosEven) exPosEvenBr := by
  rintro b hb j k ⟨-, hl, l, hlj, hk⟩
  simp only [exPosEvenBr, List.mem_singleton] at hb
  subst hb
  have hlink : (BrgEl.brg false (exBrg 2 (some 4) 1 1)).n_link = some 4 := rfl
  have hn : (BrgEl.brg false (exBrg 2 (some 4) 1 1)).n = 2 := rfl
  rw [hlink] at hl
  have hl := Option.some.inj hl
  rw [hn]
  match j, hl, hlj with
  | 0, hl, hlj =>
    have : l.length = 2 := by
      cases Option.some.inj hlj
      rfl
    simp [before] at hl
    omega
  | 1, hl, hlj =>
    have hb : before (numbered exPosEven) 1 = 2 := rfl
    rw [hb] at hl
    obtain rfl : k = 1 := by omega
    refine ⟨le_refl _, ?_, ?_⟩
    · rintro ℓ ⟨l', e, h1, h2, -⟩
      cases Option.some.inj h1
      cases h2
    · rintro ℓ - ⟨l', e, h1, h2, rfl⟩
      cases Option.some.inj h1
      cases Option.some.inj h2
      exact ⟨by omega, _, _, rfl, rfl, rfl⟩
  | j + 2, hl, hlj =>
    simp [numbered, exPosEven] at hlj

example : ∃ p z, positions (numbered exPosEven) exPosEvenBr = .ok p ∧ NodeAt (numbered exPosEven) p 0 2 z ∧
    NodeAt (numbered exPosEven) p 1 1 z := by
  have hne : ∀ l ∈ exPosEven, l ≠ [] := by simp [exPosEven]
  refine C129_carried_partial (b := .brg false (exBrg 2 (some 4) 1 1)) hne exPosEven_even (by simp [exPosEvenBr])
    ⟨rfl, rfl, _, rfl, le_refl _⟩ ?_
  rintro b' hb' k' ⟨-, hl, -⟩
  simp only [exPosEvenBr, List.mem_singleton] at hb'
  subst hb'
  refine ⟨?_, rfl⟩
  have : (4 : ℕ) = 2 + 1 + k' := Option.some.inj hl
  omega

example : ∃ p, positions (numbered exPosEven) exPosEvenBr = .ok p ∧ NodeAt (numbered exPosEven) p 0 0 0 :=
  C129_first_partial (by simp [exPosEven]) exPosEven_even (by simp [exPosEven]) (by simp [exPosEven])

end Ross.Props
