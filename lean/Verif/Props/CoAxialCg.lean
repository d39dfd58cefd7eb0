import Verif.Spec.CoAxialCg
import Verif.Props.CoAxialPos

/-! # C130: the centre of mass of coaxial rotors -/

namespace Ross.CoAxialPosLemmas

open Ross Ross.Rotor Ross.CoAxialPos Ross.Spec.CoAxial

/-- The rows before those of the shaft stay. -/
theorem step_below {L : ℕ → ℝ} {nl : ℕ → ℕ} {N : ℕ} {link : ℕ → Option ℕ} {i k n : ℕ} {s s' : Pos}
    (h : step L nl N link i k n s = .ok s') : ∀ m < i, s'.l m = s.l m := by
  intro m hm
  unfold step at h
  have hne : m ≠ k + i := by omega
  simp only at h
  split at h
  · split at h
    · cases Except.ok.inj h
      simp only [shift_frame _ _ _ _ hm]
      split <;> simp [Function.update_of_ne hne]
    · cases h
  · split at h
    · split at h
      · cases Except.ok.inj h
        simp only [shift_frame _ _ _ _ hm]
        split <;> simp [Function.update_of_ne hne]
      · cases h
    · cases Except.ok.inj h
      split <;> simp [Function.update_of_ne hne]

/-- Without links all other rows stay. -/
theorem step_free {L : ℕ → ℝ} {nl : ℕ → ℕ} {N : ℕ} {link : ℕ → Option ℕ} {i k n : ℕ} {s s' : Pos}
    (h : step L nl N link i k n s = .ok s') (h1 : link n = none) (h2 : link (n + 1) = none) :
    ∀ m, m ≠ k + i → s'.l m = s.l m := by
  intro m hne
  unfold step at h
  simp only [h1, h2] at h
  cases Except.ok.inj h
  split <;> simp [Function.update_of_ne hne]

theorem shaft_below {L : ℕ → ℝ} {nl : ℕ → ℕ} {N : ℕ} {link : ℕ → Option ℕ} {i : ℕ} : ∀ (t : List ShaftEl) {k : ℕ}
    {s s' : Pos}, shaftLoop L nl N link i k t s = .ok s' → ∀ m < i, s'.l m = s.l m := by
  intro t
  induction t with
  | nil => intro k s s' h m _; cases Except.ok.inj h; rfl
  | cons e t ih =>
    intro k s s' h m hm
    obtain ⟨s1, e1, h⟩ := BearingLemmas.bind_ok.1 h
    rw [ih h m hm, step_below e1 m hm]

theorem all_below {L : ℕ → ℝ} {nl : ℕ → ℕ} {N : ℕ} {link : ℕ → Option ℕ} : ∀ (ls : List (List ShaftEl)) {i : ℕ}
    {s s' : Pos}, allLoop L nl N link i ls s = .ok s' → ∀ m < i, s'.l m = s.l m := by
  intro ls
  induction ls with
  | nil => intro i s s' h m _; cases Except.ok.inj h; rfl
  | cons l ls ih =>
    intro i s s' h m hm
    obtain ⟨s1, e1, h⟩ := BearingLemmas.bind_ok.1 h
    rw [ih h m (by omega), shaft_below l e1 m hm]

/-- Further elements without links: earlier rows stay. -/
theorem shaft_free {L : ℕ → ℝ} {nl : ℕ → ℕ} {N : ℕ} {link : ℕ → Option ℕ} {i : ℕ} : ∀ (t : List ShaftEl) {k : ℕ}
    {s s' : Pos}, shaftLoop L nl N link i k t s = .ok s' →
    (∀ e ∈ t, link (nodeOf e) = none ∧ link (nodeOf e + 1) = none) → ∀ m < k + i, s'.l m = s.l m := by
  intro t
  induction t with
  | nil => intro k s s' h _ m _; cases Except.ok.inj h; rfl
  | cons e t ih =>
    intro k s s' h hf m hm
    obtain ⟨s1, e1, h⟩ := BearingLemmas.bind_ok.1 h
    have := hf e List.mem_cons_self
    rw [ih h (fun e he => hf e (List.mem_cons_of_mem _ he)) m (by omega), step_free e1 this.1 this.2 m (by omega)]

/-- The attributes of one shaft, if only its first element may be linked. -/
theorem shaftCg_spec {L : ℕ → ℝ} {nl : ℕ → ℕ} {N : ℕ} {link : ℕ → Option ℕ} {i : ℕ} : ∀ (t : List ShaftEl) {k : ℕ}
    {s s' : Pos}, shaftLoop L nl N link i k t s = .ok s' →
    (∀ e ∈ t.tail, link (nodeOf e) = none ∧ link (nodeOf e + 1) = none) →
    ∃ a, shaftCg L nl N link i k t s = .ok a ∧ a.length = t.length ∧
      ∀ (q : ℕ) e, t[q]? = some e → a[q]? = some (s'.l (k + i + q) + e.s.beam_cg) := by
  intro t
  induction t with
  | nil => intro k s s' h _; exact ⟨[], rfl, rfl, by simp⟩
  | cons e t ih =>
    intro k s s' h hf
    obtain ⟨s1, e1, h⟩ := BearingLemmas.bind_ok.1 h
    simp only [List.tail_cons] at hf
    obtain ⟨a, h1, h2, h3⟩ := ih h fun e he => hf e (List.mem_of_mem_tail he)
    refine ⟨(e.s.beam_cg + s1.l (k + i)) :: a,
      BearingLemmas.bind_ok.2 ⟨s1, e1, BearingLemmas.bind_ok.2 ⟨a, h1, rfl⟩⟩, by simp [h2], ?_⟩
    intro q e' he'
    rcases q with - | q
    · cases Option.some.inj he'
      rw [List.getElem?_cons_zero, Nat.add_zero, shaft_free t h hf (k + i) (by omega), add_comm]
    · rw [List.getElem?_cons_succ] at he' ⊢
      rw [h3 q e' he']
      congr 3
      omega

theorem allCg_spec {L : ℕ → ℝ} {nl : ℕ → ℕ} {N : ℕ} {link : ℕ → Option ℕ} : ∀ (ls : List (List ShaftEl)) {i : ℕ}
    {s s' : Pos}, allLoop L nl N link i ls s = .ok s' →
    (∀ l ∈ ls, ∀ e ∈ l.tail, link (nodeOf e) = none ∧ link (nodeOf e + 1) = none) →
    ∃ a, allCg L nl N link i ls s = .ok a ∧ a.length = ls.flatten.length ∧
      ∀ (q : ℕ) e, ls.flatten[q]? = some e → a[q]? = some (s'.l (i + q) + e.s.beam_cg) := by
  intro ls
  induction ls with
  | nil => intro i s s' h _; exact ⟨[], rfl, rfl, by simp⟩
  | cons l ls ih =>
    intro i s s' h hf
    obtain ⟨s1, e1, h⟩ := BearingLemmas.bind_ok.1 h
    obtain ⟨a, h1, h2, h3⟩ := shaftCg_spec l e1 (hf l List.mem_cons_self)
    obtain ⟨b, g1, g2, g3⟩ := ih h fun l hl => hf l (List.mem_cons_of_mem _ hl)
    refine ⟨a ++ b, BearingLemmas.bind_ok.2 ⟨a, h1, BearingLemmas.bind_ok.2 ⟨s1, e1,
      BearingLemmas.bind_ok.2 ⟨b, g1, rfl⟩⟩⟩, by rw [List.length_append, h2, g2, List.flatten_cons, List.length_append], ?_⟩
    intro q e he
    rw [List.flatten_cons] at he
    rcases Nat.lt_or_ge q l.length with hq | hq
    · rw [List.getElem?_append_left hq] at he
      rw [List.getElem?_append_left (by omega), h3 q e he, all_below ls h (i + q) (by omega), Nat.zero_add]
    · rw [List.getElem?_append_right hq] at he
      rw [List.getElem?_append_right (by omega), h2, g3 _ e he]
      congr 3
      omega

theorem moments {p : Pos} {M : ℝ} (hM : M ≠ 0) : ∀ (l : List ShaftEl) (a : List ℝ) (c : ℕ), a.length = l.length →
    (∀ (q : ℕ) e, l[q]? = some e → a[q]? = some (p.l (c + q) + e.s.beam_cg)) →
    M * (List.zipWith (fun (e : ShaftEl) x => e.s.m * x / M) l a).sum = shaftMoment p c l := by
  intro l
  induction l with
  | nil => intro a c _ _; simp [shaftMoment]
  | cons e t ih =>
    intro a c hl ha
    obtain ⟨x, a, rfl⟩ : ∃ x a', a = x :: a' := by
      cases a with
      | nil => simp at hl
      | cons x a => exact ⟨x, a, rfl⟩
    have hx := Option.some.inj (ha 0 e rfl)
    have := ih a (c + 1) (by simpa using hl) fun q e' he' => by
      have := ha (q + 1) e' (by simpa using he')
      rw [List.getElem?_cons_succ] at this
      rw [this]
      congr 3
      omega
    simp only [List.zipWith_cons_cons, List.sum_cons, shaftMoment, mul_add, this, hx, Nat.add_zero]
    field_simp

theorem disk_moments {v : List ℝ} {M : ℝ} (hM : M ≠ 0) : ∀ (ds : List DiskEl) (r : List ℝ),
    (ds.mapM fun d => match v[d.d.n]? with
      | some z => (.ok (d.d.m * z / M) : Res ℝ)
      | none => .error .indexError) = .ok r →
    M * r.sum = (ds.map fun d => d.d.m * v.getD d.d.n 0).sum := by
  intro ds
  induction ds with
  | nil => intro r h; cases Except.ok.inj h; simp
  | cons d ds ih =>
    intro r h
    rw [List.mapM_cons] at h
    obtain ⟨x, h1, h⟩ := BearingLemmas.bind_ok.1 h
    obtain ⟨r', h2, h⟩ := BearingLemmas.bind_ok.1 h
    cases Except.ok.inj h
    rw [List.sum_cons, mul_add, ih r' h2, List.map_cons, List.sum_cons]
    congr 1
    split at h1
    · next z hz =>
      cases Except.ok.inj h1
      rw [List.getD_eq_getElem?_getD, hz]
      simp only [Option.getD_some]
      field_simp
    · cases h1

theorem start_free {ls : List (List ShaftEl)} {br : List BrgEl} (hs : Straight ls) (hc : LinkedAtStart ls br) :
    ∀ l ∈ ls, ∀ e ∈ l.tail, linkOf br (nodeOf e) = none ∧ linkOf br (nodeOf e + 1) = none := by
  intro l hl e he
  obtain ⟨j, hj⟩ := List.mem_iff_getElem?.1 hl
  obtain ⟨q, hq⟩ := List.mem_iff_getElem?.1 he
  rw [List.getElem?_tail] at hq
  have hn := hs.node j l hj (q + 1) e hq
  have hlt := (List.getElem?_eq_some_iff.1 hq).1
  constructor
  · refine linkOf_none fun b hb h1 h2 => ?_
    have := hc b hb j (q + 1) ⟨h1, by rw [h2, hn]; congr 1; omega, l, hj, by omega⟩
    omega
  · refine linkOf_none fun b hb h1 h2 => ?_
    have := hc b hb j (q + 2) ⟨h1, by rw [h2, hn]; congr 1; omega, l, hj, by omega⟩
    omega

theorem colStep_below {N : ℕ} {link : ℕ → Option ℕ} {i k n : ℕ} {g : ℝ} {s' : Pos} {a : ℕ → ℝ} {m : ℕ} (hm : m < i) :
    colStep N link i k n g s' a m = a m := by
  have hne : m ≠ k + i := by omega
  unfold colStep
  simp only [Function.update_of_ne hne]
  cases link n with
  | some b => exact shift_frame _ _ _ _ hm
  | none =>
    cases link (n + 1) with
    | some b => exact shift_frame _ _ _ _ hm
    | none => rfl

theorem shaftCol_below {L : ℕ → ℝ} {nl : ℕ → ℕ} {N : ℕ} {link : ℕ → Option ℕ} {i : ℕ} : ∀ (t : List ShaftEl) {k : ℕ}
    {s : Pos} {a a' : ℕ → ℝ}, shaftCol L nl N link i k t s a = .ok a' → ∀ m < i, a' m = a m := by
  intro t
  induction t with
  | nil => intro k s a a' h m _; cases Except.ok.inj h; rfl
  | cons e t ih =>
    intro k s a a' h m hm
    obtain ⟨s1, e1, h⟩ := BearingLemmas.bind_ok.1 h
    rw [ih h m hm, colStep_below hm]

theorem shaftCol_free {L : ℕ → ℝ} {nl : ℕ → ℕ} {N : ℕ} {link : ℕ → Option ℕ} {i : ℕ} : ∀ (t : List ShaftEl) {k : ℕ}
    {s : Pos} {a a' : ℕ → ℝ}, shaftCol L nl N link i k t s a = .ok a' →
    (∀ e ∈ t, link (nodeOf e) = none ∧ link (nodeOf e + 1) = none) → ∀ m < k + i, a' m = a m := by
  intro t
  induction t with
  | nil => intro k s a a' h _ m _; cases Except.ok.inj h; rfl
  | cons e t ih =>
    intro k s a a' h hf m hm
    obtain ⟨s1, e1, h⟩ := BearingLemmas.bind_ok.1 h
    obtain ⟨f1, f2⟩ := hf e List.mem_cons_self
    rw [ih h (fun e he => hf e (List.mem_cons_of_mem _ he)) m (by omega)]
    have hne : m ≠ k + i := by omega
    simp only [colStep, f1, f2, Function.update_of_ne hne]

/-- The column in the rows of one shaft, if only its first element may be linked. -/
theorem shaftCol_spec {L : ℕ → ℝ} {nl : ℕ → ℕ} {N : ℕ} {link : ℕ → Option ℕ} {i : ℕ} : ∀ (t : List ShaftEl) {k : ℕ}
    {s s' : Pos} {a : ℕ → ℝ}, shaftLoop L nl N link i k t s = .ok s' →
    (∀ e ∈ t.tail, link (nodeOf e) = none ∧ link (nodeOf e + 1) = none) →
    ∃ a', shaftCol L nl N link i k t s a = .ok a' ∧
      ∀ (q : ℕ) e, t[q]? = some e → a' (k + i + q) = s'.l (k + i + q) + e.s.beam_cg := by
  intro t
  induction t with
  | nil => intro k s s' a h _; exact ⟨a, rfl, by simp⟩
  | cons e t ih =>
    intro k s s' a h hf
    obtain ⟨s1, e1, h⟩ := BearingLemmas.bind_ok.1 h
    simp only [List.tail_cons] at hf
    obtain ⟨a', h1, h3⟩ := ih (a := colStep N link i k (nodeOf e) e.s.beam_cg s1 a) h
      fun e he => hf e (List.mem_of_mem_tail he)
    refine ⟨a', BearingLemmas.bind_ok.2 ⟨s1, e1, h1⟩, ?_⟩
    intro q e' he'
    rcases q with - | q
    · cases Option.some.inj he'
      rw [Nat.add_zero, shaft_free t h hf (k + i) (by omega), shaftCol_free t h1 hf (k + i) (by omega)]
      simp only [colStep, Function.update_self]
      ring
    · rw [List.getElem?_cons_succ] at he'
      have := h3 q e' he'
      rwa [show k + 1 + i + q = k + i + (q + 1) by omega] at this

theorem allCol_below {L : ℕ → ℝ} {nl : ℕ → ℕ} {N : ℕ} {link : ℕ → Option ℕ} : ∀ (ls : List (List ShaftEl)) {i : ℕ}
    {s : Pos} {a a' : ℕ → ℝ}, allCol L nl N link i ls s a = .ok a' → ∀ m < i, a' m = a m := by
  intro ls
  induction ls with
  | nil => intro i s a a' h m _; cases Except.ok.inj h; rfl
  | cons l ls ih =>
    intro i s a a' h m hm
    obtain ⟨a1, e1, h⟩ := BearingLemmas.bind_ok.1 h
    obtain ⟨s1, e2, h⟩ := BearingLemmas.bind_ok.1 h
    rw [ih h m (by omega), shaftCol_below l e1 m hm]

theorem allCol_spec {L : ℕ → ℝ} {nl : ℕ → ℕ} {N : ℕ} {link : ℕ → Option ℕ} : ∀ (ls : List (List ShaftEl)) {i : ℕ}
    {s s' : Pos} {a : ℕ → ℝ}, allLoop L nl N link i ls s = .ok s' →
    (∀ l ∈ ls, ∀ e ∈ l.tail, link (nodeOf e) = none ∧ link (nodeOf e + 1) = none) →
    ∃ a', allCol L nl N link i ls s a = .ok a' ∧
      ∀ (q : ℕ) e, ls.flatten[q]? = some e → a' (i + q) = s'.l (i + q) + e.s.beam_cg := by
  intro ls
  induction ls with
  | nil => intro i s s' a h _; exact ⟨a, rfl, by simp⟩
  | cons l ls ih =>
    intro i s s' a h hf
    obtain ⟨s1, e1, h⟩ := BearingLemmas.bind_ok.1 h
    obtain ⟨a1, h1, h3⟩ := shaftCol_spec (a := a) l e1 (hf l List.mem_cons_self)
    obtain ⟨b, g1, g3⟩ := ih (a := a1) h fun l hl => hf l (List.mem_cons_of_mem _ hl)
    refine ⟨b, BearingLemmas.bind_ok.2 ⟨a1, h1, BearingLemmas.bind_ok.2 ⟨s1, e1, g1⟩⟩, ?_⟩
    intro q e he
    rw [List.flatten_cons] at he
    rcases Nat.lt_or_ge q l.length with hq | hq
    · rw [List.getElem?_append_left hq] at he
      have := h3 q e he
      rw [Nat.zero_add] at this
      rw [allCol_below ls g1 (i + q) (by omega), all_below ls h (i + q) (by omega), this]
    · rw [List.getElem?_append_right hq] at he
      have := g3 _ e he
      rwa [show i + l.length + (q - l.length) = i + q by omega] at this

end Ross.CoAxialPosLemmas

namespace Ross.Props

open Ross Ross.Rotor Ross.CoAxialPos Ross.Spec.CoAxial Ross.CoAxialPosLemmas Ross.RotorLemmas

variable {raw : List (List ShaftEl)} {br : List BrgEl}

/-- **C130 (partial)** when bearings link only to the first nodes of shafts, the centre of mass of each shaft element is
where the element is.  Missing: links elsewhere, see `C130_moved_false`. -/
theorem C130_elements_partial (hne : ∀ l ∈ raw, l ≠ []) (hc : LinkedAtStart (numbered raw) br) {p : Pos}
    (hp : positions (numbered raw) br = .ok p) :
    ∃ a, cgPos (numbered raw) br = .ok a ∧ a.length = (numbered raw).flatten.length ∧
      ∀ (c : ℕ) e, (numbered raw).flatten[c]? = some e → a[c]? = some (p.l c + e.s.beam_cg) := by
  have hs := numbered_straight hne
  unfold positions at hp
  unfold cgPos
  simp only [hs.sort] at hp ⊢
  simpa using allCg_spec (numbered raw) hp (start_free hs hc)

/-- **C130 (partial)** in that case the centre of mass of the rotor is the one of shaft elements and disks where they
are. -/
theorem C130_centre_partial (hne : ∀ l ∈ raw, l ≠ []) (hc : LinkedAtStart (numbered raw) br) {disks : List DiskEl} {z : ℝ}
    (hm : totalMass (numbered raw) disks ≠ 0) (hz : cg (numbered raw) disks br = .ok z) :
    ∃ p v, positions (numbered raw) br = .ok p ∧ CoAxialPos.nodesPos (numbered raw) p = .ok v ∧
      IsCentre (numbered raw) disks p v z := by
  unfold cg at hz
  obtain ⟨p, hp, hz⟩ := BearingLemmas.bind_ok.1 hz
  obtain ⟨a, ha, hz⟩ := BearingLemmas.bind_ok.1 hz
  obtain ⟨v, hv, hz⟩ := BearingLemmas.bind_ok.1 hz
  obtain ⟨ds, hd, hz⟩ := BearingLemmas.bind_ok.1 hz
  obtain ⟨a', h1, h2, h3⟩ := C130_elements_partial hne hc hp
  cases Except.ok.inj (ha.symm.trans h1)
  refine ⟨p, v, hp, hv, ?_⟩
  have hM : (disks.map fun d => d.d.m).sum + ((numbered raw).flatten.map fun e => e.s.m).sum = totalMass (numbered raw) disks :=
    add_comm _ _
  simp only [hM] at hz hd
  cases Except.ok.inj hz
  unfold IsCentre
  rw [mul_add, moments hm _ a 0 h2 (by simpa using h3), disk_moments hm disks ds hd]

/-- **C130 (partial)** in that case the column of the table has the same positions.  Missing: links elsewhere, see
`C130_column_false`. -/
theorem C130_column_partial (hne : ∀ l ∈ raw, l ≠ []) (hc : LinkedAtStart (numbered raw) br) {p : Pos}
    (hp : positions (numbered raw) br = .ok p) :
    ∃ a, cgColumn (numbered raw) br = .ok a ∧
      ∀ (c : ℕ) e, (numbered raw).flatten[c]? = some e → a c = p.l c + e.s.beam_cg := by
  have hs := numbered_straight hne
  unfold positions at hp
  unfold cgColumn
  simp only [hs.sort] at hp ⊢
  simpa using allCol_spec (numbered raw) hp (start_free hs hc)

/-- Two shafts of elements of lengths 1 and 2, the second carried at its end by the end of the first. -/
noncomputable def exCgRaw : List (List ShaftEl) := [[exLen 1, exLen 2], [exLen 1, exLen 2]]

/-- **C130 (false in general)** the first element of the second shaft is moved to 0 by the link at the end of the shaft,
but its centre of mass stays with the position 3 that it had before. -/
theorem C130_moved_false : ∃ p a, positions (numbered exCgRaw) [.brg false (exBrg 2 (some 5) 1 1)] = .ok p ∧
    cgPos (numbered exCgRaw) [.brg false (exBrg 2 (some 5) 1 1)] = .ok a ∧
    p.l 2 = 0 ∧ a[2]? = some ((exLen 1).s.beam_cg + 3) := by
  have hs : Straight (numbered exCgRaw) := numbered_straight (by simp [exCgRaw])
  unfold positions cgPos
  simp only [hs.sort]
  simp [numbered, exCgRaw, before, allLoop, shaftLoop, allCg, shaftCg, step, colL, colN, linkOf, nodeOf, before1, exLen, exBrg,
    BrgEl.isSeal, BrgEl.n_link, BrgEl.n, BrgEl.base]
  refine ⟨_, rfl, _, rfl, ?_, ?_⟩
  · simp [addSlice, Function.update]
  · simp [addSlice, Function.update]
    exact congrArg₂ (· + ·) rfl (by norm_num)

/-- **C130 (false in general)** the move that the column is given is calculated after the rows have moved, so it is 0 and
the column keeps the position 3 too. -/
theorem C130_column_false : ∃ p a, positions (numbered exCgRaw) [.brg false (exBrg 2 (some 5) 1 1)] = .ok p ∧
    cgColumn (numbered exCgRaw) [.brg false (exBrg 2 (some 5) 1 1)] = .ok a ∧
    p.l 2 = 0 ∧ a 2 = (exLen 1).s.beam_cg + 3 := by
  have hs : Straight (numbered exCgRaw) := numbered_straight (by simp [exCgRaw])
  unfold positions cgColumn
  simp only [hs.sort]
  simp [numbered, exCgRaw, before, allLoop, shaftLoop, allCol, shaftCol, colStep, step, colL, colN, linkOf, nodeOf, before1,
    exLen, exBrg, BrgEl.isSeal, BrgEl.n_link, BrgEl.n, BrgEl.base]
  refine ⟨_, rfl, _, rfl, ?_, ?_⟩
  · simp [addSlice, Function.update]
  · simp [addSlice, Function.update]
    exact congrArg₂ (· + ·) rfl (by norm_num)

theorem exPos_start : LinkedAtStart (numbered exPosRaw) exPosBr := by
  rintro b hb j k ⟨-, hl, l, hlj, hk⟩
  simp only [exPosBr, List.mem_singleton] at hb
  subst hb
  have hlink : (BrgEl.brg false (exBrg 1 (some 3) 1 1)).n_link = some 3 := rfl
  rw [hlink] at hl
  have hl := Option.some.inj hl
  match j, hl, hlj with
  | 0, hl, hlj =>
    have : l.length = 2 := by
      cases Option.some.inj hlj
      rfl
    simp [before] at hl
    omega
  | 1, hl, hlj =>
    have hb : before (numbered exPosRaw) 1 = 2 := rfl
    rw [hb] at hl
    omega
  | j + 2, hl, hlj =>
    simp [numbered, exPosRaw] at hlj

theorem exLen_mass {ℓ : ℝ} (h : 0 < ℓ) : 0 < (exLen ℓ).s.m := by
  have hp := Real.pi_pos
  simp only [exLen, exShaft, exMaterial, ShaftElement.m, ShaftElement.volume, ShaftElement.outer, ShaftElement.inner]
  have : (0 : ℝ) < 1 / 20 ^ 2 := by norm_num
  apply mul_pos (by norm_num)
  apply mul_pos (by positivity)
  norm_num

/-- **C130 (false in general)** so the centre of mass of that rotor is not the one of its elements where they are. -/
theorem C130_centre_false : ∃ p v z, cg (numbered exCgRaw) [] [.brg false (exBrg 2 (some 5) 1 1)] = .ok z ∧
    positions (numbered exCgRaw) [.brg false (exBrg 2 (some 5) 1 1)] = .ok p ∧
    CoAxialPos.nodesPos (numbered exCgRaw) p = .ok v ∧ ¬ IsCentre (numbered exCgRaw) [] p v z := by
  have key : ∃ p a, positions (numbered exCgRaw) [.brg false (exBrg 2 (some 5) 1 1)] = .ok p ∧
      cgPos (numbered exCgRaw) [.brg false (exBrg 2 (some 5) 1 1)] = .ok a ∧
      p.l 0 = 0 ∧ p.l 1 = 1 ∧ p.l 2 = 0 ∧ p.l 3 = 1 ∧
      a = [(exLen 1).s.beam_cg, (exLen 2).s.beam_cg + 1, (exLen 1).s.beam_cg + 3, (exLen 2).s.beam_cg + 1] := by
    have hs : Straight (numbered exCgRaw) := numbered_straight (by simp [exCgRaw])
    unfold positions cgPos
    simp only [hs.sort]
    simp [numbered, exCgRaw, before, allLoop, shaftLoop, allCg, shaftCg, step, colL, colN, linkOf, nodeOf, before1, exLen,
      exBrg, BrgEl.isSeal, BrgEl.n_link, BrgEl.n, BrgEl.base]
    refine ⟨_, rfl, Eq.trans (b := Except.ok _) rfl (congrArg Except.ok ?_), ?_, ?_, ?_, ?_⟩
    · simp [addSlice, Function.update]
      exact ⟨rfl, rfl, congrArg₂ (· + ·) rfl (by norm_num), congrArg₂ (· + ·) rfl (by norm_num)⟩
    · simp [addSlice, Function.update]
    · simp [addSlice, Function.update]
    · simp [addSlice, Function.update]
    · simp [addSlice, Function.update]
      norm_num
  obtain ⟨p, a, hp, ha, p0, p1, p2, p3, rfl⟩ := key
  obtain ⟨v, hv, -⟩ := C129_nodes_partial (a := [exLen 1, exLen 2]) (b := [exLen 1, exLen 2]) (by simp) (by simp) p
  refine ⟨p, v, _, BearingLemmas.bind_ok.2 ⟨p, hp, BearingLemmas.bind_ok.2 ⟨_, ha, BearingLemmas.bind_ok.2 ⟨v, hv,
      BearingLemmas.bind_ok.2 ⟨[], rfl, rfl⟩⟩⟩⟩, hp, hv, ?_⟩
  have h1 := exLen_mass (ℓ := 1) (by norm_num)
  have h2 := exLen_mass (ℓ := 2) (by norm_num)
  set m1 := (exLen 1).s.m with hm1
  set m2 := (exLen 2).s.m with hm2
  have hM : totalMass (numbered exCgRaw) [] = m1 + (m2 + (m1 + (m2 + 0))) + 0 := rfl
  have hl : shaftMoment p 0 (numbered exCgRaw).flatten = m1 * (p.l 0 + (exLen 1).s.beam_cg) +
      (m2 * (p.l 1 + (exLen 2).s.beam_cg) + (m1 * (p.l 2 + (exLen 1).s.beam_cg) +
        (m2 * (p.l 3 + (exLen 2).s.beam_cg) + 0))) := rfl
  unfold IsCentre
  rw [hl, hM, p0, p1, p2, p3]
  have hz : ∀ M : ℝ, (List.zipWith (fun (e : ShaftEl) x => e.s.m * x / M) (numbered exCgRaw).flatten
      [(exLen 1).s.beam_cg, (exLen 2).s.beam_cg + 1, (exLen 1).s.beam_cg + 3, (exLen 2).s.beam_cg + 1]).sum =
      m1 * (exLen 1).s.beam_cg / M + (m2 * ((exLen 2).s.beam_cg + 1) / M + (m1 * ((exLen 1).s.beam_cg + 3) / M +
        (m2 * ((exLen 2).s.beam_cg + 1) / M + 0))) := fun _ => rfl
  have hM' : (([] : List DiskEl).map fun d => d.d.m).sum + ((numbered exCgRaw).flatten.map fun e => e.s.m).sum =
      0 + (m1 + (m2 + (m1 + (m2 + 0)))) := rfl
  rw [hz, hM']
  intro h
  have hpos : m1 + (m2 + (m1 + (m2 + 0))) ≠ 0 := by positivity
  simp only [List.map_nil, List.sum_nil, add_zero, zero_add] at h hpos
  field_simp at h
  nlinarith

/-- The rotor of `C129_lengths_false` has a centre of mass. -/
example : ∃ z p v, cg (numbered exPosRaw) [] exPosBr = .ok z ∧ positions (numbered exPosRaw) exPosBr = .ok p ∧
    CoAxialPos.nodesPos (numbered exPosRaw) p = .ok v ∧ IsCentre (numbered exPosRaw) [] p v z := by
  have hne : ∀ l ∈ exPosRaw, l ≠ [] := by simp [exPosRaw]
  obtain ⟨-, p, hp, -⟩ := C129_lengths_false
  obtain ⟨a, ha, -⟩ := C130_elements_partial hne exPos_start hp
  obtain ⟨v, hv, -⟩ := C129_nodes_partial (a := [exLen 1, exLen 2]) (b := [exLen 3]) (by simp) (by simp) p
  have hz : ∃ z, cg (numbered exPosRaw) [] exPosBr = .ok z :=
    ⟨_, BearingLemmas.bind_ok.2 ⟨p, hp, BearingLemmas.bind_ok.2 ⟨a, ha, BearingLemmas.bind_ok.2 ⟨v, hv,
      BearingLemmas.bind_ok.2 ⟨[], rfl, rfl⟩⟩⟩⟩⟩
  obtain ⟨z, hz⟩ := hz
  have hm : totalMass (numbered exPosRaw) [] ≠ 0 := by
    have e : totalMass (numbered exPosRaw) [] = (exLen 1).s.m + ((exLen 2).s.m + ((exLen 3).s.m + 0)) + 0 := rfl
    have h1 := exLen_mass (ℓ := 1) (by norm_num)
    have h2 := exLen_mass (ℓ := 2) (by norm_num)
    have h3 := exLen_mass (ℓ := 3) (by norm_num)
    rw [e]
    positivity
  obtain ⟨p', v', h⟩ := C130_centre_partial hne exPos_start hm hz
  exact ⟨z, p', v', hz, h⟩

example : ∃ p a, positions (numbered exPosRaw) exPosBr = .ok p ∧ cgColumn (numbered exPosRaw) exPosBr = .ok a ∧
    a 2 = p.l 2 + (exLen 3).s.beam_cg := by
  obtain ⟨-, p, hp, -⟩ := C129_lengths_false
  obtain ⟨a, ha, h⟩ := C130_column_partial (raw := exPosRaw) (by simp [exPosRaw]) exPos_start hp
  obtain ⟨e, he, hg⟩ : ∃ e, (numbered exPosRaw).flatten[2]? = some e ∧ e.s.beam_cg = (exLen 3).s.beam_cg := ⟨_, rfl, rfl⟩
  exact ⟨p, a, hp, ha, by rw [h 2 e he, hg]⟩

end Ross.Props
