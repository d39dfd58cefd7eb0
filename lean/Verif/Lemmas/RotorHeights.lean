import Verif.Spec.RotorHeights
import Verif.Lemmas.Place
import Verif.Lemmas.RunsOne
import Verif.Props.Summary

/-! # Heights in the drawing of a rotor -/

namespace Ross.HeightLemmas

open Ross Ross.Spec Ross.RotorPlot Ross.Rotor Ross.RotorLemmas Ross.AssemblyLemmas Ross.PlaceLemmas Ross.BearingLemmas

variable {pd : Pandas} {a : RotorArgs} {r : Rotor} {fuel : ℕ} {ns : NodeSort}

/-! ### Positions of nodes -/

theorem layer_pos (hL : PositiveLengths r) {k : ℕ} (hk : ∃ e ∈ r.shaft, leftNode e = k) : 0 < layerLength r.shaft k := by
  unfold layerLength
  obtain ⟨e, he, hek⟩ := hk
  cases hf : r.shaft.find? (fun e => leftNode e = k) with
  | none =>
    have := List.find?_eq_none.1 hf e he
    simp [hek] at this
  | some x => exact hL x (List.mem_of_find?_eq_some hf)

theorem pos_step (hg : NoGaps r) (hL : PositiveLengths r) {k : ℕ} (hk : k < shaftEnd r) :
    position r.shaft k < position r.shaft (k + 1) := by
  obtain ⟨e, he, hek⟩ := hg k hk
  have h1 := next_node he
  have h2 := layer_pos hL ⟨e, he, hek⟩
  have h3 : nodeOf e = k := hek
  rw [h3] at h1
  linarith

theorem pos_lt (hg : NoGaps r) (hL : PositiveLengths r) {j k : ℕ} (hjk : j < k) (hk : k ≤ shaftEnd r) :
    position r.shaft j < position r.shaft k := by
  induction k with
  | zero => omega
  | succ k ih =>
    have h1 := pos_step hg hL (k := k) (by omega)
    rcases Nat.lt_or_ge j k with h | h
    · exact (ih h (by omega)).trans h1
    · have : j = k := by omega
      rw [this]; exact h1

theorem pos_inj (hg : NoGaps r) (hL : PositiveLengths r) {j k : ℕ} (hj : j ≤ shaftEnd r) (hk : k ≤ shaftEnd r)
    (h : position r.shaft j = position r.shaft k) : j = k := by
  rcases Nat.lt_trichotomy j k with h1 | h1 | h1
  · exact absurd h (pos_lt hg hL h1 hk).ne
  · exact h1
  · exact absurd h.symm (pos_lt hg hL h1 hj).ne

theorem first_pos (h : init pd fuel a = some (.ok r)) :
    (((shaftPos r.shaft).head?).map Prod.fst).getD 0 = position r.shaft 0 := by
  have hz : position r.shaft 0 = 0 := by simp [position]
  rw [hz]
  cases r.shaft <;> rfl

theorem last_pos (h : init pd fuel a = some (.ok r)) (hg : NoGaps r) :
    (((shaftPos r.shaft).getLast?).map Prod.snd).getD 0 = position r.shaft (shaftEnd r) := by
  have h1 := nodes_of h hg
  rw [(init_ok h).pos] at h1
  unfold nodesPos at h1
  have h2 := congrArg List.getLast? h1
  rw [List.range_succ] at h2
  simpa using h2

/-! ### Bearings keep their rows -/

theorem setPos_brg {rows : List Row} {t : Option String} {z : Option ℝ} (ht : ∀ x ∈ rows, x.isBrg = true → x.tag ≠ t) :
    (setPos rows t z).filter (·.isBrg) = rows.filter (·.isBrg) := by
  unfold setPos
  induction rows with
  | nil => rfl
  | cons x l ih =>
    have ih := ih fun y hy => ht y (List.mem_cons_of_mem _ hy)
    rw [List.map_cons]
    by_cases hx : x.isBrg = true
    · rw [if_neg (ht x List.mem_cons_self hx), List.filter_cons_of_pos hx, List.filter_cons_of_pos hx, ih]
    · rw [List.filter_cons_of_neg hx, List.filter_cons_of_neg, ih]
      split <;> exact hx

theorem fold_brg : ∀ (l : List PmEl) (rows rows' : List Row),
    (∀ p ∈ l, ∀ x ∈ rows.filter (·.isBrg), x.tag ≠ p.tag) → l.foldlM pmPos rows = .ok rows' →
    rows'.filter (·.isBrg) = rows.filter (·.isBrg) := by
  intro l
  induction l with
  | nil => intro rows rows' _ h; cases h; rfl
  | cons p l ih =>
    intro rows rows' hp h
    rw [List.foldlM_cons] at h
    obtain ⟨rows₁, h1, h2⟩ := RunLemmas.bindOk h
    have h3 : rows₁.filter (·.isBrg) = rows.filter (·.isBrg) := by
      unfold pmPos at h1
      split at h1
      · cases h1
      · cases h1
        exact setPos_brg fun x hx hb => hp p List.mem_cons_self x (List.mem_filter.2 ⟨hx, hb⟩)
    rw [ih rows₁ rows' (by rw [h3]; exact fun q hq => hp q (List.mem_cons_of_mem _ hq)) h2, h3]

theorem fold_tags : ∀ (l : List PmEl) (rows rows' : List Row), l.foldlM pmPos rows = .ok rows' →
    rows'.map (fun x => (x.tag, x.isBrg)) = rows.map fun x => (x.tag, x.isBrg) := by
  intro l
  induction l with
  | nil => intro rows rows' h; cases h; rfl
  | cons p l ih =>
    intro rows rows' h
    rw [List.foldlM_cons] at h
    obtain ⟨rows₁, h1, h2⟩ := RunLemmas.bindOk h
    rw [ih rows₁ rows' h2]
    unfold pmPos at h1
    split at h1
    · cases h1
    · cases h1
      unfold setPos
      rw [List.map_map]
      apply List.map_congr_left
      intro x _
      simp only [Function.comp_apply]
      split <;> rfl

/-- The row of a bearing. -/
def rowOf (pos : Option String → Option ℝ) (b : BrgEl) : Row :=
  ⟨b.tag, some b.n, some b.n, b.n_link, pos b.tag, pos b.tag, true⟩

/-- What is known of the rows of the bearings. -/
structure Rows (r : Rotor) (pos : Option String → Option ℝ) : Prop where
  mem : ∀ x, x ∈ r.df.filter (·.isBrg) ↔ ∃ b ∈ r.bearings, x = rowOf pos b
  told : ∀ b ∈ r.bearings, ∀ z, TableSays r b.tag z ↔ pos b.tag = some z
  stands : ∀ b ∈ r.bearings, ∃ k, StandsAt r.bearings (shaftEnd r) b k ∧ pos b.tag = some (position r.shaft k)
  tags : (r.bearings.map BrgEl.tag).Nodup
  rows : ((r.df.filter (·.isBrg)).map fun x => x.tag).Nodup
  check : ∀ b ∈ r.bearings, heightCheck r.shaft (shaftPos r.shaft) (r.df.filter (·.isBrg)) (pos b.tag) = .ok ()

theorem rows_of (hpd : SortsRows pd) (h : init pd fuel a = some (.ok r)) (hg : NoGaps r) : ∃ pos, Rows r pos := by
  have hb := init_ok h
  have hc := ctx_of hb h hg
  obtain ⟨pos, p1, -, p3, -⟩ := table hpd h hg
  have hmem : ∀ x, x ∈ r.df.filter (·.isBrg) ↔ ∃ b ∈ r.bearings, x = rowOf pos b := by
    intro x
    rw [List.mem_filter, p1.mem_iff, mem_ideal]
    constructor
    · rintro ⟨⟨e, -, rfl⟩ | ⟨e, -, rfl⟩ | ⟨b, hb, rfl⟩ | ⟨e, -, rfl⟩, hx⟩
      · cases hx
      · cases hx
      · exact ⟨b, hb, rfl⟩
      · cases hx
    · rintro ⟨b, hb, rfl⟩
      exact ⟨Or.inr (Or.inr (Or.inl ⟨b, hb, rfl⟩)), rfl⟩
  refine ⟨pos, hmem, ?_, p3, hc.brtags, ?_, ?_⟩
  · intro b hb z
    have := table_row hc p1 (mem_ideal.2 (Or.inr (Or.inr (Or.inl ⟨b, hb, rfl⟩)))) fun x => (x.nodes_pos_l, x.nodes_pos_r)
    unfold TableSays
    constructor
    · intro hz
      have := hz.symm.trans this
      simpa using this.symm
    · intro hz
      simpa [hz] using this
  · exact List.Nodup.sublist (List.filter_sublist.map _) ((p1.map fun x : Row => x.tag).nodup_iff.2 (ideal_tags hc pos))
  · obtain ⟨r₀, rows, h1, h2, h3⟩ := init_ok_build h
    unfold finish at h3
    dsimp only at h3
    obtain ⟨us, h5, h6⟩ := bind_ok.1 h3
    obtain ⟨df, h7, h8⟩ := bind_ok.1 h6
    have h9 := Except.ok.inj h8
    have e1 : r₀.shaft = r.shaft := by rw [← h9]
    have e4 : r₀.pms = r.pms := by rw [← h9]
    have e6 : df = r.df := by rw [← h9]
    subst e6
    rw [e1] at h5
    rw [e4] at h7
    have hsame : r.df.filter (·.isBrg) = rows.filter (·.isBrg) := by
      refine fold_brg r.pms rows r.df ?_ h7
      intro p hp x hx
      obtain ⟨hx1, hx2⟩ := List.mem_filter.1 hx
      have : (x.tag, x.isBrg) ∈ r.df.map fun x => (x.tag, x.isBrg) := by
        rw [fold_tags _ _ _ h7]
        exact List.mem_map.2 ⟨x, hx1, rfl⟩
      obtain ⟨y, hy, hxy⟩ := List.mem_map.1 this
      obtain ⟨t1, t2⟩ := Prod.mk.inj hxy
      obtain ⟨b, hb, rfl⟩ := (hmem y).1 (List.mem_filter.2 ⟨hy, by rw [t2]; exact hx2⟩)
      rw [← t1]
      exact hc.brpm p hp b hb
    intro b hb
    rw [hsame]
    have hin : pos b.tag ∈ (((rows.filter (·.isBrg)).map (·.nodes_pos_l)).reverse.dedup.reverse) := by
      rw [← hsame]
      simp only [List.mem_reverse, List.mem_dedup]
      exact List.mem_map.2 ⟨rowOf pos b, (hmem _).2 ⟨b, hb, rfl⟩, rfl⟩
    have hm := (mapM_ok_iff _ _ _).1 h5
    have : heightCheck r.shaft (shaftPos r.shaft) (rows.filter (·.isBrg)) (pos b.tag) ∈ us.map Except.ok := by
      rw [← hm]; exact List.mem_map.2 ⟨_, hin, rfl⟩
    obtain ⟨u, -, hu⟩ := List.mem_map.1 this
    exact hu.symm

/-! ### The shaft under the bearings -/

theorem maxPos_some {l : List ℝ} (h : l ≠ []) : ∃ x, maxPos l = .ok x ∧ x ∈ l ∧ ∀ y ∈ l, y ≤ x := by
  unfold maxPos
  cases hx : l.max? with
  | none => exact absurd (List.max?_eq_none_iff.1 hx) h
  | some x =>
    rw [List.max?_eq_some_iff] at hx
    exact ⟨x, rfl, hx.1, hx.2⟩

theorem foot_of (h : init pd fuel a = some (.ok r)) (hg : NoGaps r) (hL : PositiveLengths r) {k : ℕ} (hk : k ≤ shaftEnd r) :
    ∃ R, footOf r.shaft (position r.shaft k) k = .ok R ∧ RadiusAt r.shaft k R := by
  have hc := ctx_of (init_ok h) h hg
  have hl : k < shaftEnd r → (r.shaft.filter fun e => nodeOf e = k).map (fun e => e.s.odl) ≠ [] := by
    intro hlt
    obtain ⟨e, he, hek⟩ := hg k hlt
    exact List.ne_nil_of_mem (List.mem_map.2 ⟨e, List.mem_filter.2 ⟨he, decide_eq_true hek⟩, rfl⟩)
  have hr : 0 < k → (r.shaft.filter fun e => nodeOf e + 1 = k).map (fun e => e.s.odr) ≠ [] := by
    intro hlt
    obtain ⟨e, he, hek⟩ := hg (k - 1) (by omega)
    refine List.ne_nil_of_mem (List.mem_map.2 ⟨e, List.mem_filter.2 ⟨he, decide_eq_true ?_⟩, rfl⟩)
    have : nodeOf e = k - 1 := hek
    omega
  have ml : ∀ {y}, y ∈ (r.shaft.filter fun e => nodeOf e = k).map (fun e => e.s.odl) ↔
      ∃ e ∈ r.shaft, leftNode e = k ∧ y = e.s.odl := by
    intro y
    simp only [List.mem_map, List.mem_filter, decide_eq_true_eq]
    constructor
    · rintro ⟨e, ⟨h1, h2⟩, rfl⟩; exact ⟨e, h1, h2, rfl⟩
    · rintro ⟨e, h1, h2, rfl⟩; exact ⟨e, ⟨h1, h2⟩, rfl⟩
  have mr : ∀ {y}, y ∈ (r.shaft.filter fun e => nodeOf e + 1 = k).map (fun e => e.s.odr) ↔
      ∃ e ∈ r.shaft, leftNode e + 1 = k ∧ y = e.s.odr := by
    intro y
    simp only [List.mem_map, List.mem_filter, decide_eq_true_eq]
    constructor
    · rintro ⟨e, ⟨h1, h2⟩, rfl⟩; exact ⟨e, h1, h2, rfl⟩
    · rintro ⟨e, h1, h2, rfl⟩; exact ⟨e, ⟨h1, h2⟩, rfl⟩
  have hpos := hc.pos
  unfold footOf
  simp only [first_pos h, last_pos h hg]
  by_cases h0 : position r.shaft k = position r.shaft 0
  · have hk0 : k = 0 := pos_inj hg hL hk (by omega) h0
    obtain ⟨x, hx, hm, hu⟩ := maxPos_some (hl (by omega))
    rw [if_pos h0, hx]
    refine ⟨x / 2, rfl, ?_, ?_⟩
    · obtain ⟨e, he, h1, rfl⟩ := ml.1 hm
      exact Or.inl ⟨e, he, h1, rfl⟩
    · rintro y (⟨e, he, h1, rfl⟩ | ⟨e, he, h1, rfl⟩)
      · have := hu _ (ml.2 ⟨e, he, h1, rfl⟩)
        linarith
      · omega
  · rw [if_neg h0]
    have hk0 : 0 < k := by
      rcases Nat.eq_zero_or_pos k with rfl | h1
      · exact absurd rfl h0
      · exact h1
    obtain ⟨x, hx, hm, hu⟩ := maxPos_some (hr hk0)
    by_cases h1 : position r.shaft k = position r.shaft (shaftEnd r)
    · have hkN : k = shaftEnd r := pos_inj hg hL hk le_rfl h1
      rw [if_pos h1, hx]
      refine ⟨x / 2, rfl, ?_, ?_⟩
      · obtain ⟨e, he, h1, rfl⟩ := mr.1 hm
        exact Or.inr ⟨e, he, h1, rfl⟩
      · rintro y (⟨e, he, h1, rfl⟩ | ⟨e, he, h1, rfl⟩)
        · have h2 : nodeOf e = k := h1
          have := hc.upto e he
          omega
        · have := hu _ (mr.2 ⟨e, he, h1, rfl⟩)
          linarith
    · rw [if_neg h1]
      have hkN : k < shaftEnd r := by
        rcases Nat.lt_or_ge k (shaftEnd r) with h2 | h2
        · exact h2
        · exact absurd (by rw [show k = shaftEnd r by omega]) h1
      obtain ⟨x', hx', hm', hu'⟩ := maxPos_some (hl hkN)
      rw [hx, hx']
      refine ⟨max x' x / 2, rfl, ?_, ?_⟩
      · rcases max_choice x' x with hx2 | hx2 <;> rw [hx2]
        · obtain ⟨e, he, h1, rfl⟩ := ml.1 hm'
          exact Or.inl ⟨e, he, h1, rfl⟩
        · obtain ⟨e, he, h1, rfl⟩ := mr.1 hm
          exact Or.inr ⟨e, he, h1, rfl⟩
      · rintro y (⟨e, he, h1, rfl⟩ | ⟨e, he, h1, rfl⟩)
        · have := hu' _ (ml.2 ⟨e, he, h1, rfl⟩)
          have := le_max_left x' x
          linarith
        · have := hu _ (mr.2 ⟨e, he, h1, rfl⟩)
          have := le_max_right x' x
          linarith

/-! ### The stack -/

/-- The heights in a stack. -/
theorem stack_get (m : ℝ) (scale : Option String → ℝ) : ∀ (l : List (Option String)) (y : ℝ) (c : ℝ) (g : Option String → ℝ),
    (stack (some m) scale l (some (y + c)) fun t => some (y + g t + c)).map Prod.fst = l ∧
    ∀ (i : ℕ) t, l[i]? = some t → (stack (some m) scale l (some (y + c)) fun t => some (y + g t + c))[i]? =
      some (t, some (y + c + m * ((l.take i).map scale).sum), some (y + g t + c + m * ((l.take i).map scale).sum)) := by
  intro l
  induction l with
  | nil => intro y c g; exact ⟨rfl, by simp⟩
  | cons u l ih =>
    intro y c g
    have hs : stack (some m) scale (u :: l) (some (y + c)) (fun t => some (y + g t + c)) =
        (u, some (y + c), some (y + g u + c)) ::
          stack (some m) scale l (some (y + (c + m * scale u))) fun t => some (y + g t + (c + m * scale u)) := by
      simp [stack, plus, add_assoc]
    rw [hs]
    obtain ⟨h1, h2⟩ := ih y (c + m * scale u) g
    refine ⟨by rw [List.map_cons, h1], ?_⟩
    intro i t ht
    cases i with
    | zero =>
      have : u = t := by simpa using ht
      subst this
      simp
    | succ i =>
      rw [List.getElem?_cons_succ] at ht ⊢
      rw [h2 i t ht, List.take_succ_cons, List.map_cons, List.sum_cons]
      simp only [Option.some.injEq, Prod.mk.injEq, true_and]
      constructor <;> ring

theorem exists_rows {pos : Option String → Option ℝ} {br : List BrgEl} : ∀ (rows : List Row),
    (∀ x ∈ rows, ∃ b ∈ br, x = rowOf pos b) → ∃ l : List BrgEl, (∀ b ∈ l, b ∈ br) ∧ rows = l.map (rowOf pos) := by
  intro rows
  induction rows with
  | nil => intro _; exact ⟨[], by simp, rfl⟩
  | cons x t ih =>
    intro hx
    obtain ⟨l, h1, rfl⟩ := ih fun y hy => hx y (List.mem_cons_of_mem _ hy)
    obtain ⟨b, hb, rfl⟩ := hx x List.mem_cons_self
    exact ⟨b :: l, by simpa [hb] using h1, rfl⟩

theorem tag_inj {br : List BrgEl} (h : (br.map BrgEl.tag).Nodup) {b c : BrgEl} (hb : b ∈ br) (hc : c ∈ br)
    (ht : b.tag = c.tag) : b = c := List.inj_on_of_nodup_map h hb hc ht

theorem scale_of {br : List BrgEl} (h : (br.map BrgEl.tag).Nodup) {b : BrgEl} (hb : b ∈ br) :
    scaleFactor br b.tag = b.base.scale_factor := by
  unfold scaleFactor
  cases hf : br.find? (fun c => c.tag = b.tag) with
  | none =>
    have := List.find?_eq_none.1 hf b hb
    simp at this
  | some c =>
    have h1 := List.mem_of_find?_eq_some hf
    have h2 := List.find?_some hf
    rw [tag_inj h h1 hb (by simpa using h2)]
    rfl

/-- The heights at one node. -/
theorem at_of {pos : Option String → Option ℝ} (hR : Rows r pos) (hns : SortsNodes ns) (h : init pd fuel a = some (.ok r))
    (hg : NoGaps r) (hL : PositiveLengths r) {m : ℝ} (hm : meanOf r.nodes_o_d = some m) {k : ℕ} (hk : k ≤ shaftEnd r)
    (hb : ∃ b ∈ r.bearings, pos b.tag = some (position r.shaft k)) :
    ∃ l R H, BearingsAt r k l ∧ RadiusAt r.shaft k R ∧ heightsAt ns r (some (position r.shaft k)) = .ok H ∧
      H.map Prod.fst = l.map BrgEl.tag ∧
      ∀ (i : ℕ) b, l[i]? = some b → H[i]? =
        some (b.tag, some (R + m * scales (l.take i)), some (R + m * scales (l.take (i + 1)))) := by
  have hc := ctx_of (init_ok h) h hg
  obtain ⟨R, hf, hr⟩ := foot_of h hg hL hk
  unfold heightsAt
  dsimp only
  generalize hrows : ns.sort _ = rows
  obtain ⟨s1, s2⟩ := hns ((r.df.filter (·.isBrg)).filter fun x => x.nodes_pos_l = some (position r.shaft k))
  have hrows' : ns.sort ((r.df.filter (·.isBrg)).filter fun x => x.nodes_pos_l = some (position r.shaft k)) = rows := by
    rw [← hrows]
  rw [hrows'] at s1 s2
  have hmem : ∀ x, x ∈ rows ↔ ∃ b ∈ r.bearings, x = rowOf pos b ∧ pos b.tag = some (position r.shaft k) := by
    intro x
    rw [s1.mem_iff, List.mem_filter, hR.mem, decide_eq_true_eq]
    constructor
    · rintro ⟨⟨b, hb, rfl⟩, hz⟩
      exact ⟨b, hb, rfl, hz⟩
    · rintro ⟨b, hb, rfl, hz⟩
      exact ⟨⟨b, hb, rfl⟩, hz⟩
  obtain ⟨l, l1, rfl⟩ := exists_rows rows fun x hx => by
    obtain ⟨b, hb, h1, -⟩ := (hmem x).1 hx
    exact ⟨b, hb, h1⟩
  have hl : ∀ b, b ∈ l ↔ b ∈ r.bearings ∧ pos b.tag = some (position r.shaft k) := by
    intro b
    constructor
    · intro hb
      obtain ⟨c, hc1, hc2, hc3⟩ := (hmem _).1 (List.mem_map.2 ⟨b, hb, rfl⟩)
      have : b.tag = c.tag := congrArg Row.tag hc2
      rw [this]
      exact ⟨l1 b hb, hc3⟩
    · rintro ⟨h1, h2⟩
      obtain ⟨c, hc1, hc2⟩ := List.mem_map.1 ((hmem (rowOf pos b)).2 ⟨b, h1, rfl, h2⟩)
      have : c.tag = b.tag := congrArg Row.tag hc2
      rw [← tag_inj hR.tags (l1 c hc1) h1 this]
      exact hc1
  have hnd : (l.map BrgEl.tag).Nodup := by
    have h1 : ((l.map (rowOf pos)).map fun x => x.tag).Nodup :=
      (s1.map fun x : Row => x.tag).nodup_iff.2 (List.Nodup.sublist (List.filter_sublist.map _) hR.rows)
    rw [List.map_map] at h1
    exact h1
  have hsort : l.Pairwise fun b c => b.n ≤ c.n := by
    rw [List.pairwise_map] at s2
    exact s2
  have hne : l ≠ [] := by
    obtain ⟨b, hb, hz⟩ := hb
    exact List.ne_nil_of_mem ((hl b).2 ⟨hb, hz⟩)
  cases l with
  | nil => exact absurd rfl hne
  | cons b₀ l =>
    have hmin : ∀ b ∈ b₀ :: l, b₀.n ≤ b.n := by
      intro b hb
      rcases List.mem_cons.1 hb with rfl | hb
      · exact le_rfl
      · exact (List.pairwise_cons.1 hsort).1 b hb
    obtain ⟨hb0, hz0⟩ := (hl b₀).1 List.mem_cons_self
    -- the first bearing stands on the shaft
    have hn : b₀.n = k := by
      have hchk := hR.check b₀ hb0
      rw [hz0] at hchk
      unfold heightCheck at hchk
      dsimp only at hchk
      have hmin? : (((r.df.filter (·.isBrg)).filter fun x => x.nodes_pos_l = some (position r.shaft k)).filterMap
          (·.n_l)).min? = some b₀.n := by
        rw [List.min?_eq_some_iff]
        constructor
        · rw [List.mem_filterMap]
          exact ⟨rowOf pos b₀, s1.mem_iff.1 (List.mem_map.2 ⟨b₀, List.mem_cons_self, rfl⟩), rfl⟩
        · intro n hn
          obtain ⟨x, hx, hxn⟩ := List.mem_filterMap.1 hn
          obtain ⟨b, hb, rfl⟩ := List.mem_map.1 (s1.mem_iff.2 hx)
          have : b.n = n := Option.some.inj hxn
          rw [← this]
          exact hmin b hb
      have hle : b₀.n ≤ shaftEnd r := by
        have hsm : ∀ n ∈ r.shaft.map nodeOf, n < shaftEnd r := by
          intro n hn
          obtain ⟨e, he, rfl⟩ := List.mem_map.1 hn
          exact hc.upto e he
        have hmin' : (((List.filter (fun x => decide (x.nodes_pos_l = some (position r.shaft k)))
            (List.filter (fun x => x.isBrg) r.df)).filterMap (·.n_l)).min?).getD 0 = b₀.n := by
          rw [hmin?]; rfl
        rw [hmin'] at hchk
        split_ifs at hchk with c1 c2 c3 c4 c5
        · exact (hsm _ c2).le
        · obtain ⟨n, hn, he⟩ := c4
          have := hsm n hn
          omega
        · exact (hsm _ c5.1).le
      obtain ⟨j, hj, hjz⟩ := hR.stands b₀ hb0
      have hj' := stands_on hj hle
      rw [hz0] at hjz
      have := pos_inj hg hL hk (stands_le hj) (Option.some.inj hjz)
      omega
    have hsc : ∀ b ∈ b₀ :: l, scaleFactor r.bearings b.tag = b.base.scale_factor := fun b hb =>
      scale_of hR.tags (l1 b hb)
    obtain ⟨k1, k2⟩ := stack_get m (scaleFactor r.bearings) ((b₀ :: l).map BrgEl.tag) R 0
      fun t => m * scaleFactor r.bearings t
    have hfun : (fun t => plus (some R) ((some m).map fun m => 2 * (0.5 * scaleFactor r.bearings t * m))) =
        fun t => some (R + m * scaleFactor r.bearings t + 0) := by
      funext t
      simp only [plus, Option.map_some, Option.bind_some, Option.some.injEq]
      ring
    refine ⟨b₀ :: l, R, stack (some m) (scaleFactor r.bearings) ((b₀ :: l).map BrgEl.tag) (some (R + 0))
      (fun t => some (R + m * scaleFactor r.bearings t + 0)), ⟨hnd.of_map _, ?_, hsort⟩, hr, ?_, k1, ?_⟩
    · intro b
      rw [hl b]
      exact and_congr_right fun hb => (hR.told b hb _).symm
    · have h0 : (rowOf pos b₀).n_l.getD 0 = k := hn
      rw [List.map_cons]
      simp only [h0, hf, hm, ShapeLemmas.ok_bind]
      rw [hfun, add_zero, ← List.map_cons, List.map_map]
      rfl
    · intro i b hi
      rw [k2 i b.tag (by rw [List.getElem?_map, hi]; rfl)]
      have hsum : ∀ j, (((b₀ :: l).map BrgEl.tag).take j).map (scaleFactor r.bearings) =
          ((b₀ :: l).take j).map fun b => b.base.scale_factor := by
        intro j
        rw [← List.map_take, List.map_map]
        exact List.map_congr_left fun b hb => hsc b (List.mem_of_mem_take hb)
      have htake : (b₀ :: l).take (i + 1) = (b₀ :: l).take i ++ [b] := by
        rw [List.take_add_one, hi]
        rfl
      rw [hsum, hsc b (List.mem_of_getElem? hi), htake]
      unfold scales
      simp only [List.map_append, List.sum_append, List.map_cons, List.map_nil, List.sum_singleton, Option.some.injEq,
        Prod.mk.injEq, true_and]
      constructor <;> ring

/-- All heights. -/
theorem heights_of {pos : Option String → Option ℝ} (hR : Rows r pos) (hns : SortsNodes ns)
    (h : init pd fuel a = some (.ok r)) (hg : NoGaps r) (hL : PositiveLengths r) {m : ℝ}
    (hm : meanOf r.nodes_o_d = some m) : ∃ H, heights ns r = .ok H ∧
      ∀ k ≤ shaftEnd r, (∃ b ∈ r.bearings, pos b.tag = some (position r.shaft k)) →
        ∃ l R, BearingsAt r k l ∧ RadiusAt r.shaft k R ∧ ∀ (i : ℕ) b, l[i]? = some b →
          heightOf H b.tag = .ok (some (R + m * scales (l.take i)), some (R + m * scales (l.take (i + 1)))) := by
  have hz : ∀ z ∈ ((r.df.filter (·.isBrg)).map (·.nodes_pos_l)).reverse.dedup.reverse,
      ∃ k ≤ shaftEnd r, z = some (position r.shaft k) ∧ ∃ b ∈ r.bearings, pos b.tag = some (position r.shaft k) := by
    intro z hz
    simp only [List.mem_reverse, List.mem_dedup] at hz
    obtain ⟨x, hx, rfl⟩ := List.mem_map.1 hz
    obtain ⟨b, hb, rfl⟩ := (hR.mem x).1 hx
    obtain ⟨k, hk, hp⟩ := hR.stands b hb
    exact ⟨k, stands_le hk, hp, b, hb, hp⟩
  obtain ⟨L, hLs⟩ : ∃ L, (((r.df.filter (·.isBrg)).map (·.nodes_pos_l)).reverse.dedup.reverse).mapM (heightsAt ns r) = .ok L := by
    refine RunLemmas.mapM_total fun z hzm => ?_
    obtain ⟨k, hk, rfl, hb⟩ := hz z hzm
    obtain ⟨_, _, H, -, -, hH, -⟩ := at_of hR hns h hg hL hm hk hb
    exact ⟨H, hH⟩
  have hLm := (mapM_ok_iff _ _ _).1 hLs
  refine ⟨L.flatten, ?_, ?_⟩
  · unfold heights
    simp only [hLs, ShapeLemmas.ok_bind]
    rfl
  · intro k hk hb
    obtain ⟨l, R, H, a1, a2, a3, a4, a5⟩ := at_of hR hns h hg hL hm hk hb
    refine ⟨l, R, a1, a2, ?_⟩
    intro i b hi
    have hbl : b ∈ l := List.mem_of_getElem? hi
    have hbr := ((a1.mem b).1 hbl).1
    have hbz := (hR.told b hbr _).1 ((a1.mem b).1 hbl).2
    have hlt : (l.map BrgEl.tag).Nodup :=
      (List.nodup_map_iff_inj_on a1.nodup).2 fun x hx y hy e =>
        tag_inj hR.tags ((a1.mem x).1 hx).1 ((a1.mem y).1 hy).1 e
    have hHL : H ∈ L := by
      have h1 : (.ok H : Res _) ∈ L.map Except.ok := by
        rw [← hLm, ← a3]
        refine List.mem_map.2 ⟨_, ?_, rfl⟩
        simp only [List.mem_reverse, List.mem_dedup]
        exact List.mem_map.2 ⟨rowOf pos b, (hR.mem _).2 ⟨b, hbr, rfl⟩, hbz⟩
      obtain ⟨H', hH', e⟩ := List.mem_map.1 h1
      cases e
      exact hH'
    have hv := List.mem_of_getElem? (a5 i b hi)
    have huniq : ∀ x ∈ L.flatten, x.1 = b.tag →
        x = (b.tag, some (R + m * scales (l.take i)), some (R + m * scales (l.take (i + 1)))) := by
      intro x hx hxt
      obtain ⟨H', hH', hx'⟩ := List.mem_flatten.1 hx
      have h1 : (.ok H' : Res _) ∈ L.map Except.ok := List.mem_map.2 ⟨H', hH', rfl⟩
      rw [← hLm] at h1
      obtain ⟨z, hzm, hzH⟩ := List.mem_map.1 h1
      obtain ⟨k', hk', rfl, hb'⟩ := hz z hzm
      obtain ⟨l', R', H'', c1, c2, c3, c4, c5⟩ := at_of hR hns h hg hL hm hk' hb'
      have e1 : H' = H'' := Except.ok.inj (hzH.symm.trans c3)
      subst e1
      have h2 : b.tag ∈ l'.map BrgEl.tag := by
        rw [← c4, ← hxt]
        exact List.mem_map.2 ⟨x, hx', rfl⟩
      obtain ⟨b', hb1, hb2⟩ := List.mem_map.1 h2
      have e2 := tag_inj hR.tags ((c1.mem b').1 hb1).1 hbr hb2
      subst e2
      have h3 := (hR.told b' hbr _).1 ((c1.mem b').1 hb1).2
      rw [hbz] at h3
      have e3 := pos_inj hg hL hk hk' (Option.some.inj h3)
      subst e3
      have e4 : H' = H := Except.ok.inj (c3.symm.trans a3)
      subst e4
      have hnd : (H'.map Prod.fst).Nodup := by rw [a4]; exact hlt
      exact List.inj_on_of_nodup_map hnd hx' hv hxt
    unfold heightOf
    cases hf : L.flatten.find? (fun x => x.1 = b.tag) with
    | none =>
      have := List.find?_eq_none.1 hf _ (List.mem_flatten.2 ⟨H, hHL, hv⟩)
      simp at this
    | some x =>
      have h1 := List.mem_of_find?_eq_some hf
      have h2 := List.find?_some hf
      rw [huniq x h1 (by simpa using h2)]

/-! ### Point masses -/

theorem fold_pm : ∀ (l : List PmEl) (rows rows' : List Row),
    (∀ p ∈ l, ∀ x ∈ rows.filter (·.isBrg), x.tag ≠ p.tag) → (l.map PmEl.tag).Nodup → l.foldlM pmPos rows = .ok rows' →
    ∀ p ∈ l, ∃ y t, (rows'.filter (·.isBrg)).filter (fun x => x.n_l = p.n) = y :: t ∧
      ∀ x ∈ rows', x.tag = p.tag → x.nodes_pos_l = y.nodes_pos_l := by
  intro l
  induction l with
  | nil => intro _ _ _ _ _ p hp; cases hp
  | cons p l ih =>
    intro rows rows' hp hnd h
    rw [List.map_cons, List.nodup_cons] at hnd
    have hall := fold_brg (p :: l) rows rows' hp h
    rw [List.foldlM_cons] at h
    obtain ⟨rows₁, h1, h2⟩ := RunLemmas.bindOk h
    have hp' : ∀ q ∈ l, ∀ x ∈ rows₁.filter (·.isBrg), x.tag ≠ q.tag := by
      have h3 := fold_brg [p] rows rows₁ (by
        intro q hq
        rw [List.mem_singleton.1 hq]
        exact hp p List.mem_cons_self) (by rw [List.foldlM_cons, h1]; rfl)
      rw [h3]
      exact fun q hq => hp q (List.mem_cons_of_mem _ hq)
    intro q hq
    rcases List.mem_cons.1 hq with rfl | hq
    · rw [hall]
      unfold pmPos at h1
      split at h1
      · cases h1
      · rename_i z zs hzs
        have hff : rows.filter (fun r => r.isBrg ∧ r.n_l = q.n) =
            (rows.filter (·.isBrg)).filter fun x => x.n_l = q.n := by
          rw [List.filter_filter]
          apply List.filter_congr
          intro x _
          by_cases h1 : x.isBrg = true <;> by_cases h2 : x.n_l = q.n <;> simp [h1, h2]
        rw [hff] at hzs
        cases hy : (rows.filter (·.isBrg)).filter (fun x => x.n_l = q.n) with
        | nil => rw [hy] at hzs; cases hzs
        | cons y t =>
          rw [hy] at hzs
          have hyz : y.nodes_pos_l = z := (List.cons.inj hzs).1
          refine ⟨y, t, rfl, ?_⟩
          cases h1
          rw [hyz]
          -- later steps leave the row alone
          have hkeep : ∀ (l : List PmEl) (rows rows' : List Row), q.tag ∉ l.map PmEl.tag → l.foldlM pmPos rows = .ok rows' →
              (∀ x ∈ rows, x.tag = q.tag → x.nodes_pos_l = z) → ∀ x ∈ rows', x.tag = q.tag → x.nodes_pos_l = z := by
            intro l
            induction l with
            | nil => intro rows rows' _ h hx; cases h; exact hx
            | cons p l ih =>
              intro rows rows' hn h hx
              rw [List.foldlM_cons] at h
              obtain ⟨rows₁, h1, h2⟩ := RunLemmas.bindOk h
              rw [List.map_cons, List.mem_cons, not_or] at hn
              refine ih rows₁ rows' hn.2 h2 ?_
              unfold pmPos at h1
              split at h1
              · cases h1
              · cases h1
                intro x hx1 hx2
                unfold setPos at hx1
                obtain ⟨w, hw, rfl⟩ := List.mem_map.1 hx1
                by_cases hwt : w.tag = p.tag
                · rw [if_pos hwt] at hx2
                  exact absurd (hx2.symm.trans hwt) hn.1
                · rw [if_neg hwt] at hx2 ⊢
                  exact hx w hw hx2
          refine hkeep l _ rows' hnd.1 h2 ?_
          intro x hx1 hx2
          unfold setPos at hx1
          obtain ⟨w, hw, rfl⟩ := List.mem_map.1 hx1
          by_cases hwt : w.tag = q.tag
          · rw [if_pos hwt]
          · rw [if_neg hwt] at hx2
            exact absurd hx2 hwt
    · exact ih rows₁ rows' hp' hnd.2 h2 q hq

/-- A point mass stands with the first bearing on its node in the table. -/
theorem pm_of {pos : Option String → Option ℝ} (hR : Rows r pos) (hpd : SortsRows pd) (h : init pd fuel a = some (.ok r))
    (hg : NoGaps r) {p : PmEl} (hp : p ∈ r.pms) : ∃ b ∈ r.bearings, p.n = some b.n ∧
      (∃ t, r.df.filter (fun x => x.isBrg ∧ x.n_l = p.n) = rowOf pos b :: t) ∧
      ∀ z, pos b.tag = some z → TableSays r p.tag z := by
  have hb := init_ok h
  have hc := ctx_of hb h hg
  obtain ⟨r₀, rows, h1, h2, h3⟩ := init_ok_build h
  unfold finish at h3
  dsimp only at h3
  obtain ⟨us, h5, h6⟩ := bind_ok.1 h3
  obtain ⟨df, h7, h8⟩ := bind_ok.1 h6
  have h9 := Except.ok.inj h8
  have e4 : r₀.pms = r.pms := by rw [← h9]
  have e6 : df = r.df := by rw [← h9]
  subst e6
  rw [e4] at h7
  have hne : ∀ p ∈ r.pms, ∀ x ∈ rows.filter (·.isBrg), x.tag ≠ p.tag := by
    intro p hp x hx
    obtain ⟨hx1, hx2⟩ := List.mem_filter.1 hx
    have : (x.tag, x.isBrg) ∈ r.df.map fun x => (x.tag, x.isBrg) := by
      rw [fold_tags _ _ _ h7]
      exact List.mem_map.2 ⟨x, hx1, rfl⟩
    obtain ⟨y, hy, hxy⟩ := List.mem_map.1 this
    obtain ⟨t1, t2⟩ := Prod.mk.inj hxy
    obtain ⟨b, hb, rfl⟩ := (hR.mem y).1 (List.mem_filter.2 ⟨hy, by rw [t2]; exact hx2⟩)
    rw [← t1]
    exact hc.brpm p hp b hb
  obtain ⟨y, t, hy, hx⟩ := fold_pm r.pms rows r.df hne hc.pmtags h7 p hp
  have hym : y ∈ (r.df.filter (·.isBrg)).filter (fun x => x.n_l = p.n) := by rw [hy]; exact List.mem_cons_self
  obtain ⟨hy1, hy2⟩ := List.mem_filter.1 hym
  obtain ⟨b, hbm, rfl⟩ := (hR.mem y).1 hy1
  refine ⟨b, hbm, (of_decide_eq_true hy2).symm, ⟨t, ?_⟩, ?_⟩
  · rw [← hy, List.filter_filter]
    apply List.filter_congr
    intro x _
    by_cases h1 : x.isBrg = true <;> by_cases h2 : x.n_l = p.n <;> simp [h1, h2]
  · intro z hz
    obtain ⟨c, hcm, hcn, k, hk, -, ht⟩ := Ross.Props.C110_positions hpd h hg |>.2.2 p hp
    have hT := ht
    unfold TableSays at hT
    obtain ⟨x, hx1, hx2⟩ : ∃ x ∈ r.df.filter (fun x => x.tag = p.tag),
        (x.nodes_pos_l, x.nodes_pos_r) = (some (position r.shaft k), some (position r.shaft k)) := by
      have : (some (position r.shaft k), some (position r.shaft k)) ∈
          (r.df.filter fun x => x.tag = p.tag).map fun x => (x.nodes_pos_l, x.nodes_pos_r) := by rw [hT]; simp
      obtain ⟨x, h1, h2⟩ := List.mem_map.1 this
      exact ⟨x, h1, h2⟩
    obtain ⟨m1, m2⟩ := List.mem_filter.1 hx1
    have h4 := hx x m1 (of_decide_eq_true m2)
    have h5 : x.nodes_pos_l = some (position r.shaft k) := (Prod.mk.inj hx2).1
    have h6 : (rowOf pos b).nodes_pos_l = some z := hz
    rw [h5, h6] at h4
    rw [← Option.some.inj h4]
    exact ht

end Ross.HeightLemmas
