import Verif.Lemmas.Term
import Verif.Lemmas.Work
import Verif.Props.RotorInit
import Verif.Spec.Place

/-! # Positions in the table of elements -/

namespace Ross.PlaceLemmas

open Ross Ross.Spec Ross.BearingLemmas Ross.Rotor Ross.RotorLemmas Ross.AssemblyLemmas Ross.Props

variable {sh : List ShaftEl} {dk : List DiskEl} {br : List BrgEl} {pm : List PmEl} {N : ℕ}

theorem stands_on {b : BrgEl} {k : ℕ} (h : StandsAt br N b k) (hb : b.n ≤ N) : k = b.n := by
  cases h with
  | shaft _ => rfl
  | support h' => omega

theorem stands_le {b : BrgEl} {k : ℕ} (h : StandsAt br N b k) : k ≤ N := by
  induction h with
  | shaft h => exact h
  | support _ _ _ _ _ ih => exact ih

/-- The next node is one layer further. -/
theorem next_node {e : ShaftEl} (he : e ∈ sh) :
    position sh (nodeOf e) + layerLength sh (nodeOf e) = position sh (nodeOf e + 1) := by
  unfold position
  have hm : nodeOf e ∈ leftNodes sh := mem_leftNodes.2 ⟨e, he, rfl⟩
  have : (leftNodes sh).filter (fun x => x < nodeOf e + 1) =
      insert (nodeOf e) ((leftNodes sh).filter fun x => x < nodeOf e) := by
    ext x
    simp only [Finset.mem_filter, Finset.mem_insert]
    constructor
    · rintro ⟨h1, h2⟩
      by_cases hx : x = nodeOf e
      · exact Or.inl hx
      · exact Or.inr ⟨h1, by omega⟩
    · rintro (rfl | ⟨h1, h2⟩)
      · exact ⟨hm, by omega⟩
      · exact ⟨h1, by omega⟩
  rw [this, Finset.sum_insert (by simp), add_comm]

/-- What is known while the bearings are placed. -/
structure PInv (sh : List ShaftEl) (dk : List DiskEl) (br : List BrgEl) (N : ℕ) (pos : Option String → Option ℝ) : Prop where
  disk : ∀ d ∈ dk, pos d.d.tag = some (position sh d.d.n)
  brg : ∀ b ∈ br, ∀ z, pos b.tag = some z → ∃ k, StandsAt br N b k ∧ z = position sh k

/-- The lists of a rotor after numbering, tagging and sorting. -/
structure PCtx (sh : List ShaftEl) (dk : List DiskEl) (br : List BrgEl) (pm : List PmEl) (N : ℕ) : Prop where
  fill : ∀ k < N, ∃ e ∈ sh, nodeOf e = k
  upto : ∀ e ∈ sh, nodeOf e < N
  on : ∀ d ∈ dk, d.d.n ≤ N
  pos : 0 < N
  shdk : ∀ d ∈ dk, ∀ e ∈ sh, e.s.tag ≠ d.d.tag
  shbr : ∀ b ∈ br, ∀ e ∈ sh, e.s.tag ≠ b.tag
  shpm : ∀ p ∈ pm, ∀ e ∈ sh, e.s.tag ≠ p.tag
  dkbr : ∀ b ∈ br, ∀ d ∈ dk, d.d.tag ≠ b.tag
  dkpm : ∀ p ∈ pm, ∀ d ∈ dk, d.d.tag ≠ p.tag
  brpm : ∀ p ∈ pm, ∀ b ∈ br, b.tag ≠ p.tag
  shtags : (sh.map fun e => e.s.tag).Nodup
  dktags : (dk.map fun d => d.d.tag).Nodup
  brtags : (br.map BrgEl.tag).Nodup
  pmtags : (pm.map PmEl.tag).Nodup

theorem cons_of_map {rows : List Row} {p : Row → Bool} {f : Row → Option ℝ} {v : Option ℝ} {t : List (Option ℝ)}
    (h : (rows.filter p).map f = v :: t) : ∃ x ∈ rows, p x = true ∧ f x = v := by
  have : v ∈ (rows.filter p).map f := by rw [h]; exact List.mem_cons_self
  obtain ⟨x, hx, rfl⟩ := List.mem_map.1 this
  obtain ⟨h1, h2⟩ := List.mem_filter.1 hx
  exact ⟨x, h1, h2, rfl⟩

theorem ne_of_map {rows : List Row} {p : Row → Bool} {f : Row → Option ℝ} {x : Row} (hx : x ∈ rows) (hp : p x = true) :
    (rows.filter p).map f ≠ [] :=
  List.ne_nil_of_mem (List.mem_map.2 ⟨x, List.mem_filter.2 ⟨hx, hp⟩, rfl⟩)

/-- The position found for a bearing, if any, is that of where it stands. -/
theorem found (hc : PCtx sh dk br pm N) {pos : Option String → Option ℝ} (hi : PInv sh dk br N pos) {rows : List Row}
    (hr : rows.Perm (ideal sh dk br pm pos)) {b : BrgEl} (hb : b ∈ br) {z : ℝ}
    (h : bearingPos rows b = .ok (some z)) : ∃ k, StandsAt br N b k ∧ z = position sh k := by
  have via : ∀ c ∈ br, c.tag ≠ b.tag → c.n = b.n → pos c.tag = some z →
      ∃ k, StandsAt br N b k ∧ z = position sh k := by
    intro c hcm ht hn hp
    obtain ⟨k, hk, rfl⟩ := hi.brg c hcm z hp
    by_cases hN : b.n ≤ N
    · have := stands_on hk (by omega)
      exact ⟨b.n, .shaft hN, by rw [this, hn]⟩
    · exact ⟨k, .support (by omega) hcm ht (Or.inl hn) hk, rfl⟩
  have atShaft : ∀ {m : ℕ}, m = b.n → m ≤ N → z = position sh m → ∃ k, StandsAt br N b k ∧ z = position sh k := by
    rintro m rfl hm rfl
    exact ⟨b.n, .shaft hm, rfl⟩
  unfold bearingPos at h
  dsimp only at h
  split at h
  · rename_i v t hv
    cases h
    obtain ⟨x, hx, hp, hz⟩ := cons_of_map hv
    simp only [ne_eq, decide_eq_true_eq] at hp
    rcases mem_ideal.1 (hr.mem_iff.1 hx) with ⟨e, he, rfl⟩ | ⟨e, he, rfl⟩ | ⟨e, he, rfl⟩ | ⟨e, he, rfl⟩
    · simp only [Option.some.injEq] at hp hz
      exact atShaft hp.1 (hc.upto e he).le hz.symm
    · simp only [Option.some.injEq] at hp hz
      rw [hi.disk e he, Option.some.injEq] at hz
      exact atShaft hp.1 (hc.on e he) hz.symm
    · simp only [Option.some.injEq] at hp
      exact via e he hp.2 hp.1 hz
    · simp at hp
  · rename_i v t _ hv
    cases h
    obtain ⟨x, hx, hp, hz⟩ := cons_of_map hv
    simp only [ne_eq, decide_eq_true_eq] at hp
    rcases mem_ideal.1 (hr.mem_iff.1 hx) with ⟨e, he, rfl⟩ | ⟨e, he, rfl⟩ | ⟨e, he, rfl⟩ | ⟨e, he, rfl⟩
    · simp only [Option.some.injEq] at hp hz
      exact atShaft hp.1 (hc.upto e he) (by rw [← hz, next_node he])
    · simp only [Option.some.injEq] at hp hz
      rw [hi.disk e he, Option.some.injEq] at hz
      exact atShaft hp.1 (hc.on e he) hz.symm
    · simp only [Option.some.injEq] at hp
      exact via e he hp.2 hp.1 hz
    · simp at hp
  · rename_i hl hrr
    split at h
    · cases h
    · rename_i v t hv
      cases h
      have hN : N < b.n := by
        by_contra hN
        rcases Nat.lt_or_ge b.n N with hlt | hge
        · obtain ⟨e, he, hn⟩ := hc.fill b.n hlt
          refine ne_of_map (hr.mem_iff.2 (mem_ideal.2 (Or.inl ⟨e, he, rfl⟩))) ?_ hl
          simp [hn, hc.shbr b hb e he]
        · have hbN : b.n = N := by omega
          obtain ⟨e, he, hn⟩ := hc.fill (N - 1) (by have := hc.pos; omega)
          refine ne_of_map (hr.mem_iff.2 (mem_ideal.2 (Or.inl ⟨e, he, rfl⟩))) ?_ hrr
          have := hc.pos
          simp only [hn, ne_eq, decide_eq_true_eq, Option.some.injEq]
          exact ⟨by omega, hc.shbr b hb e he⟩
      obtain ⟨x, hx, hp, hz⟩ := cons_of_map hv
      simp only [ne_eq, decide_eq_true_eq] at hp
      rcases mem_ideal.1 (hr.mem_iff.1 hx) with ⟨e, he, rfl⟩ | ⟨e, he, rfl⟩ | ⟨e, he, rfl⟩ | ⟨e, he, rfl⟩
      · simp at hp
      · simp at hp
      · simp only at hp hz
        obtain ⟨k, hk, rfl⟩ := hi.brg e he z hz
        exact ⟨k, .support hN he hp.2 (Or.inr hp.1) hk, rfl⟩
      · simp at hp

/-- Placing one bearing. -/
theorem step_inv (hc : PCtx sh dk br pm N) {rows : List Row}
    (h : ∃ pos, rows.Perm (ideal sh dk br pm pos) ∧ PInv sh dk br N pos) {b : BrgEl} (hb : b ∈ br) {z : Option ℝ}
    (hz : bearingPos rows b = .ok z) :
    ∃ pos, (setPos rows b.tag z).Perm (ideal sh dk br pm pos) ∧ PInv sh dk br N pos := by
  obtain ⟨pos, hr, hi⟩ := h
  refine ⟨fun u => if u = b.tag then z else pos u, ?_, ?_, ?_⟩
  · rw [← setPos_ideal (hc.shbr b hb)]
    exact setPos_perm hr _ _
  · intro d hd
    simp only [if_neg (hc.dkbr b hb d hd)]
    exact hi.disk d hd
  · intro c hcm w hw
    by_cases ht : c.tag = b.tag
    · have : c = b := List.inj_on_of_nodup_map hc.brtags hcm hb ht
      subst this
      simp only [if_true] at hw
      subst hw
      exact found hc hi hr hb hz
    · simp only [if_neg ht] at hw
      exact hi.brg c hcm w hw

/-- Placing the point masses. -/
theorem pm_fold (hc : PCtx sh dk br pm N) : ∀ (l : List PmEl), (∀ p ∈ l, p ∈ pm) → (l.map PmEl.tag).Nodup →
    ∀ (rows rows' : List Row) (pos : Option String → Option ℝ), rows.Perm (ideal sh dk br pm pos) →
    l.foldlM pmPos rows = .ok rows' →
    ∃ pos', rows'.Perm (ideal sh dk br pm pos') ∧ (∀ t, (∀ p ∈ l, p.tag ≠ t) → pos' t = pos t) ∧
      ∀ p ∈ l, ∃ b ∈ br, p.n = some b.n ∧ pos' p.tag = pos b.tag := by
  intro l
  induction l with
  | nil =>
    intro _ _ rows rows' pos hr h
    cases h
    exact ⟨pos, hr, fun _ _ => rfl, by simp⟩
  | cons p t ih =>
    intro hl hnd rows rows' pos hr h
    rw [List.foldlM_cons] at h
    rw [List.map_cons, List.nodup_cons] at hnd
    obtain ⟨rows₁, h1, h2⟩ := bind_ok.1 h
    have hp := hl p List.mem_cons_self
    unfold pmPos at h1
    split at h1
    · cases h1
    · rename_i z s hv
      cases h1
      obtain ⟨x, hx, hpx, hz⟩ := cons_of_map hv
      simp only [decide_eq_true_eq] at hpx
      have hx' : ∃ b ∈ br, p.n = some b.n ∧ pos b.tag = z := by
        rcases mem_ideal.1 (hr.mem_iff.1 hx) with ⟨e, he, rfl⟩ | ⟨e, he, rfl⟩ | ⟨e, he, rfl⟩ | ⟨e, he, rfl⟩
        · simp at hpx
        · simp at hpx
        · exact ⟨e, he, hpx.2.symm, hz⟩
        · simp at hpx
      obtain ⟨pos', r1, r2, r3⟩ := ih (fun q hq => hl q (List.mem_cons_of_mem _ hq)) hnd.2 _ _
        (fun u => if u = p.tag then z else pos u) (by
          rw [← setPos_ideal (hc.shpm p hp)]
          exact setPos_perm hr _ _) h2
      refine ⟨pos', r1, ?_, ?_⟩
      · intro u hu
        rw [r2 u fun q hq => hu q (List.mem_cons_of_mem _ hq), if_neg]
        exact fun e => hu p List.mem_cons_self e.symm
      · intro q hq
        rcases List.mem_cons.1 hq with rfl | hq
        · obtain ⟨b, hb, hn, hbz⟩ := hx'
          refine ⟨b, hb, hn, ?_⟩
          rw [r2 q.tag fun q' hq' e => hnd.1 (List.mem_map.2 ⟨q', hq', e⟩), if_pos rfl, hbz]
        · obtain ⟨b, hb, hn, hbz⟩ := r3 q hq
          refine ⟨b, hb, hn, ?_⟩
          rw [hbz, if_neg (hc.brpm p hp b hb)]

theorem filter_one {α β : Type} {l : List α} {f : α → Option String} (hn : (l.map f).Nodup) {x : α} (hx : x ∈ l) (g : α → β) :
    (l.filter fun y => f y = f x).map g = [g x] := by
  have h1 : l.filter (fun y => f y = f x) = [x] := by
    induction l with
    | nil => cases hx
    | cons y t ih =>
      rw [List.map_cons, List.nodup_cons] at hn
      rcases List.mem_cons.1 hx with rfl | hx
      · rw [List.filter_cons_of_pos (by simp), List.filter_eq_nil_iff.2]
        intro y hy
        simp only [decide_eq_true_eq]
        exact fun e => hn.1 (List.mem_map.2 ⟨y, hy, e⟩)
      · rw [List.filter_cons_of_neg (by
          simp only [decide_eq_true_eq]
          exact fun e => hn.1 (List.mem_map.2 ⟨x, hx, e.symm⟩))]
        exact ih hn.2 hx
  rw [h1]; rfl

theorem ideal_tags (hc : PCtx sh dk br pm N) (pos : Option String → Option ℝ) :
    ((ideal sh dk br pm pos).map fun x => x.tag).Nodup := by
  unfold ideal
  simp only [List.map_append, List.map_map, Function.comp_def]
  refine List.nodup_append.2 ⟨List.nodup_append.2 ⟨List.nodup_append.2 ⟨hc.shtags, hc.dktags, ?_⟩, hc.brtags, ?_⟩,
    hc.pmtags, ?_⟩
  · intro t ht u hu
    obtain ⟨e, he, rfl⟩ := List.mem_map.1 ht
    obtain ⟨d, hd, rfl⟩ := List.mem_map.1 hu
    exact hc.shdk d hd e he
  · intro t ht u hu
    obtain ⟨b, hb, rfl⟩ := List.mem_map.1 hu
    rcases List.mem_append.1 ht with ht | ht <;> obtain ⟨e, he, rfl⟩ := List.mem_map.1 ht
    · exact hc.shbr b hb e he
    · exact hc.dkbr b hb e he
  · intro t ht u hu
    obtain ⟨p, hp, rfl⟩ := List.mem_map.1 hu
    rcases List.mem_append.1 ht with ht | ht
    · rcases List.mem_append.1 ht with ht | ht <;> obtain ⟨e, he, rfl⟩ := List.mem_map.1 ht
      · exact hc.shpm p hp e he
      · exact hc.dkpm p hp e he
    · obtain ⟨b, hb, rfl⟩ := List.mem_map.1 ht
      exact hc.brpm p hp b hb

variable {pd : Pandas} {a : RotorArgs} {r : Rotor} {fuel : ℕ}

theorem nodes_of (h : init pd fuel a = some (.ok r)) (hg : NoGaps r) :
    r.nodes_pos = (List.range (shaftEnd r + 1)).map (position r.shaft) := by
  have hb := init_ok h
  have hlast : shaftEnd r = lastNode r.shaft + 1 := by rw [shaftEnd_last h]; rfl
  have hnd : (groups r.shaft).Nodup := List.nodup_dedup _
  have hperm : (groups r.shaft).Perm (List.range (shaftEnd r)) := by
    rw [List.perm_ext_iff_of_nodup hnd List.nodup_range]
    intro k
    rw [mem_groups, mem_leftNodes, List.mem_range]
    constructor
    · rintro ⟨e, he, rfl⟩
      have := RotorLemmas.node_le_last hb he
      omega
    · exact hg k
  have heq : groups r.shaft = List.range (shaftEnd r) :=
    List.Perm.eq_of_pairwise (le := (· < ·)) (fun a b _ _ h1 h2 => by omega)
      (groups_sorted (shaft_sorted h)) List.pairwise_lt_range hperm
  rw [hb.pos, nodesPos_eq (check_ok hb.dof).1 (shaft_sorted h), heq, ← hlast, ← List.range_succ]

theorem posAt_ok (h : init pd fuel a = some (.ok r)) (hg : NoGaps r) {n : ℕ} {z : ℝ} (hz : posAt r.nodes_pos n = .ok z) :
    n ≤ shaftEnd r ∧ z = position r.shaft n := by
  unfold posAt at hz
  rw [nodes_of h hg, List.getElem?_map] at hz
  by_cases hn : n < shaftEnd r + 1
  · rw [List.getElem?_range hn] at hz
    cases hz
    exact ⟨by omega, rfl⟩
  · rw [List.getElem?_eq_none (by simpa using hn)] at hz
    cases hz

theorem disk_pos (h : init pd fuel a = some (.ok r)) (hg : NoGaps r) {dkpos : List ℝ}
    (h1 : r.disks.mapM (fun e => posAt r.nodes_pos e.d.n) = .ok dkpos) :
    (∀ x ∈ r.disks.zip dkpos, x.2 = position r.shaft x.1.d.n) ∧ (∀ d ∈ r.disks, d.d.n ≤ shaftEnd r) ∧
      dkpos.length = r.disks.length := by
  have e := (mapM_ok_iff _ _ _).1 h1
  have hlen : dkpos.length = r.disks.length := by simpa using (congrArg List.length e).symm
  have hi : ∀ (i : ℕ) (hi : i < r.disks.length), posAt r.nodes_pos r.disks[i].d.n = .ok (dkpos[i]'(by omega)) := by
    intro i hi
    have := congrArg (fun l => l[i]?) e
    simpa [hi, hlen] using this
  refine ⟨?_, ?_, hlen⟩
  · intro x hx
    obtain ⟨i, hi', rfl⟩ := List.mem_iff_getElem.1 hx
    have hi2 : i < r.disks.length := by simp at hi'; omega
    simp only [List.getElem_zip]
    exact (posAt_ok h hg (hi i hi2)).2
  · intro d hd
    obtain ⟨i, hi', rfl⟩ := List.mem_iff_getElem.1 hd
    exact (posAt_ok h hg (hi i hi')).1

theorem disks_on (h : init pd fuel a = some (.ok r)) (hg : NoGaps r) : ∀ d ∈ r.disks, d.d.n ≤ shaftEnd r := by
  obtain ⟨dkpos, h1, -⟩ := (init_ok h).CG
  exact (disk_pos h hg h1).2.1

theorem ctx_of (hb : Built pd a r) (h : init pd fuel a = some (.ok r)) (hg : NoGaps r) :
    PCtx r.shaft r.disks r.bearings r.pms (shaftEnd r) := by
  have ht := hb.tags
  unfold Parts.elements at ht
  rw [← hb.shaft, ← hb.disks, ← hb.bearings, ← hb.pms] at ht
  simp only [List.map_append, List.map_map] at ht
  rw [List.nodup_append, List.nodup_append, List.nodup_append] at ht
  obtain ⟨⟨⟨tsh, tdk, hsd⟩, tbr, hdb⟩, tpm, hap⟩ := ht
  have hupto : ∀ e ∈ r.shaft, nodeOf e < shaftEnd r := by
    intro e he
    have := RotorLemmas.node_le_last hb he
    have h2 : shaftEnd r = lastNode r.shaft + 1 := by rw [shaftEnd_last h]; rfl
    omega
  have hne : r.shaft ≠ [] := (check_ok hb.dof).1
  have hN : 0 < shaftEnd r := by
    obtain ⟨e, he⟩ := List.exists_mem_of_ne_nil _ hne
    exact Nat.lt_of_le_of_lt (Nat.zero_le _) (hupto e he)
  refine ⟨hg, hupto, ?_, hN, ?_, ?_, ?_, ?_, ?_, ?_, tsh, tdk, tbr, tpm⟩
  · exact disks_on h hg
  · intro d hd e he
    exact hsd _ (List.mem_map.2 ⟨e, he, rfl⟩) _ (List.mem_map.2 ⟨d, hd, rfl⟩)
  · intro b hbm e he
    exact hdb _ (List.mem_append_left _ (List.mem_map.2 ⟨e, he, rfl⟩)) _ (List.mem_map.2 ⟨b, hbm, rfl⟩)
  · intro p hp e he
    exact hap _ (List.mem_append_left _ (List.mem_append_left _ (List.mem_map.2 ⟨e, he, rfl⟩))) _
      (List.mem_map.2 ⟨p, hp, rfl⟩)
  · intro b hbm d hd
    exact hdb _ (List.mem_append_right _ (List.mem_map.2 ⟨d, hd, rfl⟩)) _ (List.mem_map.2 ⟨b, hbm, rfl⟩)
  · intro p hp d hd
    exact hap _ (List.mem_append_left _ (List.mem_append_right _ (List.mem_map.2 ⟨d, hd, rfl⟩))) _
      (List.mem_map.2 ⟨p, hp, rfl⟩)
  · intro p hp b hbm
    exact hap _ (List.mem_append_right _ (List.mem_map.2 ⟨b, hbm, rfl⟩)) _ (List.mem_map.2 ⟨p, hp, rfl⟩)

/-- The table before the bearings are placed. -/
theorem build_rows {r₀ : Rotor} (hpd : SortsRows pd) (h : build pd a = .ok r₀) :
    ∃ (pos : Option String → Option ℝ) (dkpos : List ℝ), r₀.df.Perm (ideal r₀.shaft r₀.disks r₀.bearings r₀.pms pos) ∧
      r₀.disks.mapM (fun e => posAt r₀.nodes_pos e.d.n) = .ok dkpos ∧
      (∀ x ∈ r₀.disks.zip dkpos, pos x.1.d.tag = some x.2) ∧
      ∀ t, (∀ d ∈ r₀.disks, d.d.tag ≠ t) → pos t = none := by
  have hb := build_ok h
  have hsp := tags_split hb.tags
  unfold build at h
  dsimp only at h
  rw [if_neg (not_not.2 hb.tags)] at h
  obtain ⟨nd, h2, h3⟩ := bind_ok.1 h
  unfold buildFrom at h3
  dsimp only at h3
  by_cases h4 : outside (parts a).sh (parts a).dk (parts a).br (parts a).pm = true
  · rw [if_pos h4] at h3; cases h3
  rw [if_neg h4] at h3
  obtain ⟨dkpos, h5, h6⟩ := bind_ok.1 h3
  obtain ⟨pl, h7, h8⟩ := bind_ok.1 h6
  have h9 := Except.ok.inj h8
  have hlen : dkpos.length = (parts a).dk.length := by
    have := congrArg List.length ((mapM_ok_iff _ _ _).1 h5)
    simpa using this.symm
  have hz : ∀ x ∈ (parts a).dk.zip dkpos, x.1 ∈ (parts a).dk := fun x hx => (List.of_mem_zip hx).1
  obtain ⟨pos, p1, p2, p3⟩ := disk_loop (sh := (parts a).sh) (dk := (parts a).dk)
    (br := (parts a).br) (pm := (parts a).pm) ((parts a).dk.zip dkpos)
    (by
      have : ((parts a).dk.zip dkpos).map (fun x => x.1.d.tag) =
          (parts a).dk.map fun e => e.d.tag := by
        rw [show (fun x : DiskEl × ℝ => x.1.d.tag) = (fun e : DiskEl => e.d.tag) ∘ Prod.fst from rfl,
          ← List.map_map, List.map_fst_zip (by omega)]
      rw [this]; exact hsp.1)
    (fun x hx e he => hsp.2.2.1 _ (hz x hx) e he) _ (fun _ => none)
    ((hpd _).trans (concat_perm (parts_sh_sorted a)))
  subst h9
  exact ⟨pos, dkpos, p1, h5, p2, fun t ht => p3 t fun x hx => ht _ (hz x hx)⟩

/-- The table of a rotor. -/
theorem table (hpd : SortsRows pd) (h : init pd fuel a = some (.ok r)) (hg : NoGaps r) :
    ∃ pos, r.df.Perm (ideal r.shaft r.disks r.bearings r.pms pos) ∧
      (∀ d ∈ r.disks, pos d.d.tag = some (position r.shaft d.d.n)) ∧
      (∀ b ∈ r.bearings, ∃ k, StandsAt r.bearings (shaftEnd r) b k ∧ pos b.tag = some (position r.shaft k)) ∧
      ∀ p ∈ r.pms, ∃ b ∈ r.bearings, p.n = some b.n ∧ pos p.tag = pos b.tag := by
  have hb := init_ok h
  have hc := ctx_of hb h hg
  obtain ⟨r₀, rows, h1, h2, h3⟩ := init_ok_build h
  obtain ⟨pos₀, dkpos, b1, b2, b3, b4⟩ := build_rows hpd h1
  unfold finish at h3
  dsimp only at h3
  obtain ⟨us, h5, h6⟩ := bind_ok.1 h3
  obtain ⟨df, h7, h8⟩ := bind_ok.1 h6
  have h9 := Except.ok.inj h8
  have e1 : r₀.shaft = r.shaft := by rw [← h9]
  have e2 : r₀.disks = r.disks := by rw [← h9]
  have e3 : r₀.bearings = r.bearings := by rw [← h9]
  have e4 : r₀.pms = r.pms := by rw [← h9]
  have e5 : r₀.nodes_pos = r.nodes_pos := by rw [← h9]
  have e6 : r.df = df := by rw [← h9]
  rw [e1, e2, e3, e4] at b1
  rw [e2, e5] at b2
  rw [e2] at b3 b4
  rw [e3] at h2
  rw [e4] at h7
  rw [e1] at h5
  obtain ⟨d1, d2, d3⟩ := disk_pos h hg b2
  have hinv : ∃ pos, rows.Perm (ideal r.shaft r.disks r.bearings r.pms pos) ∧
      PInv r.shaft r.disks r.bearings (shaftEnd r) pos := by
    refine cycle_inv (P := fun rows => ∃ pos, rows.Perm (ideal r.shaft r.disks r.bearings r.pms pos) ∧
      PInv r.shaft r.disks r.bearings (shaftEnd r) pos) (br := r.bearings) ?_ fuel r.bearings r₀.df _ rows
      (fun _ hb => hb) ⟨pos₀, b1, ?_, ?_⟩ h2
    · intro rows hP b hbm z hz
      exact step_inv hc hP hbm hz
    · intro d hd
      obtain ⟨i, hi, rfl⟩ := List.mem_iff_getElem.1 hd
      have hi' : i < (r.disks.zip dkpos).length := by simp; omega
      have hx := List.getElem_mem hi'
      have := b3 _ hx
      rw [d1 _ hx] at this
      simpa using this
    · intro b hbm z hz
      rw [b4 b.tag fun d hd => hc.dkbr b hbm d hd] at hz
      cases hz
  obtain ⟨pos, p1, p2⟩ := hinv
  obtain ⟨pos', q1, q2, q3⟩ := pm_fold hc r.pms (fun _ hp => hp) hc.pmtags _ _ _ p1 h7
  have hbrg : ∀ b ∈ r.bearings, ∃ z, pos b.tag = some z := by
    intro b hbm
    have hmem : pos b.tag ∈ (((rows.filter (·.isBrg)).map (·.nodes_pos_l)).reverse.dedup.reverse) := by
      simp only [List.mem_reverse, List.mem_dedup]
      exact List.mem_map.2 ⟨_, List.mem_filter.2 ⟨p1.mem_iff.2 (mem_ideal.2 (Or.inr (Or.inr (Or.inl ⟨b, hbm, rfl⟩)))), rfl⟩, rfl⟩
    cases hz : pos b.tag with
    | some z => exact ⟨z, rfl⟩
    | none =>
      rw [hz] at hmem
      have hm := (mapM_ok_iff _ _ _).1 h5
      have : heightCheck r.shaft (shaftPos r.shaft) (rows.filter (·.isBrg)) none ∈ us.map Except.ok := by
        rw [← hm]; exact List.mem_map.2 ⟨none, hmem, rfl⟩
      obtain ⟨u, -, hu⟩ := List.mem_map.1 this
      cases hu
  refine ⟨pos', e6 ▸ q1, ?_, ?_, ?_⟩
  · intro d hd
    rw [q2 _ fun p hp e => hc.dkpm p hp d hd e.symm]
    exact p2.disk d hd
  · intro b hbm
    obtain ⟨z, hz⟩ := hbrg b hbm
    obtain ⟨k, hk, rfl⟩ := p2.brg b hbm z hz
    refine ⟨k, hk, ?_⟩
    rw [q2 _ fun p hp e => hc.brpm p hp b hbm e.symm, hz]
  · intro p hp
    obtain ⟨b, hbm, hn, hz⟩ := q3 p hp
    refine ⟨b, hbm, hn, ?_⟩
    rw [hz, q2 _ fun p hp e => hc.brpm p hp b hbm e.symm]

/-- One row for each tag. -/
theorem table_row (hc : PCtx sh dk br pm N) {pos : Option String → Option ℝ} {rows : List Row}
    (hr : rows.Perm (ideal sh dk br pm pos)) {x : Row} (hx : x ∈ ideal sh dk br pm pos) {β : Type} (g : Row → β) :
    (rows.filter fun y => y.tag = x.tag).map g = [g x] := by
  have hn : (rows.map fun y => y.tag).Nodup := (hr.map _).nodup_iff.2 (ideal_tags hc pos)
  exact filter_one (f := fun y : Row => y.tag) hn (hr.mem_iff.2 hx) g

end Ross.PlaceLemmas
