import Verif.Lemmas.Accept

/-! # Well-formed rotor descriptions are accepted: the loops -/

namespace Ross.RotorLemmas

open Ross Ross.Spec Ross.BearingLemmas Ross.Rotor

variable {sh : List ShaftEl} {dk : List DiskEl} {br : List BrgEl} {pm : List PmEl} {N : ℕ}

/-- The element lists of a well-formed rotor after numbering, tagging and sorting. -/
structure Ctx (sh : List ShaftEl) (dk : List DiskEl) (br : List BrgEl) (pm : List PmEl) (N : ℕ) :
    Prop where
  full : Full sh N
  brsort : br.Pairwise fun b c => b.n ≤ c.n
  shdk : ∀ d ∈ dk, ∀ e ∈ sh, e.s.tag ≠ d.d.tag
  shbr : ∀ b ∈ br, ∀ e ∈ sh, e.s.tag ≠ b.tag
  shpm : ∀ p ∈ pm, ∀ e ∈ sh, e.s.tag ≠ p.tag
  dkbr : ∀ b ∈ br, ∀ d ∈ dk, d.d.tag ≠ b.tag
  dktags : (dk.map fun d => d.d.tag).Nodup
  brtags : (br.map BrgEl.tag).Nodup
  brnodes : (br.map BrgEl.n).Nodup
  disk_on : ∀ e ∈ dk, e.d.n ≤ N
  linked : ∀ b ∈ br, N < b.n → ∃ c ∈ br, c.n_link = some b.n
  order : ∀ b ∈ br, ∀ c ∈ br, N < b.n → c.n_link = some b.n → c.n < b.n
  pm_on : ∀ p ∈ pm, ∃ b ∈ br, p.n = some b.n

/-- Every bearing of `done` has the position of a bearing on the shaft. -/
def Inv (sh : List ShaftEl) (dk : List DiskEl) (N : ℕ) (done : List BrgEl)
    (pos : Option String → Option ℝ) : Prop :=
  (∀ d ∈ dk, pos d.d.tag = some (position sh d.d.n)) ∧
    ∀ b ∈ done, ∃ c ∈ done, c.n ≤ N ∧ pos b.tag = some (position sh c.n) ∧ (b.n ≤ N → c.n = b.n)

theorem head_const {α : Type*} {l : List α} {P : α → Prop} (hne : l ≠ []) (h : ∀ x ∈ l, P x) :
    ∃ v t, l = v :: t ∧ P v := by
  cases l with
  | nil => exact absurd rfl hne
  | cons v t => exact ⟨v, t, rfl, h v List.mem_cons_self⟩

/-- The position found for one bearing. -/
theorem bearingPos_ok (hc : Ctx sh dk br pm N) {done rest : List BrgEl} {b : BrgEl}
    (hbr : br = done ++ b :: rest) {pos : Option String → Option ℝ} (hi : Inv sh dk N done pos)
    {rows : List Row} (hr : rows.Perm (ideal sh dk br pm pos)) :
    ∃ g, g ≤ N ∧ bearingPos rows b = .ok (some (position sh g)) ∧ (b.n ≤ N → g = b.n) ∧
      (N < b.n → ∃ c ∈ done, c.n = g) := by
  have hbm : b ∈ br := by rw [hbr]; simp
  have hother : ∀ c ∈ br, c.n = b.n → c.tag ≠ b.tag → False := by
    intro c hcm h1 h2
    exact h2 (by rw [List.inj_on_of_nodup_map hc.brnodes hcm hbm h1])
  unfold bearingPos
  dsimp only
  by_cases hN : b.n ≤ N
  · -- every candidate has the position of node `b.n`
    have hL : ∀ z ∈ (rows.filter fun r => r.n_l = some b.n ∧ r.tag ≠ b.tag).map (·.nodes_pos_l),
        z = some (position sh b.n) := by
      intro z hz
      obtain ⟨row, hrow, rfl⟩ := List.mem_map.1 hz
      obtain ⟨h1, h2⟩ := List.mem_filter.1 hrow
      simp only [ne_eq, decide_eq_true_eq] at h2
      rcases mem_ideal.1 (hr.mem_iff.1 h1) with ⟨e, he, rfl⟩ | ⟨e, he, rfl⟩ | ⟨c, hcm, rfl⟩ | ⟨p, hp, rfl⟩
      · rw [Option.some.inj h2.1]
      · rw [← Option.some.inj h2.1]; exact hi.1 e he
      · exact (hother c hcm (Option.some.inj h2.1) h2.2).elim
      · cases h2.1
    have hR : ∀ z ∈ (rows.filter fun r => r.n_r = some b.n ∧ r.tag ≠ b.tag).map (·.nodes_pos_r),
        z = some (position sh b.n) := by
      intro z hz
      obtain ⟨row, hrow, rfl⟩ := List.mem_map.1 hz
      obtain ⟨h1, h2⟩ := List.mem_filter.1 hrow
      simp only [ne_eq, decide_eq_true_eq] at h2
      rcases mem_ideal.1 (hr.mem_iff.1 h1) with ⟨e, he, rfl⟩ | ⟨e, he, rfl⟩ | ⟨c, hcm, rfl⟩ | ⟨p, hp, rfl⟩
      · have h3 := Option.some.inj h2.1
        have := hc.full.position_succ ((hc.full.nodes _).1 ⟨e, he, rfl⟩)
        rw [this, h3]
      · rw [← Option.some.inj h2.1]; exact hi.1 e he
      · exact (hother c hcm (Option.some.inj h2.1) h2.2).elim
      · cases h2.1
    refine ⟨b.n, hN, ?_, fun _ => rfl, fun h => absurd hN (by omega)⟩
    by_cases hLe : (rows.filter fun r => r.n_l = some b.n ∧ r.tag ≠ b.tag).map (·.nodes_pos_l) = []
    · -- then the node is the last one
      have hRn : (rows.filter fun r => r.n_r = some b.n ∧ r.tag ≠ b.tag).map (·.nodes_pos_r) ≠ [] := by
        have hlt : ¬ b.n < N := by
          intro hlt
          obtain ⟨e, he, hen⟩ := (hc.full.nodes _).2 hlt
          refine absurd hLe (List.ne_nil_of_mem (List.mem_map.2 ⟨_, List.mem_filter.2
            ⟨hr.mem_iff.2 (mem_ideal.2 (Or.inl ⟨e, he, rfl⟩)), ?_⟩, rfl⟩))
          simpa [hen] using hc.shbr b hbm e he
        have hpos := hc.full.pos
        obtain ⟨e, he, hen⟩ := (hc.full.nodes (N - 1)).2 (by omega)
        refine List.ne_nil_of_mem (List.mem_map.2 ⟨_, List.mem_filter.2
          ⟨hr.mem_iff.2 (mem_ideal.2 (Or.inl ⟨e, he, rfl⟩)), ?_⟩, rfl⟩)
        have : nodeOf e + 1 = b.n := by omega
        simpa [this] using hc.shbr b hbm e he
      obtain ⟨v, t, h1, h2⟩ := head_const hRn hR
      rw [hLe, h1, h2]
    · obtain ⟨v, t, h1, h2⟩ := head_const hLe hL
      rw [h1, h2]
  · have hN' : N < b.n := by omega
    have hLe : (rows.filter fun r => r.n_l = some b.n ∧ r.tag ≠ b.tag).map (·.nodes_pos_l) = [] := by
      rw [List.map_eq_nil_iff, List.filter_eq_nil_iff]
      intro row h1 h2
      simp only [ne_eq, decide_eq_true_eq] at h2
      rcases mem_ideal.1 (hr.mem_iff.1 h1) with ⟨e, he, rfl⟩ | ⟨e, he, rfl⟩ | ⟨c, hcm, rfl⟩ | ⟨p, hp, rfl⟩
      · have h3 := Option.some.inj h2.1
        have := (hc.full.nodes _).1 ⟨e, he, rfl⟩
        omega
      · have h3 := Option.some.inj h2.1
        have := hc.disk_on e he
        omega
      · exact hother c hcm (Option.some.inj h2.1) h2.2
      · cases h2.1
    have hRe : (rows.filter fun r => r.n_r = some b.n ∧ r.tag ≠ b.tag).map (·.nodes_pos_r) = [] := by
      rw [List.map_eq_nil_iff, List.filter_eq_nil_iff]
      intro row h1 h2
      simp only [ne_eq, decide_eq_true_eq] at h2
      rcases mem_ideal.1 (hr.mem_iff.1 h1) with ⟨e, he, rfl⟩ | ⟨e, he, rfl⟩ | ⟨c, hcm, rfl⟩ | ⟨p, hp, rfl⟩
      · have h3 := Option.some.inj h2.1
        have := (hc.full.nodes _).1 ⟨e, he, rfl⟩
        omega
      · have h3 := Option.some.inj h2.1
        have := hc.disk_on e he
        omega
      · exact hother c hcm (Option.some.inj h2.1) h2.2
      · cases h2.1
    obtain ⟨c, hcm, hcl⟩ := hc.linked b hbm hN'
    have hcb : c.tag ≠ b.tag := by
      intro h
      have := List.inj_on_of_nodup_map hc.brtags hcm hbm h
      have h2 := hc.order b hbm c hcm hN' hcl
      rw [this] at h2; omega
    have hne : (rows.filter fun r => r.n_link = some b.n ∧ r.tag ≠ b.tag).map (·.nodes_pos_l) ≠ [] := by
      refine List.ne_nil_of_mem (List.mem_map.2 ⟨_, List.mem_filter.2
        ⟨hr.mem_iff.2 (mem_ideal.2 (Or.inr (Or.inr (Or.inl ⟨c, hcm, rfl⟩)))), ?_⟩, rfl⟩)
      simpa [hcl] using hcb
    have hall : ∀ z ∈ (rows.filter fun r => r.n_link = some b.n ∧ r.tag ≠ b.tag).map (·.nodes_pos_l),
        ∃ d ∈ done, d.n ≤ N ∧ z = some (position sh d.n) := by
      intro z hz
      obtain ⟨row, hrow, rfl⟩ := List.mem_map.1 hz
      obtain ⟨h1, h2⟩ := List.mem_filter.1 hrow
      simp only [ne_eq, decide_eq_true_eq] at h2
      rcases mem_ideal.1 (hr.mem_iff.1 h1) with ⟨e, he, rfl⟩ | ⟨e, he, rfl⟩ | ⟨c, hcm, rfl⟩ | ⟨p, hp, rfl⟩
      · cases h2.1
      · cases h2.1
      · have hlt := hc.order b hbm c hcm hN' h2.1
        have hcd : c ∈ done := by
          rw [hbr] at hcm
          rcases List.mem_append.1 hcm with h | h
          · exact h
          · exfalso
            have hs := hc.brsort
            rw [hbr] at hs
            have hs2 := (List.pairwise_append.1 hs).2.1
            rcases List.mem_cons.1 h with rfl | h
            · omega
            · have := (List.pairwise_cons.1 hs2).1 c h
              omega
        obtain ⟨d, hd, hdN, hp, -⟩ := hi.2 c hcd
        exact ⟨d, hd, hdN, hp⟩
      · cases h2.1
    obtain ⟨v, t, h1, d, hd, hdN, h2⟩ := head_const hne hall
    refine ⟨d.n, hdN, ?_, fun h => absurd h hN, fun _ => ⟨d, hd, rfl⟩⟩
    rw [hLe, hRe, h1, h2]

theorem cycle_ok (hc : Ctx sh dk br pm N) : ∀ (todo done : List BrgEl) (fuel : ℕ)
    (rows : List Row) (pos : Option String → Option ℝ), br = done ++ todo →
    Inv sh dk N done pos → rows.Perm (ideal sh dk br pm pos) → todo.length + 2 ≤ fuel →
    ∃ rows' pos', cycleLoop br fuel todo rows (todo.map BrgEl.tag) = some (.ok rows') ∧
      rows'.Perm (ideal sh dk br pm pos') ∧ Inv sh dk N br pos' := by
  intro todo
  induction todo with
  | nil =>
    intro done fuel rows pos hbr hi hr hfuel
    obtain ⟨f, rfl⟩ : ∃ f, fuel = f + 2 := ⟨fuel - 2, by simp at hfuel; omega⟩
    have hdb : done = br := by simpa using hbr.symm
    refine ⟨rows, pos, ?_, hr, hdb ▸ hi⟩
    rw [List.map_nil]
    cases br with
    | nil => rfl
    | cons b t => rfl
  | cons b rest ih =>
    intro done fuel rows pos hbr hi hr hfuel
    obtain ⟨f, rfl⟩ : ∃ f, fuel = f + 1 := ⟨fuel - 1, by simp at hfuel; omega⟩
    have hbm : b ∈ br := by rw [hbr]; simp
    obtain ⟨g, hgN, hg, hg1, hg2⟩ := bearingPos_ok hc hbr hi hr
    have hnd : ((b :: rest).map BrgEl.tag).Nodup := by
      have := hc.brtags
      rw [hbr, List.map_append] at this
      exact (List.nodup_append.1 this).2.1
    have hpend : ((b :: rest).map BrgEl.tag).filter (· ≠ b.tag) = rest.map BrgEl.tag := by
      rw [List.map_cons, List.filter_cons]
      simp only [ne_eq, not_true_eq_false, decide_false, Bool.false_eq_true, if_false]
      rw [List.filter_eq_self]
      intro t ht
      rw [List.map_cons, List.nodup_cons] at hnd
      simp only [decide_eq_true_eq]
      rintro rfl
      exact hnd.1 ht
    have hr' : (setPos rows b.tag (some (position sh g))).Perm (ideal sh dk br pm
        fun u => if u = b.tag then some (position sh g) else pos u) := by
      rw [← setPos_ideal (hc.shbr b hbm)]
      exact setPos_perm hr _ _
    have hdone : ∀ c ∈ done, c.tag ≠ b.tag := by
      intro c hcd h
      have := hc.brtags
      rw [hbr, List.map_append] at this
      exact (List.nodup_append.1 this).2.2 c.tag (List.mem_map.2 ⟨c, hcd, rfl⟩) b.tag (by simp) h
    have hi' : Inv sh dk N (done ++ [b])
        (fun u => if u = b.tag then some (position sh g) else pos u) := by
      refine ⟨?_, ?_⟩
      · intro d hd
        simp only
        rw [if_neg (hc.dkbr b hbm d hd)]
        exact hi.1 d hd
      · intro c hcm
        rcases List.mem_append.1 hcm with h | h
        · obtain ⟨d, hd, h1, h2, h3⟩ := hi.2 c h
          exact ⟨d, List.mem_append_left _ hd, h1, by
            simp only
            rw [if_neg (hdone c h)]; exact h2, h3⟩
        · rw [List.mem_singleton.1 h]
          simp only [if_true]
          by_cases hN : b.n ≤ N
          · exact ⟨b, by simp, hN, by rw [hg1 hN], fun _ => rfl⟩
          · obtain ⟨d, hd, hdg⟩ := hg2 (by omega)
            exact ⟨d, List.mem_append_left _ hd, by omega, by rw [hdg], fun h => absurd h hN⟩
    obtain ⟨rows', pos', h1, h2, h3⟩ := ih (done ++ [b]) f _ _ (by rw [hbr]; simp) hi' hr'
      (by simp at hfuel; omega)
    refine ⟨rows', pos', ?_, h2, h3⟩
    have hstep : cycleLoop br (f + 1) (b :: rest) rows ((b :: rest).map BrgEl.tag) =
        cycleLoop br f rest (setPos rows b.tag (some (position sh g))) (rest.map BrgEl.tag) := by
      conv_lhs => unfold cycleLoop
      simp only
      rw [if_neg (by simp), if_pos (by simp), hg, hpend]
    rw [hstep]
    exact h1

theorem height_ok (hc : Ctx sh dk br pm N) {rows : List Row} {pos : Option String → Option ℝ}
    (hr : rows.Perm (ideal sh dk br pm pos)) (hi : Inv sh dk N br pos) {z : Option ℝ}
    (hz : z ∈ ((rows.filter (·.isBrg)).map (·.nodes_pos_l))) :
    heightCheck sh (shaftPos sh) (rows.filter (·.isBrg)) z = .ok () := by
  have hrow : ∀ row ∈ rows.filter (·.isBrg), ∃ b ∈ br, row.n_l = some b.n ∧
      row.nodes_pos_l = pos b.tag := by
    intro row h
    obtain ⟨h1, h2⟩ := List.mem_filter.1 h
    rcases mem_ideal.1 (hr.mem_iff.1 h1) with ⟨e, he, rfl⟩ | ⟨e, he, rfl⟩ | ⟨c, hcm, rfl⟩ | ⟨p, hp, rfl⟩
    · cases h2
    · cases h2
    · exact ⟨c, hcm, rfl, rfl⟩
    · cases h2
  obtain ⟨row, hrw, rfl⟩ := List.mem_map.1 hz
  obtain ⟨b, hb, -, hbp⟩ := hrow row hrw
  obtain ⟨c, hcb, hcN, hbc, -⟩ := hi.2 b hb
  rw [hbp, hbc]
  unfold heightCheck
  simp only
  have hcpos : pos c.tag = some (position sh c.n) := by
    obtain ⟨d, hd, hdN, h1, h2⟩ := hi.2 c hcb
    rw [h1, h2 hcN]
  have hmin : (((rows.filter (·.isBrg)).filter fun r => r.nodes_pos_l = some (position sh c.n)).filterMap
      (·.n_l)).min? = some c.n := by
    rw [List.min?_eq_some_iff]
    constructor
    · refine List.mem_filterMap.2 ⟨⟨c.tag, some c.n, some c.n, c.n_link, pos c.tag, pos c.tag, true⟩,
        List.mem_filter.2 ⟨List.mem_filter.2 ⟨hr.mem_iff.2 (mem_ideal.2
          (Or.inr (Or.inr (Or.inl ⟨c, hcb, rfl⟩)))), rfl⟩, ?_⟩, rfl⟩
      simpa using hcpos
    · intro k hk
      obtain ⟨row', h1, h2⟩ := List.mem_filterMap.1 hk
      obtain ⟨h3, h4⟩ := List.mem_filter.1 h1
      obtain ⟨d, hd, h5, h6⟩ := hrow row' h3
      rw [h5] at h2
      have hk' := Option.some.inj h2
      subst hk'
      by_contra hlt
      have hdN : d.n ≤ N := by omega
      obtain ⟨w, hw, hwN, h7, h8⟩ := hi.2 d hd
      have h9 : row'.nodes_pos_l = some (position sh c.n) := by simpa using h4
      rw [h6, h7, h8 hdN] at h9
      have := hc.full.inj hdN hcN (Option.some.inj h9)
      omega
  have hfirst := hc.full.head
  have hlast := hc.full.tail
  rw [hmin, hfirst, hlast]
  simp only [Option.getD_some]
  have hnode : ∀ k, k < N → k ∈ sh.map nodeOf := by
    intro k hk
    obtain ⟨e, he, hek⟩ := (hc.full.nodes k).2 hk
    exact List.mem_map.2 ⟨e, he, hek⟩
  have hpos := hc.full.pos
  by_cases h0 : position sh c.n = 0
  · rw [if_pos h0]
    have : c.n = 0 := hc.full.inj hcN (Nat.zero_le _) (by rw [h0, hc.full.position_zero])
    rw [if_pos (hnode _ (by omega))]
  · rw [if_neg h0]
    have hc0 : c.n ≠ 0 := by
      intro h; rw [h, hc.full.position_zero] at h0; exact h0 rfl
    have hprev : ∃ m ∈ sh.map nodeOf, m + 1 = c.n := ⟨c.n - 1, hnode _ (by omega), by omega⟩
    by_cases h1 : position sh c.n = position sh N
    · rw [if_pos h1, if_pos hprev]
    · have hlt : c.n < N := by
        rcases hcN.lt_or_eq with h | h
        · exact h
        · rw [h] at h1; exact absurd rfl h1
      rw [if_neg h1, if_pos ⟨hnode _ hlt, hprev⟩]

theorem pm_loop (hc : Ctx sh dk br pm N) : ∀ (l : List PmEl), (∀ p ∈ l, p ∈ pm) →
    ∀ (rows : List Row) (pos : Option String → Option ℝ), rows.Perm (ideal sh dk br pm pos) →
    ∃ rows' : List Row, l.foldlM pmPos rows = (.ok rows' : Res _) := by
  intro l
  induction l with
  | nil => intro _ rows _ _; exact ⟨rows, rfl⟩
  | cons p t ih =>
    intro hl rows pos hr
    obtain ⟨b, hb, hpb⟩ := hc.pm_on p (hl p List.mem_cons_self)
    have hne : (rows.filter fun r => r.isBrg ∧ r.n_l = p.n).map (·.nodes_pos_l) ≠ [] := by
      refine List.ne_nil_of_mem (List.mem_map.2 ⟨_, List.mem_filter.2
        ⟨hr.mem_iff.2 (mem_ideal.2 (Or.inr (Or.inr (Or.inl ⟨b, hb, rfl⟩)))), ?_⟩, rfl⟩)
      simp [hpb]
    obtain ⟨z, s, hz, -⟩ := head_const (P := fun _ => True) hne (fun _ _ => trivial)
    have hstep : pmPos rows p = .ok (setPos rows p.tag z) := by
      unfold pmPos; rw [hz]
    obtain ⟨rows', h⟩ := ih (fun q hq => hl q (List.mem_cons_of_mem _ hq)) (setPos rows p.tag z)
      (fun u => if u = p.tag then z else pos u) (by
        rw [← setPos_ideal (hc.shpm p (hl p List.mem_cons_self))]
        exact setPos_perm hr _ _)
    exact ⟨rows', by rw [List.foldlM_cons, hstep]; exact h⟩

theorem finish_accepts {r : Rotor} (hc : Ctx r.shaft r.disks r.bearings r.pms N)
    {rows : List Row} {pos : Option String → Option ℝ}
    (hr : rows.Perm (ideal r.shaft r.disks r.bearings r.pms pos))
    (hi : Inv r.shaft r.disks N r.bearings pos) : ∃ r', finish r rows = .ok r' := by
  unfold finish
  dsimp only
  obtain ⟨us, hus⟩ := mapM_ok_of (f := heightCheck r.shaft (shaftPos r.shaft) (rows.filter (·.isBrg)))
    (l := ((rows.filter (·.isBrg)).map (·.nodes_pos_l)).reverse.dedup.reverse) (fun z hz =>
      ⟨(), height_ok hc hr hi (by simpa using hz)⟩)
  obtain ⟨rows', h⟩ := pm_loop hc r.pms (fun _ h => h) rows pos hr
  rw [hus]
  exact ⟨{ r with df := rows' }, by
    show (do let rows ← r.pms.foldlM pmPos rows; pure { r with df := rows }) = _
    rw [h]; rfl⟩

/-! ### From the arguments to the lists -/

variable {a : RotorArgs} {six : Bool}

theorem mem_numberShaft {l : List ShaftEl} {e : ShaftEl} (h : e ∈ numberShaft l) :
    ∃ x ∈ l, e.six = x.six ∧ e.s.L = x.s.L := by
  obtain ⟨i, hi, rfl⟩ := List.mem_mapIdx.1 h
  exact ⟨l[i], List.getElem_mem _, rfl, rfl⟩

theorem numberShaft_nodes (a : RotorArgs) : (parts a).sh₀.map nodeOf = givenNodes a := by
  simp only [parts, numberShaft, map_mapIdx', givenNodes, shaftList]
  rfl

theorem mem_tagDisks {l : List DiskEl} {e : DiskEl} (h : e ∈ tagDisks l) :
    ∃ x ∈ l, e.six = x.six ∧ e.d.n = x.d.n := by
  obtain ⟨i, hi, rfl⟩ := List.mem_mapIdx.1 h
  exact ⟨l[i], List.getElem_mem _, rfl, rfl⟩

theorem mem_tagBearings {l : List BrgEl} {b : BrgEl} (h : b ∈ tagBearings l) :
    ∃ c ∈ l, ∃ t, b = c.setTag t := by
  obtain ⟨i, hi, rfl⟩ := List.mem_mapIdx.1 h
  exact ⟨l[i], List.getElem_mem _, _, rfl⟩

theorem tagBearings_mem {l : List BrgEl} {c : BrgEl} (h : c ∈ l) :
    ∃ b ∈ tagBearings l, b.n = c.n ∧ b.n_link = c.n_link := by
  obtain ⟨i, hi, rfl⟩ := List.mem_iff_getElem.1 h
  exact ⟨_, List.mem_mapIdx.2 ⟨i, hi, rfl⟩, setTag_n _ _, setTag_link _ _⟩

theorem tagBearings_nodes (l : List BrgEl) : (tagBearings l).map BrgEl.n = l.map BrgEl.n := by
  apply List.ext_getElem <;> simp [tagBearings, setTag_n]

theorem mem_tagPms {l : List PmEl} {p : PmEl} (h : p ∈ tagPms l) : ∃ q ∈ l, p.n = q.n := by
  obtain ⟨i, hi, rfl⟩ := List.mem_mapIdx.1 h
  exact ⟨l[i], List.getElem_mem _, pmSetTag_n _ _⟩

theorem tagPms_mem {l : List PmEl} {q : PmEl} (h : q ∈ l) : ∃ p ∈ tagPms l, p.n = q.n := by
  obtain ⟨i, hi, rfl⟩ := List.mem_iff_getElem.1 h
  exact ⟨_, List.mem_mapIdx.2 ⟨i, hi, rfl⟩, pmSetTag_n _ _⟩

theorem ctx_of_wf (h : WellFormed six N a) :
    Ctx (parts a).sh (parts a).dk (parts a).br (parts a).pm N := by
  have htags : ((parts a).elements.map Elm.tag).Nodup :=
    (tags_perm a).nodup_iff.2 (h.tags.map (Option.some_injective _))
  unfold Parts.elements at htags
  simp only [List.map_append, List.map_map] at htags
  rw [List.nodup_append, List.nodup_append, List.nodup_append] at htags
  obtain ⟨⟨⟨-, hdk, hsd⟩, hbr, hdb⟩, -, hp⟩ := htags
  refine
    { full := ⟨h.pos, parts_sh_sorted a, ?_, ?_⟩, brsort := ?_, shdk := ?_, shbr := ?_, shpm := ?_
      dkbr := ?_, dktags := hdk, brtags := hbr, brnodes := ?_, disk_on := ?_, linked := ?_
      order := ?_, pm_on := ?_ }
  · intro k
    rw [← h.nodes k, ← numberShaft_nodes, List.mem_map]
    constructor
    · rintro ⟨e, he, rfl⟩; exact ⟨e, (parts_sh_perm a).mem_iff.1 he, rfl⟩
    · rintro ⟨e, he, rfl⟩; exact ⟨e, (parts_sh_perm a).mem_iff.2 he, rfl⟩
  · intro e he
    obtain ⟨x, hx, -, hL⟩ := mem_numberShaft ((parts_sh_perm a).mem_iff.1 he)
    rw [hL]; exact h.len x hx
  · have := List.pairwise_mergeSort (le := fun a b : BrgEl => decide (a.n ≤ b.n))
      (fun a b c h1 h2 => by simp at *; omega) (fun a b => by simp; omega) (tagBearings a.bearings)
    simpa [parts, sortBearings] using this
  · intro d hd e he
    exact hsd _ (List.mem_map.2 ⟨e, he, rfl⟩) _ (List.mem_map.2 ⟨d, hd, rfl⟩)
  · intro b hb e he
    exact hdb _ (List.mem_append_left _ (List.mem_map.2 ⟨e, he, rfl⟩)) _ (List.mem_map.2 ⟨b, hb, rfl⟩)
  · intro p hpm e he
    exact hp _ (List.mem_append_left _ (List.mem_append_left _ (List.mem_map.2 ⟨e, he, rfl⟩))) _
      (List.mem_map.2 ⟨p, hpm, rfl⟩)
  · intro b hb d hd
    exact hdb _ (List.mem_append_right _ (List.mem_map.2 ⟨d, hd, rfl⟩)) _ (List.mem_map.2 ⟨b, hb, rfl⟩)
  · rw [((parts_br_perm a).map _).nodup_iff, tagBearings_nodes]
    exact h.brg_nodes
  · intro e he
    obtain ⟨x, hx, -, hn⟩ := mem_tagDisks he
    rw [hn]; exact h.disk_on x hx
  · intro b hb hN
    obtain ⟨c, hc, t, rfl⟩ := mem_tagBearings ((parts_br_perm a).mem_iff.1 hb)
    rw [setTag_n] at hN ⊢
    obtain ⟨d, hd, hdl⟩ := h.brg_linked c hc hN
    obtain ⟨w, hw, h1, h2⟩ := tagBearings_mem hd
    exact ⟨w, (parts_br_perm a).mem_iff.2 hw, by rw [h2, hdl]⟩
  · intro b hb c hc hN hl
    obtain ⟨b', hb', t, rfl⟩ := mem_tagBearings ((parts_br_perm a).mem_iff.1 hb)
    obtain ⟨c', hc', t', rfl⟩ := mem_tagBearings ((parts_br_perm a).mem_iff.1 hc)
    rw [setTag_n] at hN ⊢
    rw [setTag_n, setTag_link] at *
    exact h.brg_order b' hb' c' hc' hN hl
  · intro p hpm
    obtain ⟨q, hq, hqn⟩ := mem_tagPms hpm
    obtain ⟨b, hb, hqb⟩ := h.pm_on q hq
    obtain ⟨c, hc, hcn, -⟩ := tagBearings_mem hb
    exact ⟨c, (parts_br_perm a).mem_iff.2 hc, by rw [hqn, hqb, hcn]⟩

theorem check_same (h : SameDofs six a) :
    checkNumberDof (parts a).sh (parts a).dk (parts a).br = .ok (if six then 6 else 4) := by
  have hsix : ∀ e ∈ (parts a).sh, e.six = six := by
    intro e he
    obtain ⟨x, hx, h1, -⟩ := mem_numberShaft ((parts_sh_perm a).mem_iff.1 he)
    rw [h1]; exact h.shaft x hx
  have hdk : ∀ e ∈ (parts a).dk, e.six = six := by
    intro e he
    obtain ⟨x, hx, h1, -⟩ := mem_tagDisks he
    rw [h1]; exact h.disk x hx
  have hbr : ∀ b ∈ (parts a).br, BrgSix six b := by
    intro b hb
    obtain ⟨c, hc, t, rfl⟩ := mem_tagBearings ((parts_br_perm a).mem_iff.1 hb)
    have := h.brg c hc
    cases c <;> exact this
  have hne : (parts a).sh ≠ [] := by
    rw [← List.length_pos_iff, (parts_sh_perm a).length_eq]
    have : (parts a).sh₀.length = (shaftList a).length := by simp [parts, numberShaft, shaftList]
    rw [this, List.length_pos_iff]; exact h.ne
  generalize (parts a).sh = sh at *
  generalize (parts a).dk = dk at *
  generalize (parts a).br = br at *
  cases sh with
  | nil => exact absurd rfl hne
  | cons e t =>
    have hS : ∀ x ∈ e :: t, nMap (.shaft x) = (if six then 6 else 4) * 2 := by
      rintro ⟨b, s⟩ hx
      have : b = six := hsix _ hx
      subst this
      cases b <;> rfl
    have hD : ∀ x ∈ dk, nMap (.disk x) = (if six then 6 else 4) := by
      rintro ⟨b, s⟩ hx
      have : b = six := hdk _ hx
      subst this
      cases b <;> rfl
    have hB : ∀ x ∈ br, nMap (.brg x) = (if six then 6 else 4) / 2 := by
      intro x hx
      have := hbr _ hx
      cases x <;> simp only [BrgSix] at this <;> subst this <;> rfl
    unfold checkNumberDof
    dsimp only
    have he2 : nMap (.shaft e) / 2 = (if six then 6 else 4) := by
      rw [hS e List.mem_cons_self]; omega
    rw [he2, if_neg, if_neg, if_neg]
    · rw [List.any_eq_true]
      rintro ⟨x, hx, h1⟩
      simp only [ne_eq, decide_eq_true_eq] at h1
      exact h1 (hB x hx)
    · rw [List.any_eq_true]
      rintro ⟨x, hx, h1⟩
      simp only [ne_eq, decide_eq_true_eq] at h1
      exact h1 (hD x hx)
    · rw [List.any_eq_true]
      rintro ⟨x, hx, h1⟩
      simp only [ne_eq, decide_eq_true_eq] at h1
      exact h1 (hS x hx)

theorem wf_same (h : WellFormed six N a) : SameDofs six a := by
  refine ⟨?_, h.shaft_six, h.disk_six, h.brg_six⟩
  intro h0
  have := (h.nodes 0).2 h.pos
  simp [givenNodes, h0] at this

theorem check_accepts (h : WellFormed six N a) :
    checkNumberDof (parts a).sh (parts a).dk (parts a).br = .ok (if six then 6 else 4) :=
  check_same (wf_same h)

theorem outside_accepts (h : WellFormed six N a) :
    outside (parts a).sh (parts a).dk (parts a).br (parts a).pm = false := by
  have hctx := ctx_of_wf h
  unfold outside
  simp only [decide_eq_false_iff_not, not_lt]
  rw [maxOr0_le]
  intro y hy
  have hN : N ≤ maxOr0 ((parts a).sh.map fun e => nodeOf e + 1) := by
    have hp := hctx.full.pos
    obtain ⟨e, he, hen⟩ := (hctx.full.nodes (N - 1)).2 (by omega)
    have := le_maxOr0 (l := (parts a).sh.map fun e => nodeOf e + 1)
      (List.mem_map.2 ⟨e, he, rfl⟩)
    omega
  rw [le_max_iff]
  rcases List.mem_append.1 hy with hy | hy
  · rcases List.mem_append.1 hy with hy | hy
    · obtain ⟨e, he, rfl⟩ := List.mem_map.1 hy
      have := (hctx.full.nodes _).1 ⟨e, he, rfl⟩
      left; omega
    · obtain ⟨e, he, rfl⟩ := List.mem_map.1 hy
      have := hctx.disk_on e he
      left; omega
  · obtain ⟨b, hb, rfl⟩ := List.mem_map.1 hy
    obtain ⟨c, hc, t, rfl⟩ := mem_tagBearings ((parts_br_perm a).mem_iff.1 hb)
    rw [setTag_n]
    rcases h.brg_on c hc with h1 | ⟨p, hp, hpn⟩
    · left; omega
    · right
      obtain ⟨q, hq, hqn⟩ := tagPms_mem hp
      exact le_maxOr0 (List.mem_filterMap.2 ⟨q, hq, by rw [hqn, hpn]⟩)

theorem accepts {pd : Pandas} (hpd : SortsRows pd) (h : WellFormed six N a) {fuel : ℕ}
    (hfuel : a.bearings.length + 2 ≤ fuel) :
    ∃ r, init pd fuel a = some (.ok r) ∧ r.number_dof = (if six then 6 else 4) ∧
      r.shaft = (parts a).sh ∧ Full r.shaft N := by
  have hctx := ctx_of_wf h
  have hpos : ∀ e ∈ (parts a).dk, posAt (nodesPos (parts a).sh) e.d.n =
      .ok (position (parts a).sh e.d.n) := by
    intro e he
    have := hctx.disk_on e he
    unfold posAt
    rw [hctx.full.nodesPos, List.getElem?_map, List.getElem?_range (by omega)]
    rfl
  have hdkpos : (parts a).dk.mapM (fun e => posAt (nodesPos (parts a).sh) e.d.n) =
      .ok ((parts a).dk.map fun e => position (parts a).sh e.d.n) := by
    rw [mapM_ok_iff, List.map_map]
    exact List.map_congr_left hpos
  obtain ⟨pl, hpl⟩ := mapM_ok_of
    (f := place (if six then 6 else 4) (lastNode (parts a).sh)) (l := (parts a).elements) (by
      intro e he
      have : ∃ n, e.n = some n := by
        simp only [Parts.elements, List.mem_append, List.mem_map] at he
        rcases he with ((⟨e, he, rfl⟩ | ⟨e, he, rfl⟩) | ⟨e, he, rfl⟩) | ⟨e, he, rfl⟩
        · exact ⟨_, parts_sh_n he⟩
        · exact ⟨_, rfl⟩
        · exact ⟨_, rfl⟩
        · obtain ⟨b, -, hb⟩ := hctx.pm_on e he
          exact ⟨_, hb⟩
      obtain ⟨n, hn⟩ := this
      exact ⟨_, by unfold place; rw [hn]⟩)
  obtain ⟨r, hr, hdf⟩ : ∃ r, build pd a = .ok r ∧ r.df =
      ((parts a).dk.zip ((parts a).dk.map fun e => position (parts a).sh e.d.n)).foldl
        (fun rows x => setPos rows x.1.d.tag (some x.2))
        (pd.sortByNl (concatRows (parts a).sh (shaftPos (parts a).sh) (parts a).dk (parts a).br
          (parts a).pm)) := by
    unfold build
    dsimp only
    have htags : ((parts a).elements.map Elm.tag).Nodup :=
      (tags_perm a).nodup_iff.2 (h.tags.map (Option.some_injective _))
    rw [if_neg (not_not.2 htags), check_accepts h]
    show ∃ r, buildFrom pd a (parts a) (if six then 6 else 4) = .ok r ∧ _
    unfold buildFrom
    dsimp only
    rw [outside_accepts h]
    simp only [Bool.false_eq_true, if_false]
    rw [hdkpos, hpl]
    exact ⟨_, rfl, rfl⟩
  have hb := build_ok hr
  have hctx' : Ctx r.shaft r.disks r.bearings r.pms N := by
    rw [hb.shaft, hb.disks, hb.bearings, hb.pms]; exact hctx
  have hdisk := disk_loop (sh := (parts a).sh) (dk := (parts a).dk) (br := (parts a).br)
    (pm := (parts a).pm)
    ((parts a).dk.zip ((parts a).dk.map fun e => position (parts a).sh e.d.n))
    (by rw [zip_self_map, List.map_map]; exact hctx.dktags)
    (by
      intro x hx e he
      rw [zip_self_map] at hx
      obtain ⟨d, hd, rfl⟩ := List.mem_map.1 hx
      exact hctx.shdk d hd e he)
    _ (fun _ => none) ((hpd _).trans (concat_perm hctx.full.sorted))
  obtain ⟨pos, hp1, hp2, -⟩ := hdisk
  rw [← hdf, ← hb.shaft, ← hb.disks, ← hb.bearings, ← hb.pms] at hp1
  have hi0 : Inv r.shaft r.disks N [] pos := by
    refine ⟨?_, by simp⟩
    intro d hd
    rw [hb.shaft]
    rw [hb.disks] at hd
    exact hp2 (d, position (parts a).sh d.d.n) (by
      rw [zip_self_map]; exact List.mem_map.2 ⟨d, hd, rfl⟩)
  obtain ⟨rows', pos', h1, h2, h3⟩ := cycle_ok hctx' r.bearings [] fuel r.df pos rfl hi0 hp1 (by
    rw [hb.bearings, (parts_br_perm a).length_eq]
    simpa [tagBearings] using hfuel)
  obtain ⟨r', hr'⟩ := finish_accepts hctx' h2 h3
  have hinit : init pd fuel a = some (.ok r') := by
    unfold init
    rw [hr]
    simp only
    rw [h1]
    simp only
    rw [hr']
  have hb' := init_ok hinit
  refine ⟨r', hinit, ?_, hb'.shaft, ?_⟩
  · have := hb'.dof
    rw [hb'.shaft, hb'.disks, hb'.bearings, check_accepts h] at this
    exact (Except.ok.inj this).symm
  · rw [hb'.shaft]; exact hctx.full

end Ross.RotorLemmas
