import Verif.Lemmas.Accept2

/-! # Termination of the constructor and its failures -/

namespace Ross.RotorLemmas

open Ross Ross.Spec Ross.BearingLemmas Ross.Rotor

theorem bearingPos_err {rows : List Row} {b : BrgEl} {e : PyErr}
    (h : bearingPos rows b = .error e) : e = .valueError := by
  unfold bearingPos at h
  dsimp only at h
  split at h
  · cases h
  · cases h
  · split at h
    · cases h; rfl
    · cases h

theorem cycle_empty (br todo : List BrgEl) (rows : List Row) {fuel : ℕ} (hf : 2 ≤ fuel) :
    cycleLoop br fuel todo rows [] = some (.ok rows) := by
  obtain ⟨f, rfl⟩ : ∃ f, fuel = f + 2 := ⟨fuel - 2, by omega⟩
  cases todo with
  | nil =>
    cases br with
    | nil => rfl
    | cons c t => simp [cycleLoop]
  | cons b t => simp [cycleLoop]

/-- One round empties the list of pending bearings, unless a bearing is refused. -/
theorem cycle_ends (br : List BrgEl) : ∀ (todo : List BrgEl) (rows : List Row)
    (pending : List (Option String)) (fuel : ℕ), (∀ t ∈ pending, ∃ b ∈ todo, b.tag = t) →
    todo.length + 2 ≤ fuel → ∃ res, cycleLoop br fuel todo rows pending = some res ∧
      ∀ e, res = .error e → e = .valueError := by
  intro todo
  induction todo with
  | nil =>
    intro rows pending fuel hp hf
    have : pending = [] := by
      cases pending with
      | nil => rfl
      | cons t _ => obtain ⟨b, hb, -⟩ := hp t List.mem_cons_self; simp at hb
    subst this
    exact ⟨_, cycle_empty br [] rows (by simpa using hf), fun e h => by cases h⟩
  | cons b rest ih =>
    intro rows pending fuel hp hf
    obtain ⟨f, rfl⟩ : ∃ f, fuel = f + 1 := ⟨fuel - 1, by simp at hf; omega⟩
    have hf' : rest.length + 2 ≤ f := by simp at hf; omega
    by_cases h0 : pending = []
    · subst h0
      exact ⟨_, by simp [cycleLoop]; rfl, fun e h => by cases h⟩
    by_cases hb : b.tag ∈ pending
    · cases hz : bearingPos rows b with
      | error e =>
        exact ⟨.error e, by simp [cycleLoop, h0, hb, hz], fun e' h => by
          cases h; exact bearingPos_err hz⟩
      | ok z =>
        have hp' : ∀ t ∈ pending.filter (· ≠ b.tag), ∃ c ∈ rest, c.tag = t := by
          intro t ht
          obtain ⟨ht1, ht2⟩ := List.mem_filter.1 ht
          obtain ⟨c, hc, hct⟩ := hp t ht1
          rcases List.mem_cons.1 hc with rfl | hc
          · simp [hct] at ht2
          · exact ⟨c, hc, hct⟩
        obtain ⟨res, h1, h2⟩ := ih (setPos rows b.tag z) _ f hp' hf'
        exact ⟨res, by simp only [cycleLoop, h0, hb, hz, if_true, if_false]; exact h1, h2⟩
    · have hp' : ∀ t ∈ pending, ∃ c ∈ rest, c.tag = t := by
        intro t ht
        obtain ⟨c, hc, hct⟩ := hp t ht
        rcases List.mem_cons.1 hc with rfl | hc
        · exact absurd (hct ▸ ht) hb
        · exact ⟨c, hc, hct⟩
      obtain ⟨res, h1, h2⟩ := ih rows pending f hp' hf'
      exact ⟨res, by simp only [cycleLoop, h0, hb, if_false]; exact h1, h2⟩

theorem init_ends (pd : Pandas) (a : RotorArgs) {fuel : ℕ} (hf : a.bearings.length + 2 ≤ fuel) :
    ∃ res, init pd fuel a = some res := by
  unfold init
  cases h : build pd a with
  | error e => exact ⟨_, rfl⟩
  | ok r =>
    have hlen : r.bearings.length = a.bearings.length := by
      rw [(build_ok h).bearings, (parts_br_perm a).length_eq]
      simp [tagBearings]
    obtain ⟨res, h1, -⟩ := cycle_ends r.bearings r.bearings r.df (r.bearings.map BrgEl.tag) fuel
      (fun t ht => by simpa using ht) (by omega)
    simp only [h1]
    cases res <;> exact ⟨_, rfl⟩

theorem cycle_mono (br : List BrgEl) : ∀ (fuel : ℕ) (todo : List BrgEl) (rows : List Row)
    (pending : List (Option String)) (res : Res (List Row)),
    cycleLoop br fuel todo rows pending = some res →
    cycleLoop br (fuel + 1) todo rows pending = some res := by
  intro fuel
  induction fuel with
  | zero => intro todo rows pending res h; simp [cycleLoop] at h
  | succ f ih =>
    intro todo rows pending res h
    cases todo with
    | nil =>
      cases hbr : br with
      | nil => rw [hbr] at h; simpa [cycleLoop] using h
      | cons c t =>
        rw [hbr] at h
        rw [cycleLoop] at h ⊢
        rw [← hbr] at h ⊢
        exact ih _ _ _ _ h
    | cons b rest =>
      rw [cycleLoop] at h ⊢
      by_cases h0 : pending = []
      · rw [if_pos h0] at h ⊢; exact h
      rw [if_neg h0] at h ⊢
      by_cases hb : b.tag ∈ pending
      · rw [if_pos hb] at h ⊢
        cases hz : bearingPos rows b with
        | error e => rw [hz] at h; exact h
        | ok z => rw [hz] at h; exact ih _ _ _ _ h
      · rw [if_neg hb] at h ⊢; exact ih _ _ _ _ h

theorem init_mono {pd : Pandas} {a : RotorArgs} {fuel : ℕ} {res : Res Rotor}
    (h : init pd fuel a = some res) : init pd (fuel + 1) a = some res := by
  unfold init at h ⊢
  cases hb : build pd a with
  | error e => rw [hb] at h; exact h
  | ok r =>
    rw [hb] at h
    simp only at h ⊢
    cases hc : cycleLoop r.bearings fuel r.bearings r.df (r.bearings.map BrgEl.tag) with
    | none => rw [hc] at h; cases h
    | some x => rw [hc] at h; rw [cycle_mono _ _ _ _ _ _ hc]; exact h

theorem init_fuel {pd : Pandas} {a : RotorArgs} {fuel fuel' : ℕ} {res : Res Rotor}
    (h : init pd fuel a = some res) (hf : fuel ≤ fuel') : init pd fuel' a = some res := by
  induction fuel', hf using Nat.le_induction with
  | base => exact h
  | succ n _ ih => exact init_mono ih

/-! ### Rows of the frame -/

/-- Two rows with the same labels (everything but positions). -/
def SameLabel (x y : Row) : Prop :=
  x.tag = y.tag ∧ x.n_l = y.n_l ∧ x.n_r = y.n_r ∧ x.n_link = y.n_link ∧ x.isBrg = y.isBrg

theorem setPos_label {rows : List Row} {t : Option String} {z : Option ℝ} {x : Row}
    (h : x ∈ setPos rows t z) : ∃ y ∈ rows, SameLabel x y ∧
      (x.tag ≠ t → x = y) ∧ (x.tag = t → x.nodes_pos_l = z ∧ x.nodes_pos_r = z) := by
  obtain ⟨y, hy, rfl⟩ := List.mem_map.1 h
  refine ⟨y, hy, ?_, ?_, ?_⟩ <;> by_cases ht : y.tag = t <;> simp [ht, SameLabel]

theorem label_setPos {rows : List Row} {t : Option String} {z : Option ℝ} {y : Row}
    (h : y ∈ rows) : ∃ x ∈ setPos rows t z, SameLabel x y := by
  refine ⟨_, List.mem_map.2 ⟨y, h, rfl⟩, ?_⟩
  by_cases ht : y.tag = t <;> simp [ht, SameLabel]

/-- An invariant of the rows is kept by the loop when it is kept by every step. -/
theorem cycle_inv {P : List Row → Prop} {br : List BrgEl}
    (hstep : ∀ rows, P rows → ∀ b ∈ br, ∀ z, bearingPos rows b = .ok z → P (setPos rows b.tag z)) :
    ∀ (fuel : ℕ) (todo : List BrgEl) (rows : List Row) (pending : List (Option String)) (rows' : List Row),
      (∀ b ∈ todo, b ∈ br) → P rows → cycleLoop br fuel todo rows pending = some (.ok rows') → P rows' := by
  intro fuel
  induction fuel with
  | zero => intro todo rows pending rows' _ _ h; simp [cycleLoop] at h
  | succ f ih =>
    intro todo rows pending rows' htodo hP h
    cases todo with
    | nil =>
      cases hbr : br with
      | nil => rw [hbr] at h; simp [cycleLoop] at h; exact h ▸ hP
      | cons c t =>
        rw [hbr] at h
        simp only [cycleLoop] at h
        rw [← hbr] at h
        exact ih _ _ _ _ (fun b hb => hb) hP h
    | cons b rest =>
      simp only [cycleLoop] at h
      by_cases h0 : pending = []
      · rw [if_pos h0] at h; simp at h; exact h ▸ hP
      rw [if_neg h0] at h
      by_cases hb : b.tag ∈ pending
      · rw [if_pos hb] at h
        cases hz : bearingPos rows b with
        | error e => rw [hz] at h; simp at h
        | ok z =>
          rw [hz] at h
          exact ih _ _ _ _ (fun c hc => htodo c (List.mem_cons_of_mem _ hc))
            (hstep _ hP _ (htodo b List.mem_cons_self) _ hz) h
      · rw [if_neg hb] at h
        exact ih _ _ _ _ (fun c hc => htodo c (List.mem_cons_of_mem _ hc)) hP h

/-- A pending bearing is looked at before the loop ends. -/
theorem cycle_visits {P : List Row → Prop} {br : List BrgEl} {c : BrgEl}
    (hstep : ∀ rows, P rows → ∀ b ∈ br, ∀ z, bearingPos rows b = .ok z → P (setPos rows b.tag z))
    (hbad : ∀ rows, P rows → ∀ b ∈ br, b.tag = c.tag → ∃ e, bearingPos rows b = .error e) :
    ∀ (fuel : ℕ) (todo : List BrgEl) (rows : List Row) (pending : List (Option String)) (rows' : List Row),
      (∀ b ∈ todo, b ∈ br) → P rows → c.tag ∈ pending →
      cycleLoop br fuel todo rows pending = some (.ok rows') → br = [] := by
  intro fuel
  induction fuel with
  | zero => intro todo rows pending rows' _ _ _ h; simp [cycleLoop] at h
  | succ f ih =>
    intro todo rows pending rows' htodo hP hc h
    cases todo with
    | nil =>
      cases hbr : br with
      | nil => rfl
      | cons d t =>
        rw [hbr] at h
        simp only [cycleLoop] at h
        rw [← hbr] at h
        have := ih _ _ _ _ (fun b hb => hb) hP hc h
        rw [hbr] at this; exact this
    | cons b rest =>
      simp only [cycleLoop] at h
      have h0 : pending ≠ [] := List.ne_nil_of_mem hc
      rw [if_neg h0] at h
      by_cases hb : b.tag ∈ pending
      · rw [if_pos hb] at h
        cases hz : bearingPos rows b with
        | error e => rw [hz] at h; simp at h
        | ok z =>
          rw [hz] at h
          refine ih _ _ _ _ (fun c hc => htodo c (List.mem_cons_of_mem _ hc))
            (hstep _ hP _ (htodo b List.mem_cons_self) _ hz) ?_ h
          refine List.mem_filter.2 ⟨hc, ?_⟩
          have : c.tag ≠ b.tag := by
            intro heq
            obtain ⟨e, he⟩ := hbad rows hP b (htodo b List.mem_cons_self) heq.symm
            rw [he] at hz; cases hz
          simpa using this
      · rw [if_neg hb] at h
        exact ih _ _ _ _ (fun c hc => htodo c (List.mem_cons_of_mem _ hc)) hP hc h

/-! ### The frame that `build` hands to the loop -/

theorem tags_split {p : Parts} (h : (p.elements.map Elm.tag).Nodup) :
    (p.dk.map fun e => e.d.tag).Nodup ∧ (p.br.map BrgEl.tag).Nodup ∧
    (∀ d ∈ p.dk, ∀ e ∈ p.sh, e.s.tag ≠ d.d.tag) ∧ (∀ b ∈ p.br, ∀ e ∈ p.sh, e.s.tag ≠ b.tag) ∧
    (∀ b ∈ p.br, ∀ d ∈ p.dk, d.d.tag ≠ b.tag) := by
  unfold Parts.elements at h
  simp only [List.map_append, List.map_map] at h
  rw [List.nodup_append, List.nodup_append, List.nodup_append] at h
  obtain ⟨⟨⟨-, hdk, hsd⟩, hbr, hdb⟩, -, -⟩ := h
  refine ⟨hdk, hbr, ?_, ?_, ?_⟩
  · intro d hd e he
    exact hsd _ (List.mem_map.2 ⟨e, he, rfl⟩) _ (List.mem_map.2 ⟨d, hd, rfl⟩)
  · intro b hb e he
    exact hdb _ (List.mem_append_left _ (List.mem_map.2 ⟨e, he, rfl⟩)) _ (List.mem_map.2 ⟨b, hb, rfl⟩)
  · intro b hb d hd
    exact hdb _ (List.mem_append_right _ (List.mem_map.2 ⟨d, hd, rfl⟩)) _ (List.mem_map.2 ⟨b, hb, rfl⟩)

theorem build_df {pd : Pandas} {a : RotorArgs} {r : Rotor} (hpd : SortsRows pd)
    (h : build pd a = .ok r) : ∃ pos, r.df.Perm (ideal r.shaft r.disks r.bearings r.pms pos) ∧
      ∀ t, (∀ d ∈ r.disks, d.d.tag ≠ t) → pos t = none := by
  have hb := build_ok h
  have hsp := tags_split hb.tags
  unfold build at h
  dsimp only at h
  rw [if_neg (not_not.2 hb.tags)] at h
  obtain ⟨nd, h2, h3⟩ := bind_ok.1 h
  unfold buildFrom at h3
  dsimp only at h3
  by_cases h4 : outside (parts a).sh (parts a).dk (parts a).br (parts a).pm = true
  · rw [if_pos h4] at h3; cases h3
  rw [if_neg h4] at h3
  obtain ⟨dkpos, h5, h6⟩ := bind_ok.1 h3
  obtain ⟨pl, h7, h8⟩ := bind_ok.1 h6
  have h9 := Except.ok.inj h8
  have hlen : dkpos.length = (parts a).dk.length := by
    have := congrArg List.length ((mapM_ok_iff _ _ _).1 h5)
    simpa using this.symm
  have hz : ∀ x ∈ (parts a).dk.zip dkpos, x.1 ∈ (parts a).dk := fun x hx => (List.of_mem_zip hx).1
  obtain ⟨pos, p1, -, p3⟩ := disk_loop (sh := (parts a).sh) (dk := (parts a).dk)
    (br := (parts a).br) (pm := (parts a).pm) ((parts a).dk.zip dkpos)
    (by
      have : ((parts a).dk.zip dkpos).map (fun x => x.1.d.tag) =
          (parts a).dk.map fun e => e.d.tag := by
        rw [show (fun x : DiskEl × ℝ => x.1.d.tag) = (fun e : DiskEl => e.d.tag) ∘ Prod.fst from rfl,
          ← List.map_map, List.map_fst_zip (by omega)]
      rw [this]; exact hsp.1)
    (fun x hx e he => hsp.2.2.1 _ (hz x hx) e he) _ (fun _ => none)
    ((hpd _).trans (concat_perm (parts_sh_sorted a)))
  subst h9
  refine ⟨pos, p1, fun t ht => p3 t fun x hx => ht _ (hz x hx)⟩

/-- A bearing that nothing else touches is refused. -/
theorem unconnected {pd : Pandas} {a : RotorArgs} {r : Rotor} (hpd : SortsRows pd)
    (h : build pd a = .ok r) {b : BrgEl} (hbm : b ∈ r.bearings)
    (hsh : ∀ e ∈ r.shaft, nodeOf e ≠ b.n ∧ nodeOf e + 1 ≠ b.n) (hdk : ∀ e ∈ r.disks, e.d.n ≠ b.n)
    (hbr : ∀ c ∈ r.bearings, c.tag ≠ b.tag → c.n ≠ b.n ∧ c.n_link ≠ some b.n) {fuel : ℕ}
    (hf : r.bearings.length + 2 ≤ fuel) :
    cycleLoop r.bearings fuel r.bearings r.df (r.bearings.map BrgEl.tag) =
      some (.error .valueError) := by
  have hb := build_ok h
  obtain ⟨pos, hp, -⟩ := build_df hpd h
  have huniq : ∀ c ∈ r.bearings, c.tag = b.tag → c = b := fun c hc ht => by
    refine List.inj_on_of_nodup_map (f := BrgEl.tag) ?_ hc hbm ht
    rw [hb.bearings]; exact (tags_split hb.tags).2.1
  let P : List Row → Prop := fun rows => ∀ x ∈ rows, x.tag ≠ b.tag →
    x.n_l ≠ some b.n ∧ x.n_r ≠ some b.n ∧ x.n_link ≠ some b.n
  have hP0 : P r.df := by
    intro x hx ht
    rcases mem_ideal.1 (hp.mem_iff.1 hx) with ⟨e, he, rfl⟩ | ⟨e, he, rfl⟩ | ⟨e, he, rfl⟩ | ⟨e, he, rfl⟩
    · simpa using hsh e he
    · simpa using hdk e he
    · have := hbr e he ht
      simpa using this
    · simp
  have hstep : ∀ rows, P rows → ∀ c ∈ r.bearings, ∀ z, bearingPos rows c = .ok z →
      P (setPos rows c.tag z) := by
    intro rows hP c _ z _ x hx ht
    obtain ⟨y, hy, ⟨l1, l2, l3, l4, -⟩, -⟩ := setPos_label hx
    rw [l2, l3, l4]
    exact hP y hy (l1 ▸ ht)
  have hbad : ∀ rows, P rows → ∀ c ∈ r.bearings, c.tag = b.tag → ∃ e, bearingPos rows c = .error e := by
    intro rows hP c hc ht
    rw [huniq c hc ht]
    have e1 : rows.filter (fun x => x.n_l = some b.n ∧ x.tag ≠ b.tag) = [] := by
      rw [List.filter_eq_nil_iff]
      intro x hx h
      simp at h
      exact (hP x hx h.2).1 h.1
    have e2 : rows.filter (fun x => x.n_r = some b.n ∧ x.tag ≠ b.tag) = [] := by
      rw [List.filter_eq_nil_iff]
      intro x hx h
      simp at h
      exact (hP x hx h.2).2.1 h.1
    have e3 : rows.filter (fun x => x.n_link = some b.n ∧ x.tag ≠ b.tag) = [] := by
      rw [List.filter_eq_nil_iff]
      intro x hx h
      simp at h
      exact (hP x hx h.2).2.2 h.1
    refine ⟨.valueError, ?_⟩
    unfold bearingPos
    dsimp only
    rw [e1, e2, e3]
    rfl
  obtain ⟨res, h1, h2⟩ := cycle_ends r.bearings r.bearings r.df (r.bearings.map BrgEl.tag) fuel
    (fun t ht => by simpa using ht) hf
  cases res with
  | error e => rw [h1, h2 e rfl]
  | ok rows =>
    have := cycle_visits (c := b) hstep hbad fuel r.bearings r.df _ rows (fun _ h => h) hP0
      (List.mem_map.2 ⟨b, hbm, rfl⟩) h1
    rw [this] at hbm; simp at hbm

/-- Two bearings on the last node, without a disk there, never get a position. -/
theorem two_on_last {pd : Pandas} {a : RotorArgs} {r : Rotor} {fuel : ℕ} (hpd : SortsRows pd)
    (h : init pd fuel a = some (.ok r)) {N : ℕ} (hsh : ∀ e ∈ r.shaft, nodeOf e ≠ N)
    (hdk : ∀ e ∈ r.disks, e.d.n ≠ N) {b c : BrgEl} (hbm : b ∈ r.bearings) (hcm : c ∈ r.bearings)
    (hne : b.tag ≠ c.tag) (hbN : b.n = N) (hcN : c.n = N) : False := by
  obtain ⟨r₀, rows, h1, h2, h3⟩ := init_ok_build h
  have hb := build_ok h1
  obtain ⟨df, hr⟩ := finish_ok h3
  have hshaft : r.shaft = r₀.shaft := by rw [hr]
  have hdisks : r.disks = r₀.disks := by rw [hr]
  have hbrs : r.bearings = r₀.bearings := by rw [hr]
  rw [hshaft] at hsh
  rw [hdisks] at hdk
  rw [hbrs] at hbm hcm
  clear hr hshaft hdisks hbrs
  obtain ⟨pos, hp, hnone⟩ := build_df hpd h1
  have hsp := tags_split hb.tags
  rw [← hb.shaft, ← hb.disks, ← hb.bearings] at hsp
  have huniq : ∀ x ∈ r₀.bearings, ∀ y ∈ r₀.bearings, x.tag = y.tag → x = y := fun x hx y hy ht =>
    List.inj_on_of_nodup_map (f := BrgEl.tag) hsp.2.1 hx hy ht
  let P : List Row → Prop := fun rows =>
    (∀ x ∈ rows, x.n_l = some N → x.nodes_pos_l = none ∧ ∀ d ∈ r₀.bearings, d.tag = x.tag → d.n = N) ∧
    (∃ x ∈ rows, x.n_l = some N ∧ x.tag = b.tag ∧ x.isBrg = true) ∧
    (∃ x ∈ rows, x.n_l = some N ∧ x.tag = c.tag ∧ x.isBrg = true)
  have hP0 : P r₀.df := by
    refine ⟨?_, ?_, ?_⟩
    · intro x hx hn
      rcases mem_ideal.1 (hp.mem_iff.1 hx) with ⟨e, he, rfl⟩ | ⟨e, he, rfl⟩ | ⟨e, he, rfl⟩ | ⟨e, he, rfl⟩
      · exact absurd (Option.some.inj hn) (hsh e he)
      · exact absurd (Option.some.inj hn) (hdk e he)
      · refine ⟨hnone _ fun d hd => hsp.2.2.2.2 e he d hd, fun d hd ht => ?_⟩
        rw [huniq d hd e he ht]; exact Option.some.inj hn
      · cases hn
    · exact ⟨_, hp.mem_iff.2 (mem_ideal.2 (Or.inr (Or.inr (Or.inl ⟨b, hbm, rfl⟩)))), by simp [hbN],
        rfl, rfl⟩
    · exact ⟨_, hp.mem_iff.2 (mem_ideal.2 (Or.inr (Or.inr (Or.inl ⟨c, hcm, rfl⟩)))), by simp [hcN],
        rfl, rfl⟩
  have hstep : ∀ rows, P rows → ∀ d ∈ r₀.bearings, ∀ z, bearingPos rows d = .ok z →
      P (setPos rows d.tag z) := by
    rintro rows ⟨hP1, hP2, hP3⟩ d hd z hz
    refine ⟨?_, ?_, ?_⟩
    · intro x hx hn
      obtain ⟨y, hy, ⟨l1, l2, l3, l4, -⟩, hy1, hy2⟩ := setPos_label hx
      obtain ⟨q1, q2⟩ := hP1 y hy (l2 ▸ hn)
      refine ⟨?_, l1 ▸ q2⟩
      by_cases ht : x.tag = d.tag
      · rw [(hy2 ht).1]
        have hdN : d.n = N := q2 d hd (by rw [← ht, l1])
        -- another bearing sits on the node
        have hother : ∃ w ∈ rows, w.n_l = some N ∧ w.tag ≠ d.tag := by
          by_cases hdb : d.tag = b.tag
          · obtain ⟨w, hw, hw1, hw2, -⟩ := hP3
            exact ⟨w, hw, hw1, by rw [hw2, hdb]; exact hne.symm⟩
          · obtain ⟨w, hw, hw1, hw2, -⟩ := hP2
            exact ⟨w, hw, hw1, by rw [hw2]; exact fun h => hdb h.symm⟩
        obtain ⟨w, hw, hw1, hw2⟩ := hother
        unfold bearingPos at hz
        dsimp only at hz
        obtain ⟨v, t, hvt, hv⟩ := head_const (P := fun v : Option ℝ => v = none)
          (l := (rows.filter fun x => x.n_l = some d.n ∧ x.tag ≠ d.tag).map (·.nodes_pos_l))
          (List.ne_nil_of_mem (List.mem_map.2 ⟨w, List.mem_filter.2 ⟨hw, by simp [hw1, hw2, hdN]⟩, rfl⟩))
          (by
            intro v hv
            obtain ⟨y, hy, rfl⟩ := List.mem_map.1 hv
            have := List.mem_filter.1 hy
            simp only [decide_eq_true_eq] at this
            exact (hP1 y this.1 (by rw [this.2.1, hdN])).1)
        rw [hvt] at hz
        simp only at hz
        rw [← Except.ok.inj hz, hv]
      · rw [hy1 ht]; exact q1
    · obtain ⟨w, hw, hw1, hw2, hw3⟩ := hP2
      obtain ⟨x, hx, l1, l2, l3, l4, l5⟩ := label_setPos (t := d.tag) (z := z) hw
      exact ⟨x, hx, by rw [l2, hw1], by rw [l1, hw2], by rw [l5, hw3]⟩
    · obtain ⟨w, hw, hw1, hw2, hw3⟩ := hP3
      obtain ⟨x, hx, l1, l2, l3, l4, l5⟩ := label_setPos (t := d.tag) (z := z) hw
      exact ⟨x, hx, by rw [l2, hw1], by rw [l1, hw2], by rw [l5, hw3]⟩
  obtain ⟨hP1, ⟨x, hx, hx1, hx2, hx3⟩, -⟩ :=
    cycle_inv hstep fuel r₀.bearings r₀.df _ rows (fun _ h => h) hP0 h2
  have hxn := (hP1 x hx hx1).1
  unfold finish at h3
  dsimp only at h3
  obtain ⟨us, h4, -⟩ := bind_ok.1 h3
  have hmem : (none : Option ℝ) ∈
      (((rows.filter (·.isBrg)).map (·.nodes_pos_l)).reverse.dedup.reverse) := by
    rw [List.mem_reverse, List.mem_dedup, List.mem_reverse]
    exact List.mem_map.2 ⟨x, List.mem_filter.2 ⟨hx, by simp [hx3]⟩, hxn⟩
  have h5 := (mapM_ok_iff _ _ _).1 h4
  have h6 : heightCheck r₀.shaft (shaftPos r₀.shaft) (rows.filter (·.isBrg)) none ∈
      us.map Except.ok := by
    rw [← h5]; exact List.mem_map.2 ⟨none, hmem, rfl⟩
  obtain ⟨u, -, hu⟩ := List.mem_map.1 h6
  simp [heightCheck] at hu

end Ross.RotorLemmas
