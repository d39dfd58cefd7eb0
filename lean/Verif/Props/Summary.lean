import Verif.Lemmas.Summary
import Verif.Spec.Summary
import Verif.Props.StaticRuns
import Verif.Props.Assembly

/-! # C110: where the elements stand and what the summary says -/

namespace Ross.Props

open Ross Ross.Spec Ross.BearingLemmas Ross.Rotor Ross.RotorLemmas Ross.StaticLemmas Ross.AssemblyLemmas Ross.PlaceLemmas
open Ross.SummaryLemmas
open Summary

variable {pd pd' : Pandas} {sp : Scipy} {a : RotorArgs} {r : Rotor} {fuel fuel' : ℕ} {st : StaticResults}

/-- **C110** in the table of elements of a rotor whose shaft has no gaps, every disk is at the position of its node, every
bearing at a position where it stands, and every point mass where a bearing on its node stands. -/
theorem C110_positions (hpd : SortsRows pd) (h : init pd fuel a = some (.ok r)) (hg : NoGaps r) :
    (∀ d ∈ r.disks, TableSays r d.d.tag (position r.shaft d.d.n)) ∧
    (∀ b ∈ r.bearings, ∃ k, StandsAt r.bearings (shaftEnd r) b k ∧ TableSays r b.tag (position r.shaft k)) ∧
    ∀ p ∈ r.pms, ∃ b ∈ r.bearings, p.n = some b.n ∧ ∃ k, StandsAt r.bearings (shaftEnd r) b k ∧
      TableSays r b.tag (position r.shaft k) ∧ TableSays r p.tag (position r.shaft k) := by
  have hc := ctx_of (init_ok h) h hg
  obtain ⟨pos, h1, h2, h3, h4⟩ := table hpd h hg
  have brg : ∀ b ∈ r.bearings, ∀ z, pos b.tag = some z → TableSays r b.tag z := by
    intro b hb z hz
    have := table_row hc h1 (mem_ideal.2 (Or.inr (Or.inr (Or.inl ⟨b, hb, rfl⟩))))
      fun x => (x.nodes_pos_l, x.nodes_pos_r)
    simpa [TableSays, hz] using this
  refine ⟨?_, ?_, ?_⟩
  · intro d hd
    have := table_row hc h1 (mem_ideal.2 (Or.inr (Or.inl ⟨d, hd, rfl⟩))) fun x => (x.nodes_pos_l, x.nodes_pos_r)
    simpa [TableSays, h2 d hd] using this
  · intro b hb
    obtain ⟨k, hk, hz⟩ := h3 b hb
    exact ⟨k, hk, brg b hb _ hz⟩
  · intro p hp
    obtain ⟨b, hb, hn, hz⟩ := h4 p hp
    obtain ⟨k, hk, hz'⟩ := h3 b hb
    refine ⟨b, hb, hn, k, hk, brg b hb _ hz', ?_⟩
    have := table_row hc h1 (mem_ideal.2 (Or.inr (Or.inr (Or.inr ⟨p, hp, rfl⟩)))) fun x => (x.nodes_pos_l, x.nodes_pos_r)
    simpa [TableSays, hz, hz'] using this

/-- **C110** a bearing on the shaft is at the position of its node. -/
theorem C110_on_shaft (hpd : SortsRows pd) (h : init pd fuel a = some (.ok r)) (hg : NoGaps r) {b : BrgEl}
    (hb : b ∈ r.bearings) (hn : b.n ≤ shaftEnd r) : TableSays r b.tag (position r.shaft b.n) := by
  obtain ⟨k, hk, hz⟩ := (C110_positions hpd h hg).2.1 b hb
  rwa [stands_on hk hn] at hz

theorem gaps_of (h : init pd fuel a = some (.ok r)) (hr : r.run_static pd' sp fuel' = some (.ok st)) : NoGaps r := by
  obtain ⟨u, R, F, ew, nf, c⟩ := core h hr
  exact c.fill

theorem notSeals_ne (hr : r.run_static pd' sp fuel' = some (.ok st)) : notSeals r ≠ [] := by
  intro he
  unfold run_static at hr
  rw [if_pos] at hr
  · cases hr
  · rw [List.all_eq_true]
    intro b hb
    have := List.filter_eq_nil_iff.1 he b hb
    simpa using this

/-- What is merged. -/
theorem merges (hpd : SortsRows pd) (h : init pd fuel a = some (.ok r)) (hg : NoGaps r) : ∃ p : BrgEl → ℝ,
    (∀ b ∈ r.bearings, ∃ k, StandsAt r.bearings (shaftEnd r) b k ∧ p b = position r.shaft k) ∧
    (∀ d ∈ r.disks, (r.df.filter fun y => y.tag = d.d.tag).map (·.nodes_pos_l) = [some (position r.shaft d.d.n)]) ∧
    ∀ b ∈ r.bearings, (r.df.filter fun y => y.tag = b.tag).map (·.nodes_pos_l) = [some (p b)] := by
  obtain ⟨h1, h2, -⟩ := C110_positions hpd h hg
  have hfst : ∀ t z, TableSays r t z → (r.df.filter fun y => y.tag = t).map (·.nodes_pos_l) = [some z] := by
    intro t z ht
    have := congrArg (List.map Prod.fst) ht
    simpa [List.map_map, Function.comp_def] using this
  classical
  refine ⟨fun b => if hb : b ∈ r.bearings then position r.shaft (h2 b hb).choose else 0, ?_, ?_, ?_⟩
  · intro b hb
    simp only [dif_pos hb]
    exact ⟨_, (h2 b hb).choose_spec.1, rfl⟩
  · exact fun d hd => hfst _ _ (h1 d hd)
  · intro b hb
    simp only [dif_pos hb]
    exact hfst _ _ (h2 b hb).choose_spec.2

/-- The frames after the first, second and third summary. -/
noncomputable def frames {α : Type} (l : List α) (p : α → ℝ) : ℕ → SumFrame α
  | 0 => frameOf l
  | 1 => ⟨["nodes_pos_l"], l.map fun x => (x, [some (p x)])⟩
  | 2 => ⟨["nodes_pos_l_x", "nodes_pos_l_y"], l.map fun x => (x, [some (p x), some (p x)])⟩
  | _ => ⟨["nodes_pos_l_x", "nodes_pos_l_y", "nodes_pos_l"], l.map fun x => (x, [some (p x), some (p x), some (p x)])⟩

theorem merge_frames {α : Type} {tag : α → Option String} {df : List Row} {l : List α} {p : α → ℝ}
    (hp : ∀ x ∈ l, (df.filter fun y => y.tag = tag x).map (·.nodes_pos_l) = [some (p x)]) (hne : l ≠ []) {k : ℕ} (hk : k < 3) :
    merge tag df (frames l p k) = .ok (frames l p (k + 1)) := by
  have hmem : ∀ x ∈ (frames l p k).rows, x.1 ∈ l := by
    intro x hx
    match k, hk with
    | 0, _ | 1, _ | 2, _ =>
      obtain ⟨y, hy, rfl⟩ := List.mem_map.1 hx
      exact hy
  have hne' : (frames l p k).rows ≠ [] := by
    match k, hk with
    | 0, _ | 1, _ | 2, _ => simpa [frames, frameOf] using hne
  rw [merge_one (p := fun x => some (p x)) (fun x hx => hp x.1 (hmem x hx)) hne' (by
    match k, hk with
    | 0, _ => show ["nodes_pos_l"].Nodup; decide
    | 1, _ => show ["nodes_pos_l_x", "nodes_pos_l_y"].Nodup; decide
    | 2, _ => show ["nodes_pos_l_x", "nodes_pos_l_y", "nodes_pos_l"].Nodup; decide)]
  match k, hk with
  | 0, _ | 1, _ | 2, _ => simp [frames, frameOf, mergedCols, List.map_map, Function.comp_def]

/-- The results of a summary. -/
noncomputable def resultOf (r : Rotor) (st : StaticResults) (p : BrgEl → ℝ) (k : ℕ) : SummaryResults where
  shaft := r.shaft.zip ((shaftPos r.shaft).zip r.axial_cg_pos)
  df_disks := frames r.disks (fun d => position r.shaft d.d.n) k
  df_bearings := frames (notSeals r) p k
  brg_forces := st.bearing_forces_tag
  CG := r.CG
  Ip := r.Ip
  tag := r.tag

/-- The rotor after `k` summaries. -/
noncomputable def stateOf (r : Rotor) (p : BrgEl → ℝ) (k : ℕ) : State where
  rotor := r
  df_disks := frames r.disks (fun d => position r.shaft d.d.n) k
  df_bearings := frames (notSeals r) p k

theorem summary_step (hr : r.run_static pd' sp fuel' = some (.ok st)) (hd : r.disks ≠ []) {p : BrgEl → ℝ}
    (h1 : ∀ d ∈ r.disks, (r.df.filter fun y => y.tag = d.d.tag).map (·.nodes_pos_l) = [some (position r.shaft d.d.n)])
    (h2 : ∀ b ∈ r.bearings, (r.df.filter fun y => y.tag = b.tag).map (·.nodes_pos_l) = [some (p b)]) {k : ℕ} (hk : k < 3) :
    summary pd' sp fuel' (stateOf r p k) = (some (.ok (resultOf r st p (k + 1))), stateOf r p (k + 1)) := by
  unfold summary stateOf
  dsimp only
  rw [merge_frames h1 hd hk, merge_frames (l := notSeals r) (fun b hb => h2 b (List.mem_filter.1 hb).1) (notSeals_ne hr) hk]
  dsimp only
  rw [hr]
  rfl

/-- The shaft with its positions. -/
theorem shaft_frame (h : init pd fuel a = some (.ok r)) : r.shaft.zip ((shaftPos r.shaft).zip r.axial_cg_pos) =
    r.shaft.map fun e => (e, (position r.shaft (leftNode e), position r.shaft (leftNode e + 1)),
      e.s.beam_cg + position r.shaft (leftNode e)) := by
  have hb := init_ok h
  have hs := shaft_sorted h
  rw [hb.cg, axialCg_eq hs, shaftPos_eq hs]
  rw [List.zip_map', zip_self_map]
  refine List.map_congr_left fun e he => ?_
  rw [next_node he]
  rfl

/-- What is drawn after the first and the third summary. -/
theorem plot_frames (h : init pd fuel a = some (.ok r)) (hr : r.run_static pd' sp fuel' = some (.ok st)) {p : BrgEl → ℝ}
    (hp : ∀ b ∈ r.bearings, ∃ k, StandsAt r.bearings (shaftEnd r) b k ∧ p b = position r.shaft k) {k : ℕ}
    (hk : k = 1 ∨ k = 3) : ∃ t, plot (resultOf r st p k) = .ok t ∧ RotorSays r t ∧ ShaftSays r t ∧ DisksSay r t ∧
      BearingsSay r t ∧ ForcesSay r st t := by
  have hb := init_ok h
  have hg := gaps_of h hr
  have hc := ctx_of hb h hg
  have hne := (check_ok hb.dof).1
  obtain ⟨u, R, F, ew, nf, c⟩ := core h hr
  have hlast : shaftEnd r = lastNode r.shaft + 1 := by rw [shaftEnd_last h]; rfl
  obtain ⟨f, hf⟩ : ∃ f, r.shaft.head? = some f := ⟨_, List.head?_eq_some_head hne⟩
  obtain ⟨l, hl⟩ : ∃ l, r.shaft.getLast? = some l := ⟨_, List.getLast?_eq_getLast_of_ne_nil hne⟩
  have hl' : nodeOf l = lastNode r.shaft := by simp [lastNode, hl]
  have hf' : nodeOf f = 0 := by
    obtain ⟨e, he, hn⟩ := hg 0 hc.pos
    have hs := shaft_sorted h
    cases hsh : r.shaft with
    | nil => exact absurd hsh hne
    | cons x t =>
      rw [hsh] at hs hf he
      cases hf
      rcases List.mem_cons.1 he with rfl | he
      · exact hn
      · have := (List.pairwise_cons.1 hs).1 e he
        have hn' : nodeOf e = 0 := hn
        omega
  have hp0 : position r.shaft 0 = 0 := by simp [position]
  have hd : column (frames r.disks (fun d => position r.shaft d.d.n) k) =
      .ok (r.disks.map fun d => (d, some (position r.shaft d.d.n))) := by
    rcases hk with rfl | rfl <;> simp [column, frames, List.map_map, Function.comp_def, List.idxOf_cons]
  have hbc : column (frames (notSeals r) p k) = .ok ((notSeals r).map fun b => (b, some (p b))) := by
    rcases hk with rfl | rfl <;> simp [column, frames, List.map_map, Function.comp_def, List.idxOf_cons]
  have hm : ((frames r.disks (fun d => position r.shaft d.d.n) k).rows.map fun x => x.1.d.m) =
      r.disks.map fun e => e.d.m := by
    rcases hk with rfl | rfl <;> simp [frames, List.map_map, Function.comp_def]
  have hsf := shaft_frame h
  unfold plot resultOf
  dsimp only
  rw [hsf, List.head?_map, List.getLast?_map, hf, hl]
  simp only [Option.map_some]
  rw [hd, hbc]
  refine ⟨_, rfl, ?_, ?_, ?_, ?_, ?_⟩
  · unfold RotorSays
    dsimp only
    rw [hm, hf', hl', ← hlast]
    have e1 : leftNode f = 0 := hf'
    have e2 : leftNode l + 1 = shaftEnd r := by rw [hlast, ← hl']; rfl
    rw [e1, e2, hp0, List.map_map]
    have : ((fun x : ShaftEl × (ℝ × ℝ) × ℝ => x.1.s.m) ∘ fun e => (e, (position r.shaft (leftNode e),
        position r.shaft (leftNode e + 1)), e.s.beam_cg + position r.shaft (leftNode e))) = fun e : ShaftEl => e.s.m := rfl
    rw [this, mass_eq h]
  · unfold ShaftSays
    dsimp only
    rw [List.map_map]
    rfl
  · unfold DisksSay
    dsimp only
    rw [List.map_map]
    rfl
  · refine ⟨by simp, ?_⟩
    intro i b hib
    obtain ⟨k, hk1, hk2⟩ := hp b (List.mem_filter.1 (List.mem_of_getElem? hib)).1
    refine ⟨k, hk1, ?_⟩
    simp [hib, hk2]
  · intro i b hib
    dsimp only
    rw [forces_eq h hr, List.getElem?_map]
    have hcar : carrying r = (notSeals r).filter fun b => b.n < r.nodes_pos.length := by
      unfold carrying notSeals
      rw [List.filter_filter]
      congr 1
      funext b
      simp [Bool.and_comm]
    rw [hcar, sorted_filter (l := notSeals r) ((sorted_bearings h).filter _) _ i b hib, c.len]
    by_cases hbn : b.n ≤ shaftEnd r
    · rw [if_pos (by omega), if_pos hbn]; rfl
    · rw [if_neg (by omega), if_neg hbn]; rfl

/-- **C110** the first summary of a rotor with a disk whose static analysis succeeds: the line of the rotor, a line for each
shaft element, disk and bearing with its values and position, and the reactions in the lines of their bearings. -/
theorem C110_summary_partial (hpd : SortsRows pd) (h : init pd fuel a = some (.ok r))
    (hr : r.run_static pd' sp fuel' = some (.ok st)) (hd : r.disks ≠ []) :
    ∃ res t, (summary pd' sp fuel' (start r)).1 = some (.ok res) ∧ plot res = .ok t ∧
      RotorSays r t ∧ ShaftSays r t ∧ DisksSay r t ∧ BearingsSay r t ∧ ForcesSay r st t := by
  obtain ⟨p, hp, h1, h2⟩ := merges hpd h (gaps_of h hr)
  obtain ⟨t, ht⟩ := plot_frames h hr hp (Or.inl rfl)
  refine ⟨resultOf r st p 1, t, ?_, ht⟩
  have := summary_step hr hd h1 h2 (k := 0) (by omega)
  exact congrArg Prod.fst this

/-- **C110** the summary is not always the same: the second one of a rotor cannot be drawn, the third one says what the
first one said. -/
theorem C110_again_false (hpd : SortsRows pd) (h : init pd fuel a = some (.ok r))
    (hr : r.run_static pd' sp fuel' = some (.ok st)) (hd : r.disks ≠ []) :
    let s₁ := (summary pd' sp fuel' (start r)).2
    let s₂ := (summary pd' sp fuel' s₁).2
    (∃ res, (summary pd' sp fuel' s₁).1 = some (.ok res) ∧ plot res = .error .keyError) ∧
    ∃ res t, (summary pd' sp fuel' s₂).1 = some (.ok res) ∧ plot res = .ok t ∧
      RotorSays r t ∧ ShaftSays r t ∧ DisksSay r t ∧ BearingsSay r t ∧ ForcesSay r st t := by
  obtain ⟨p, hp, h1, h2⟩ := merges hpd h (gaps_of h hr)
  have e0 : start r = stateOf r p 0 := rfl
  have s1 := summary_step hr hd h1 h2 (k := 0) (by omega)
  have s2 := summary_step hr hd h1 h2 (k := 1) (by omega)
  have s3 := summary_step hr hd h1 h2 (k := 2) (by omega)
  intro s₁ s₂
  have e1 : s₁ = stateOf r p 1 := by show (summary pd' sp fuel' (start r)).2 = _; rw [e0, s1]
  have e2 : s₂ = stateOf r p 2 := by show (summary pd' sp fuel' s₁).2 = _; rw [e1, s2]
  refine ⟨⟨resultOf r st p 2, by rw [e1, s2], ?_⟩, ?_⟩
  · have hne := (check_ok (init_ok h).dof).1
    obtain ⟨f, hf⟩ : ∃ f, r.shaft.head? = some f := ⟨_, List.head?_eq_some_head hne⟩
    obtain ⟨l, hl⟩ : ∃ l, r.shaft.getLast? = some l := ⟨_, List.getLast?_eq_getLast_of_ne_nil hne⟩
    unfold plot resultOf
    dsimp only
    rw [shaft_frame h, List.head?_map, List.getLast?_map, hf, hl]
    simp [column, frames, bind, Except.bind]
  · obtain ⟨t, ht⟩ := plot_frames h hr hp (Or.inr rfl)
    exact ⟨resultOf r st p 3, t, by rw [e2, s3], ht⟩

/-- **C110** a rotor without disks has no summary. -/
theorem C110_disks_false (hd : r.disks = []) : summary pd sp fuel (start r) = (some (.error .keyError), start r) := by
  simp [summary, start, merge, frameOf, hd]

/-- A rotor with a bearing on a support that another bearing is linked to. -/
example : ∃ r, init exPandas 10 exArgs = some (.ok r) ∧ NoGaps r ∧ r.disks ≠ [] ∧ r.pms ≠ [] ∧
    ∃ b ∈ r.bearings, shaftEnd r < b.n ∧ StandsAt r.bearings (shaftEnd r) b 0 := by
  obtain ⟨r, f⟩ := exRotor_facts
  have hb := init_ok f.init
  have hg : NoGaps r := fun k hk => (f.full.nodes k).2 (by rw [← f.stop]; exact hk)
  refine ⟨r, f.init, hg, by rw [f.disks]; simp, by rw [f.pms]; simp, ?_⟩
  have hmem : ∀ b, b ∈ r.bearings ↔ b ∈ tagBearings exArgs.bearings := by
    intro b
    rw [hb.bearings]
    exact (parts_br_perm exArgs).mem_iff
  have h3 : (BrgEl.brg false { exBrg 3 none 1e7 10 with tag := some "Bearing 0" }) ∈ r.bearings := by
    rw [hmem]; exact List.mem_cons_self
  have h0 : (BrgEl.brg false { exBrg 0 (some 3) 1e6 100 with tag := some "Bearing 1" }) ∈ r.bearings := by
    rw [hmem]; exact List.mem_cons_of_mem _ List.mem_cons_self
  refine ⟨_, h3, by rw [f.stop]; simp [BrgEl.n, BrgEl.base, exBrg], ?_⟩
  refine .support (by rw [f.stop]; simp [BrgEl.n, BrgEl.base, exBrg]) h0 (by simp [BrgEl.tag, BrgEl.base])
    (Or.inr rfl) ?_
  exact StandsAt.shaft (b := .brg false { exBrg 0 (some 3) 1e6 100 with tag := some "Bearing 1" }) (Nat.zero_le _)

/-- A rotor that can be summed up. -/
example : ∃ r st, init exPandas 10 (rodArgs 2) = some (.ok r) ∧ SortsRows exPandas ∧
    r.run_static exPandas sp 4 = some (.ok st) ∧ r.disks ≠ [] ∧ (notSeals r).length = 2 := by
  obtain ⟨r, h1, h2, h3, h4, h5, h6, ⟨b, c, hb, hc, hbc⟩, h7, h8⟩ := rod_facts (k := 2) (Or.inr rfl)
  obtain ⟨s1, s2, s3, s4, s5⟩ := rod_shaft h3
  obtain ⟨st, hst⟩ := C28_runs h1 (rodArgs_wf (Or.inr rfl)) h4 s1 h5 hb hc hbc exPandas_sorts sp
    (fuel' := 4) (by omega)
  refine ⟨r, st, h1, exPandas_sorts, hst, by rw [h7]; simp, ?_⟩
  rw [← h6]
  unfold notSeals
  rw [List.filter_eq_self.2]
  intro b hb
  rw [(init_ok h1).bearings, (parts_br_perm (rodArgs 2)).mem_iff] at hb
  have : tagBearings (rodArgs 2).bearings =
      [.brg false { exBrg 0 none 1e6 100 with tag := some "Bearing 0" },
       .brg false { exBrg 2 none 1e6 100 with tag := some "Bearing 1" }] := rfl
  rw [this] at hb
  simp only [List.mem_cons, List.not_mem_nil, or_false] at hb
  rcases hb with rfl | rfl <;> rfl

/-- A rotor without disks. -/
example : ∃ r, init exPandas 2 (orderArgs []) = some (.ok r) ∧ r.disks = [] := by
  obtain ⟨r, h1, -⟩ := accepts exPandas_sorts (orderArgs_wf (ds := []) (by simp) (by simp) (by decide)) (fuel := 2)
    (by simp [orderArgs])
  exact ⟨r, h1, by rw [(init_ok h1).disks]; rfl⟩

end Ross.Props
