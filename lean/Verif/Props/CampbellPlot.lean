import Verif.Spec.CampbellPlot
import Verif.Lemmas.RunsOne
import Verif.Props.Campbell
import Verif.Props.Intersection

/-! # C108: what a Campbell diagram shows -/

namespace Ross.Props

open Ross Rotor Ross.Spec Ross.RunLemmas

variable {d : CampbellData} {u : ℝ} {harmonics : List ℝ} {z : CampbellData.Damping} {fr dr : Option (ℝ × ℝ)}
  {fig : List CampbellTrace}

theorem item_ok_iff {α : Type} {l : List α} {i : ℕ} {x : α} : item l i = .ok x ↔ l[i]? = some x := by
  unfold item
  cases h : l[i]? <;> simp

theorem inside_iff {r : Option (ℝ × ℝ)} {x : ℝ} : CampbellData.inside r x ↔ Within r x := by
  unfold CampbellData.inside Within
  cases r with
  | none => simp
  | some p =>
    obtain ⟨a, b⟩ := p
    simp only [Option.some.injEq, Prod.mk.injEq]
    constructor
    · rintro h a' b' ⟨rfl, rfl⟩
      exact h
    · intro h
      exact h a b ⟨rfl, rfl⟩

theorem dampingOf_name : CampbellData.dampingOf (dampingName z) = .ok z := by
  cases z
  · unfold CampbellData.dampingOf dampingName
    rw [if_pos rfl]
  · unfold CampbellData.dampingOf dampingName
    rw [if_neg (by decide), if_pos rfl]

theorem pointAt_ok {i : ℕ} {x : ℝ × CampbellRow} {p : CampbellPoint} (h : d.pointAt z i x = .ok p) :
    p.speed = x.1 ∧ x.2.wd[i]? = some p.freq ∧ x.2.whirl_values[i]? = some p.whirl ∧
      (match z with | .log_dec => x.2.log_dec | .damping_ratio => x.2.damping_ratio)[i]? = some p.damping ∧
      ∃ l, d.mode_types.lookup p.speed = some l ∧ l[i]? = some p.type := by
  unfold CampbellData.pointAt at h
  obtain ⟨f, hf, h⟩ := bindOk h
  obtain ⟨v, hv, h⟩ := bindOk h
  obtain ⟨a, ha, h⟩ := bindOk h
  obtain ⟨t, ht, h⟩ := bindOk h
  obtain rfl := Except.ok.inj h
  refine ⟨rfl, item_ok_iff.1 hf, item_ok_iff.1 hv, ?_, ?_⟩
  · cases z <;> exact item_ok_iff.1 ha
  · unfold CampbellData.modeType at ht
    cases hl : d.mode_types.lookup x.1 with
    | none => rw [hl] at ht; cases ht
    | some l =>
      rw [hl] at ht
      exact ⟨l, rfl, item_ok_iff.1 ht⟩

theorem column_ok (hr : d.rows.length = d.speed_range.length) {i : ℕ} {l : List CampbellPoint} (h : d.column z i = .ok l) :
    l.length = d.speed_range.length ∧ ∀ (k : ℕ) p, l[k]? = some p → Computed d z k i p := by
  unfold CampbellData.column at h
  have hlen := (mapM_get h).1
  refine ⟨by rw [hlen, List.length_zip, hr, min_self], fun k p hk => ?_⟩
  obtain ⟨x, hx, hp⟩ := mapM_get' h hk
  obtain ⟨h1, h2, h3, h4, h5⟩ := pointAt_ok hp
  rw [List.getElem?_zip_eq_some] at hx
  exact ⟨by rw [h1]; exact hx.1, ⟨x.2, hx.2, h2, h3, h4⟩, h5⟩

theorem curves_ok (hr : d.rows.length = d.speed_range.length) {T : List (List CampbellPoint)}
    (h : (List.range d.num_frequencies).mapM (d.column z) = .ok T) : Curves d z T := by
  have hlen := (mapM_get h).1
  have key : ∀ (i : ℕ) l, T[i]? = some l → d.column z i = .ok l := by
    intro i l hi
    obtain ⟨a, ha, hl⟩ := mapM_get' h hi
    rw [List.getElem?_eq_some_iff] at ha
    obtain ⟨_, ha⟩ := ha
    rw [List.getElem_range] at ha
    rwa [← ha] at hl
  refine ⟨by simpa using hlen, fun l hl => ?_, fun i l hi => (column_ok hr (key i l hi)).2⟩
  obtain ⟨i, hi, rfl⟩ := List.mem_iff_getElem.1 hl
  exact (column_ok hr (key i _ (List.getElem?_eq_getElem hi))).1

/-- What is done by a plot. -/
theorem plot_ok {name : String} {fig0 : List CampbellTrace} (h : d.plot u harmonics name fr dr fig0 = .ok fig) :
    ∃ z crit T, CampbellData.dampingOf name = .ok z ∧ d.critical harmonics fr = .ok crit ∧
      (List.range d.num_frequencies).mapM (d.column z) = .ok T ∧ harmonics.length ≤ 10 ∧ d.speed_range ≠ [] ∧
      d.num_frequencies ≠ 0 ∧
      fig = fig0 ++ CampbellData.critTrace u crit ++ (CampbellLegend.all d.number_dof).flatMap (d.glyphs u fr dr T) ++
        harmonics.map (d.lineTrace u) ++ (CampbellLegend.all d.number_dof).map .legend := by
  unfold CampbellData.plot at h
  obtain ⟨z, hz, h⟩ := bindOk h
  obtain ⟨c, hc, h⟩ := bindOk h
  obtain ⟨T, hT, h⟩ := bindOk h
  split_ifs at h with h1 h2
  push Not at h1 h2
  exact ⟨z, c, T, hz, hc, hT, h1, h2.1, h2.2, (Except.ok.inj h).symm⟩

theorem glyphsOf_append (L : CampbellLegend) (a b : List CampbellTrace) : glyphsOf L (a ++ b) = glyphsOf L a ++ glyphsOf L b := by
  simp [glyphsOf]

theorem glyphsOf_crit (L : CampbellLegend) (l : List (ℝ × ℝ)) : glyphsOf L (CampbellData.critTrace u l) = [] := by
  unfold CampbellData.critTrace
  split_ifs <;> simp [glyphsOf]

theorem glyphsOf_lines (L : CampbellLegend) : glyphsOf L (harmonics.map (d.lineTrace u)) = [] := by
  unfold glyphsOf
  rw [List.flatMap_map, List.flatMap_eq_nil_iff]
  intro h _
  rfl

theorem glyphsOf_legends (L : CampbellLegend) (l : List CampbellLegend) : glyphsOf L (l.map .legend) = [] := by
  unfold glyphsOf
  rw [List.flatMap_map, List.flatMap_eq_nil_iff]
  intro h _
  rfl

theorem glyphsOf_flatMap {α : Type} (L : CampbellLegend) (l : List α) (f : α → List CampbellTrace) :
    glyphsOf L (l.flatMap f) = l.flatMap fun x => glyphsOf L (f x) := by
  unfold glyphsOf
  rw [List.flatMap_assoc]

theorem glyphsOf_glyph (L L' : CampbellLegend) (l : List CampbellPoint) : glyphsOf L (CampbellData.glyphTrace u L' l) =
    if L' = L then l.map fun p => (u * p.speed, u * p.freq, p.damping) else [] := by
  unfold CampbellData.glyphTrace
  cases l with
  | nil => simp [glyphsOf]
  | cons a t => simp [glyphsOf]

theorem glyphsOf_plot {T : List (List CampbellPoint)} {L : CampbellLegend} (hL : L ∈ CampbellLegend.all d.number_dof) :
    glyphsOf L ((CampbellLegend.all d.number_dof).flatMap (d.glyphs u fr dr T)) =
      T.flatMap fun l => (CampbellData.masked (CampbellLegend.all d.number_dof) fr dr L l).map
        fun p => (u * p.speed, u * p.freq, p.damping) := by
  rw [glyphsOf_flatMap]
  have h1 : ∀ L', glyphsOf L (d.glyphs u fr dr T L') =
      if L' = L then T.flatMap fun l => (CampbellData.masked (CampbellLegend.all d.number_dof) fr dr L l).map
        fun p => (u * p.speed, u * p.freq, p.damping) else [] := by
    intro L'
    unfold CampbellData.glyphs
    rw [glyphsOf_flatMap]
    simp only [glyphsOf_glyph]
    split_ifs with e
    · rw [e]
    · simp
  simp only [h1]
  revert hL
  unfold CampbellLegend.all
  split_ifs <;> cases L <;> simp

/-- The figure of a plot, legend by legend. -/
theorem plot_glyphs {fig0 : List CampbellTrace} (hr : d.rows.length = d.speed_range.length)
    (h : d.plot u harmonics (dampingName z) fr dr fig0 = .ok fig) : ∃ T, Curves d z T ∧
      ∀ L ∈ CampbellLegend.all d.number_dof, glyphsOf L fig = glyphsOf L fig0 ++
        T.flatMap fun l => (CampbellData.masked (CampbellLegend.all d.number_dof) fr dr L l).map
          fun p => (u * p.speed, u * p.freq, p.damping) := by
  obtain ⟨z', c, T, hz, -, hT, -, -, -, rfl⟩ := plot_ok h
  rw [dampingOf_name] at hz
  obtain rfl := Except.ok.inj hz
  refine ⟨T, curves_ok hr hT, fun L hL => ?_⟩
  simp only [glyphsOf_append, glyphsOf_crit, glyphsOf_lines, glyphsOf_legends, List.append_nil]
  rw [glyphsOf_plot hL]

theorem kind_lateral {L : CampbellLegend} {v : ℝ} (hL : L = .forward ∨ L = .mixed ∨ L = .backward) {t : ModeType} :
    kind v t = some L ↔ t = .lateral ∧ L.whirl = some v := by
  have e : ∀ a : ℝ, (a = v) ↔ (v = a) := fun a => eq_comm
  unfold kind
  cases t
  · rcases hL with rfl | rfl | rfl
    all_goals
      simp only [CampbellLegend.whirl, Option.some.injEq, true_and, e]
      by_cases h0 : v = 0
      · simp [h0]
      by_cases h1 : v = 1
      · norm_num [h1] <;> decide
      by_cases h2 : v = 1 / 2
      · norm_num [h2] <;> decide
      simp only [h0, h1, h2, if_false, reduceCtorEq]
  all_goals rcases hL with rfl | rfl | rfl <;> simp

theorem names_iff {L : CampbellLegend} {t : ModeType} {v : ℝ} (hL : L = .axial ∨ L = .torsional) :
    L.names t = true ↔ kind v t = some L := by
  unfold kind
  rcases hL with rfl | rfl <;> cases t <;> simp [CampbellLegend.names]
  all_goals split_ifs <;> simp

open Classical in
/-- **C108** Forward, mixed and backward modes: the glyphs of each of the three are exactly the frequencies of that kind
which lie within both ranges, curve by curve and speed by speed, each at its speed and coloured by its own damping.
(`u` converts rad/s into the units of the figure.) -/
theorem C108_lateral {fig0 : List CampbellTrace} (hr : d.rows.length = d.speed_range.length)
    (hd : d.number_dof = 6 ∨ ∀ w l, d.mode_types.lookup w = some l → ∀ t ∈ l, t = .lateral)
    (h : d.plot u harmonics (dampingName z) fr dr fig0 = .ok fig) : ∃ T, Curves d z T ∧
      ∀ L, L = .forward ∨ L = .mixed ∨ L = .backward → glyphsOf L fig = glyphsOf L fig0 ++
        T.flatMap fun l => (l.filter fun p => kind p.whirl p.type = some L ∧ Within fr p.freq ∧ Within dr p.damping).map
          fun p => (u * p.speed, u * p.freq, p.damping) := by
  obtain ⟨T, hT, hg⟩ := plot_glyphs hr h
  refine ⟨T, hT, fun L hL => ?_⟩
  have hm : L ∈ CampbellLegend.all d.number_dof := by
    unfold CampbellLegend.all
    rcases hL with rfl | rfl | rfl <;> split_ifs <;> simp
  rw [hg L hm]
  congr 1
  rw [List.flatMap_congr]
  intro l hl
  congr 1
  obtain ⟨i, hi⟩ := List.mem_iff_getElem?.1 hl
  have hn : ∀ t, L.names t = false := by
    intro t
    rcases hL with rfl | rfl | rfl <;> cases t <;> rfl
  unfold CampbellData.masked
  rw [if_neg (by simp [hn])]
  refine List.filter_congr fun p hp => ?_
  obtain ⟨k, hk⟩ := List.mem_iff_getElem?.1 hp
  have hall : (CampbellLegend.all d.number_dof).any (fun m => m.names p.type) = true ↔ p.type ≠ .lateral := by
    rcases hd with h6 | hlat
    · rw [h6]
      cases p.type <;> simp [CampbellLegend.all, CampbellLegend.names]
    · obtain ⟨l', h1, h2⟩ := (hT.computed i l hi k p hk).type
      rw [hlat _ _ h1 _ (List.mem_of_getElem? h2)]
      unfold CampbellLegend.all
      split_ifs <;> simp [CampbellLegend.names]
  rw [decide_eq_decide, kind_lateral hL, inside_iff, inside_iff, hall]
  tauto

open Classical in
/-- **C108** Axial and torsional modes are all drawn, whatever the ranges. -/
theorem C108_axial {fig0 : List CampbellTrace} (hr : d.rows.length = d.speed_range.length) (h6 : d.number_dof = 6)
    (h : d.plot u harmonics (dampingName z) fr dr fig0 = .ok fig) : ∃ T, Curves d z T ∧
      ∀ L, L = .axial ∨ L = .torsional → glyphsOf L fig = glyphsOf L fig0 ++
        T.flatMap fun l => (l.filter fun p => kind p.whirl p.type = some L).map
          fun p => (u * p.speed, u * p.freq, p.damping) := by
  obtain ⟨T, hT, hg⟩ := plot_glyphs hr h
  refine ⟨T, hT, fun L hL => ?_⟩
  have hm : L ∈ CampbellLegend.all d.number_dof := by
    rw [h6]
    rcases hL with rfl | rfl <;> simp [CampbellLegend.all]
  rw [hg L hm]
  congr 1
  rw [List.flatMap_congr]
  intro l hl
  congr 1
  unfold CampbellData.masked
  split_ifs with hc
  · refine List.filter_congr fun p hp => ?_
    rw [Bool.eq_iff_iff, decide_eq_true_iff, names_iff hL]
  · have hw : L.whirl = none := by rcases hL with rfl | rfl <;> rfl
    rw [List.filter_eq_nil_iff.2 (by simp [hw]), List.filter_eq_nil_iff.2]
    intro p hp
    rw [decide_eq_true_iff, ← names_iff hL]
    intro hx
    exact hc (List.any_eq_true.2 ⟨p, hp, hx⟩)

open Classical in
/-- **C108** If the axial and torsional modes lie within the ranges, their glyphs also are exactly the frequencies of that
kind within both ranges.  Missing: modes outside, which are drawn nevertheless. -/
theorem C108_axial_partial {fig0 : List CampbellTrace} (hr : d.rows.length = d.speed_range.length) (h6 : d.number_dof = 6)
    (hin : ∀ k i p, Computed d z k i p → p.type ≠ .lateral → Within fr p.freq ∧ Within dr p.damping)
    (h : d.plot u harmonics (dampingName z) fr dr fig0 = .ok fig) : ∃ T, Curves d z T ∧
      ∀ L, L = .axial ∨ L = .torsional → glyphsOf L fig = glyphsOf L fig0 ++
        T.flatMap fun l => (l.filter fun p => kind p.whirl p.type = some L ∧ Within fr p.freq ∧ Within dr p.damping).map
          fun p => (u * p.speed, u * p.freq, p.damping) := by
  obtain ⟨T, hT, hg⟩ := C108_axial hr h6 h
  refine ⟨T, hT, fun L hL => ?_⟩
  rw [hg L hL]
  congr 1
  rw [List.flatMap_congr]
  intro l hl
  congr 1
  obtain ⟨i, hi⟩ := List.mem_iff_getElem?.1 hl
  refine List.filter_congr fun p hp => ?_
  obtain ⟨k, hk⟩ := List.mem_iff_getElem?.1 hp
  rw [decide_eq_decide]
  refine ⟨fun e => ⟨e, hin k i p (hT.computed i l hi k p hk) ?_⟩, fun e => e.1⟩
  intro ht
  rw [← names_iff hL, ht] at e
  rcases hL with rfl | rfl <;> cases e

/-- The column of frequencies. -/
theorem freqs_ok {i : ℕ} {w : List ℝ} (h : d.freqs i = .ok w) : w.length = d.rows.length ∧
    ∀ (k : ℕ) x, w[k]? = some x ↔ ∃ row, d.rows[k]? = some row ∧ row.wd[i]? = some x := by
  unfold CampbellData.freqs at h
  refine ⟨(mapM_get h).1, fun k x => ⟨fun hx => ?_, ?_⟩⟩
  · obtain ⟨row, h1, h2⟩ := mapM_get' h hx
    exact ⟨row, h1, item_ok_iff.1 h2⟩
  · rintro ⟨row, h1, h2⟩
    have hk : k < w.length := by rw [(mapM_get h).1]; exact (List.getElem?_eq_some_iff.1 h1).1
    have := (mapM_get h).2 k row w[k] h1 (List.getElem?_eq_getElem hk)
    rw [item_ok_iff, h2] at this
    rw [List.getElem?_eq_getElem hk, ← this]

theorem crosses_append (a b : List CampbellTrace) : crosses (a ++ b) = crosses a ++ crosses b := by
  simp [crosses]

theorem crosses_glyphs {T : List (List CampbellPoint)} (l : List CampbellLegend) :
    crosses (l.flatMap (d.glyphs u fr dr T)) = [] := by
  unfold crosses
  rw [List.flatMap_eq_nil_iff]
  intro t ht
  rw [List.mem_flatMap] at ht
  obtain ⟨L, -, ht⟩ := ht
  unfold CampbellData.glyphs at ht
  rw [List.mem_flatMap] at ht
  obtain ⟨x, -, ht⟩ := ht
  unfold CampbellData.glyphTrace at ht
  split_ifs at ht
  · cases ht
  · rw [List.mem_singleton] at ht
    rw [ht]

theorem crosses_plot {fig0 : List CampbellTrace} {name : String} (h : d.plot u harmonics name fr dr fig0 = .ok fig) :
    ∃ crit, d.critical harmonics fr = .ok crit ∧
      crosses fig = crosses fig0 ++ crit.map fun p => (u * p.1, u * p.2) := by
  obtain ⟨z', c, T, hz, hc, hT, -, -, -, rfl⟩ := plot_ok h
  refine ⟨c, hc, ?_⟩
  have h1 : crosses (harmonics.map (d.lineTrace u)) = [] := by
    unfold crosses
    rw [List.flatMap_map, List.flatMap_eq_nil_iff]
    intro _ _
    rfl
  have h2 : ∀ l : List CampbellLegend, crosses (l.map .legend) = [] := by
    intro l
    unfold crosses
    rw [List.flatMap_map, List.flatMap_eq_nil_iff]
    intro _ _
    rfl
  rw [crosses_append, crosses_append, crosses_append, crosses_append, h1, h2, crosses_glyphs]
  simp only [List.append_nil]
  congr 1
  unfold CampbellData.critTrace
  split_ifs with e
  · rw [e]; rfl
  · simp [crosses]

theorem cross_mem {w : List ℝ} {s : ℝ} {l : List (ℝ × ℝ)} (h : d.cross w s = .ok l) (p : ℝ × ℝ) :
    p ∈ l ↔ ∃ a b, Crossing (d.speed_range.zip w) (d.speed_range.zip (d.speed_range.map fun x => s * x)) a b p := by
  unfold CampbellData.cross at h
  obtain ⟨⟨xs, ys⟩, h1, h⟩ := bindOk h
  obtain rfl := Except.ok.inj h
  exact ⟨C34_sound h1, fun ⟨a, b, hp⟩ => C34_complete h1 hp⟩

/-- **C108** The crosses: a point is marked as critical speed exactly if one of the curves of frequencies over speed
crosses the line of one of the harmonics there, with a frequency within the range. -/
theorem C108_critical (hr : d.rows.length = d.speed_range.length)
    (h : d.plot u harmonics (dampingName z) fr dr = .ok fig) (q : ℝ × ℝ) : q ∈ crosses fig ↔
      ∃ i < d.num_frequencies, ∃ w : List ℝ, w.length = d.speed_range.length ∧
        (∀ (k : ℕ) x, w[k]? = some x ↔ ∃ row, d.rows[k]? = some row ∧ row.wd[i]? = some x) ∧
        ∃ s ∈ harmonics, ∃ a b p, Crossing (d.speed_range.zip w) (d.speed_range.zip (d.speed_range.map fun x => s * x)) a b p ∧
          Within fr p.2 ∧ q = (u * p.1, u * p.2) := by
  obtain ⟨c, hc, e⟩ := crosses_plot h
  rw [e]
  simp only [crosses, List.flatMap_nil, List.nil_append]
  unfold CampbellData.critical at hc
  obtain ⟨L, hL, hc⟩ := bindOk hc
  obtain rfl := Except.ok.inj hc
  have hget := mapM_get hL
  have row : ∀ i < d.num_frequencies, ∃ l, l ∈ L ∧ d.crossings harmonics i = .ok l := by
    intro i hi
    have hl : i < L.length := by rw [hget.1, List.length_range]; exact hi
    refine ⟨L[i], List.getElem_mem _, hget.2 i i _ ?_ (List.getElem?_eq_getElem hl)⟩
    rw [List.getElem?_range hi]
  have row' : ∀ l ∈ L, ∃ i < d.num_frequencies, d.crossings harmonics i = .ok l := by
    intro l hl
    obtain ⟨i, hi⟩ := List.mem_iff_getElem?.1 hl
    obtain ⟨a, ha, hl⟩ := mapM_get' hL hi
    refine ⟨a, ?_, hl⟩
    rw [← List.mem_range]
    exact List.mem_of_getElem? ha
  simp only [List.mem_map, List.mem_filter, decide_eq_true_iff, inside_iff, List.mem_flatten]
  constructor
  · rintro ⟨p, ⟨⟨l, hl, hp⟩, hin⟩, rfl⟩
    obtain ⟨i, hi, hx⟩ := row' l hl
    unfold CampbellData.crossings at hx
    obtain ⟨w, hw, hx⟩ := bindOk hx
    obtain ⟨M, hM, hx⟩ := bindOk hx
    obtain rfl := Except.ok.inj hx
    rw [List.mem_flatten] at hp
    obtain ⟨m, hm, hp⟩ := hp
    obtain ⟨j, hj⟩ := List.mem_iff_getElem?.1 hm
    obtain ⟨s, hs, hx⟩ := mapM_get' hM hj
    obtain ⟨a, b, hab⟩ := (cross_mem hx p).1 hp
    exact ⟨i, hi, w, by rw [(freqs_ok hw).1, hr], (freqs_ok hw).2, s, List.mem_of_getElem? hs, a, b, p, hab, hin, rfl⟩
  · rintro ⟨i, hi, w, hwl, hw, s, hs, a, b, p, hab, hin, rfl⟩
    obtain ⟨l, hl, hx⟩ := row i hi
    refine ⟨p, ⟨⟨l, hl, ?_⟩, hin⟩, rfl⟩
    unfold CampbellData.crossings at hx
    obtain ⟨w', hw', hx⟩ := bindOk hx
    obtain ⟨M, hM, hx⟩ := bindOk hx
    obtain rfl := Except.ok.inj hx
    have : w' = w := by
      apply List.ext_getElem?
      intro k
      apply Option.ext
      intro x
      rw [hw, (freqs_ok hw').2]
    subst this
    obtain ⟨j, hj⟩ := List.mem_iff_getElem?.1 hs
    have hjM : j < M.length := by rw [(mapM_get hM).1]; exact (List.getElem?_eq_some_iff.1 hj).1
    have hcr := (mapM_get hM).2 j s M[j] hj (List.getElem?_eq_getElem hjM)
    rw [List.mem_flatten]
    exact ⟨M[j], List.getElem_mem _, (cross_mem hcr p).2 ⟨a, b, hab⟩⟩

/-- **C108** The lines: one for each harmonic, in order, through the speeds and that multiple of each. -/
theorem C108_lines {fig0 : List CampbellTrace} {name : String} (h : d.plot u harmonics name fr dr fig0 = .ok fig) :
    linesOf fig = linesOf fig0 ++ harmonics.map fun s => (s, d.speed_range.map fun x => (u * x, s * (u * x))) := by
  obtain ⟨z', c, T, hz, hc, hT, -, -, -, rfl⟩ := plot_ok h
  have h1 : linesOf (harmonics.map (d.lineTrace u)) =
      harmonics.map fun s => (s, d.speed_range.map fun x => (u * x, s * (u * x))) := by
    unfold linesOf
    rw [List.filterMap_map]
    exact List.filterMap_eq_map.symm ▸ rfl
  have h2 : ∀ l : List CampbellLegend, linesOf (l.map .legend) = [] := by
    intro l
    unfold linesOf
    rw [List.filterMap_map, List.filterMap_eq_nil_iff]
    intro _ _
    rfl
  have h3 : linesOf (CampbellData.critTrace u c) = [] := by
    unfold CampbellData.critTrace
    split_ifs <;> rfl
  have h4 : linesOf ((CampbellLegend.all d.number_dof).flatMap (d.glyphs u fr dr T)) = [] := by
    unfold linesOf
    rw [List.filterMap_eq_nil_iff]
    intro t ht
    rw [List.mem_flatMap] at ht
    obtain ⟨L, -, ht⟩ := ht
    unfold CampbellData.glyphs at ht
    rw [List.mem_flatMap] at ht
    obtain ⟨x, -, ht⟩ := ht
    unfold CampbellData.glyphTrace at ht
    split_ifs at ht
    · cases ht
    · rw [List.mem_singleton] at ht
      rw [ht]
  have h5 : ∀ a b, linesOf (a ++ b) = linesOf a ++ linesOf b := fun a b => List.filterMap_append
  rw [h5, h5, h5, h5, h1, h2, h3, h4]
  simp

theorem item_total {α : Type} {l : List α} {i : ℕ} (h : i < l.length) : ∃ x, item l i = .ok x :=
  ⟨l[i], item_ok_iff.2 (List.getElem?_eq_getElem h)⟩

theorem parts_total (hd : FullDiagram d) (hs : d.speed_range ≠ []) (z : CampbellData.Damping) :
    ∃ c T, d.critical harmonics fr = .ok c ∧ (List.range d.num_frequencies).mapM (d.column z) = .ok T := by
  have hfr : ∀ i < d.num_frequencies, ∃ w, d.freqs i = .ok w := fun i hi =>
    mapM_total fun row hrow => item_total (by rw [hd.wd row hrow]; exact hi)
  have hcross : ∀ i < d.num_frequencies, ∃ l, d.crossings harmonics i = .ok l := by
    intro i hi
    obtain ⟨w, hw⟩ := hfr i hi
    have hlen := (freqs_ok hw).1
    have hM : ∃ M, harmonics.mapM (d.cross w) = .ok M := mapM_total fun s _ => by
      obtain ⟨r, e⟩ := (C34_errors (x1 := d.speed_range) (y1 := w) (x2 := d.speed_range)
        (y2 := d.speed_range.map fun x => s * x)).1.2 ⟨by rw [hlen, hd.rows], by simp, hs, hs⟩
      unfold CampbellData.cross
      rw [e]
      exact ⟨_, rfl⟩
    obtain ⟨M, hM⟩ := hM
    unfold CampbellData.crossings
    rw [hw]
    simp only [bind, Except.bind, hM]
    exact ⟨_, rfl⟩
  have hcrit : ∃ c, d.critical harmonics fr = .ok c := by
    obtain ⟨L, hL⟩ := mapM_total (l := List.range d.num_frequencies) fun i hi => hcross i (List.mem_range.1 hi)
    unfold CampbellData.critical
    rw [hL]
    exact ⟨_, rfl⟩
  have hcol : ∀ i < d.num_frequencies, ∃ l, d.column z i = .ok l := by
    intro i hi
    refine mapM_total fun x hx => ?_
    have hrow : x.2 ∈ d.rows := (List.of_mem_zip (a := x.1) (b := x.2) hx).2
    have hsp : x.1 ∈ d.speed_range := (List.of_mem_zip (a := x.1) (b := x.2) hx).1
    obtain ⟨a, ha⟩ := item_total (l := x.2.wd) (i := i) (by rw [hd.wd _ hrow]; exact hi)
    obtain ⟨b, hb⟩ := item_total (l := x.2.whirl_values) (i := i) (by rw [hd.whirl _ hrow]; exact hi)
    obtain ⟨c, hc⟩ := item_total (l := CampbellData.damping z x.2) (i := i) (by
      cases z
      · show i < x.2.log_dec.length
        rw [hd.log_dec _ hrow]; exact hi
      · show i < x.2.damping_ratio.length
        rw [hd.damping_ratio _ hrow]; exact hi)
    obtain ⟨l, hl, hle⟩ := hd.types _ hsp
    obtain ⟨t, ht⟩ := item_total (l := l) (i := i) (lt_of_lt_of_le hi hle)
    unfold CampbellData.pointAt CampbellData.modeType
    rw [ha, hb, hc, hl]
    simp only [bind, Except.bind, ht]
    exact ⟨_, rfl⟩
  obtain ⟨c, hc⟩ := hcrit
  obtain ⟨T, hT⟩ := mapM_total (l := List.range d.num_frequencies) fun i hi => hcol i (List.mem_range.1 hi)
  exact ⟨c, T, hc, hT⟩

/-- **C108** A complete diagram with speeds and frequencies is drawn for up to ten harmonics and the two names of damping
parameters, and for nothing else. -/
theorem C108_accepts (hd : FullDiagram d) (name : String) :
    (∃ fig, d.plot u harmonics name fr dr = .ok fig) ↔
      (name = "log_dec" ∨ name = "damping_ratio") ∧ d.speed_range ≠ [] ∧ d.num_frequencies ≠ 0 ∧ harmonics.length ≤ 10 := by
  constructor
  · rintro ⟨fig, h⟩
    obtain ⟨z', c, T, hz, hc, hT, h1, h2, h3, -⟩ := plot_ok h
    refine ⟨?_, h2, h3, h1⟩
    unfold CampbellData.dampingOf at hz
    split_ifs at hz with e1 e2
    · exact .inl e1
    · exact .inr e2
  · rintro ⟨hn, hs, hf, hh⟩
    obtain ⟨z, hz⟩ : ∃ z, CampbellData.dampingOf name = .ok z := by
      unfold CampbellData.dampingOf
      rcases hn with rfl | rfl
      · exact ⟨_, if_pos rfl⟩
      · exact ⟨_, by rw [if_neg (by decide), if_pos rfl]⟩
    obtain ⟨c, T, hc, hT⟩ := parts_total (harmonics := harmonics) (fr := fr) hd hs z
    unfold CampbellData.plot
    rw [hz, hc]
    simp only [bind, Except.bind, hT]
    rw [if_neg (by omega), if_neg (by tauto)]
    exact ⟨_, rfl⟩

/-- **C108** Another damping parameter raises `ValueError`; more than ten harmonics raise `IndexError`. -/
theorem C108_errors (hd : FullDiagram d) (name : String) {fig0 : List CampbellTrace} :
    (name ≠ "log_dec" → name ≠ "damping_ratio" → d.plot u harmonics name fr dr fig0 = .error .valueError) ∧
    (d.speed_range ≠ [] → 10 < harmonics.length → d.plot u harmonics (dampingName z) fr dr fig0 = .error .indexError) := by
  constructor
  · intro h1 h2
    unfold CampbellData.plot CampbellData.dampingOf
    rw [if_neg h1, if_neg h2]
    rfl
  · intro hs hh
    obtain ⟨c, T, hc, hT⟩ := parts_total (harmonics := harmonics) (fr := fr) hd hs z
    unfold CampbellData.plot
    rw [dampingOf_name, hc]
    simp only [bind, Except.bind, hT]
    rw [if_pos hh]

theorem computed_unique {k i : ℕ} {p q : CampbellPoint} (hp : Computed d z k i p) (hq : Computed d z k i q) : p = q := by
  obtain ⟨h1, ⟨row, h2, h3, h4, h5⟩, l, h6, h7⟩ := hp
  obtain ⟨g1, ⟨row', g2, g3, g4, g5⟩, l', g6, g7⟩ := hq
  have e1 : p.speed = q.speed := Option.some.inj (h1.symm.trans g1)
  obtain rfl := Option.some.inj (h2.symm.trans g2)
  have e2 : p.freq = q.freq := Option.some.inj (h3.symm.trans g3)
  have e3 : p.whirl = q.whirl := Option.some.inj (h4.symm.trans g4)
  have e4 : p.damping = q.damping := Option.some.inj (h5.symm.trans g5)
  rw [e1] at h6
  obtain rfl := Option.some.inj (h6.symm.trans g6)
  have e5 : p.type = q.type := Option.some.inj (h7.symm.trans g7)
  cases p
  cases q
  simp_all

theorem curves_unique {T T' : List (List CampbellPoint)} (h : Curves d z T) (h' : Curves d z T') : T = T' := by
  apply List.ext_getElem (by rw [h.length, h'.length])
  intro i hi hi'
  apply List.ext_getElem (by rw [h.points _ (List.getElem_mem hi), h'.points _ (List.getElem_mem hi')])
  intro k hk hk'
  exact computed_unique (h.computed i _ (List.getElem?_eq_getElem hi) k _ (List.getElem?_eq_getElem hk))
    (h'.computed i _ (List.getElem?_eq_getElem hi') k _ (List.getElem?_eq_getElem hk'))

theorem within_none (x : ℝ) : Within none x := fun _ _ h => by cases h

theorem kind_count (l : List CampbellPoint) (h : ∀ p ∈ l, p.whirl = 0 ∨ p.whirl = 1 / 2 ∨ p.whirl = 1) :
    ([.forward, .mixed, .backward, .axial, .torsional].map fun L : CampbellLegend =>
      (open Classical in l.filter fun p => decide (kind p.whirl p.type = some L)).length).sum = l.length := by
  classical
  induction l with
  | nil => rfl
  | cons p t ih =>
    have ih := ih fun q hq => h q (List.mem_cons_of_mem _ hq)
    simp only [List.map_cons, List.map_nil, List.sum_cons, List.sum_nil, List.length_cons] at ih ⊢
    have hk : ∃ L, kind p.whirl p.type = some L := by
      unfold kind
      cases p.type
      · rcases h p (List.mem_cons_self ..) with e | e | e <;> rw [e] <;> norm_num
      · exact ⟨_, rfl⟩
      · exact ⟨_, rfl⟩
    obtain ⟨L, hL⟩ := hk
    simp only [List.filter_cons, hL, Option.some.injEq]
    cases L <;> simp <;> omega

open Classical in
/-- **C108** Without ranges each frequency at each speed is drawn once: it is among the glyphs of its kind, and there are
as many glyphs as frequencies at all speeds together. -/
theorem C108_once (hr : d.rows.length = d.speed_range.length)
    (hd : d.number_dof = 6 ∨ ∀ w l, d.mode_types.lookup w = some l → ∀ t ∈ l, t = .lateral)
    (hw : ∀ row ∈ d.rows, ∀ v ∈ row.whirl_values, v = 0 ∨ v = 1 / 2 ∨ v = 1)
    (h : d.plot u harmonics (dampingName z) = .ok fig) :
    (∀ k i p, Computed d z k i p → i < d.num_frequencies → ∃ L ∈ CampbellLegend.all d.number_dof, kind p.whirl p.type = some L ∧
      (u * p.speed, u * p.freq, p.damping) ∈ glyphsOf L fig) ∧
    ((CampbellLegend.all d.number_dof).map fun L => (glyphsOf L fig).length).sum = d.num_frequencies * d.speed_range.length := by
  obtain ⟨T, hT, hlat⟩ := C108_lateral hr hd h
  have hmem : ∀ l ∈ T, ∀ p ∈ l, ∃ k i, Computed d z k i p ∧ i < d.num_frequencies := by
    intro l hl p hp
    obtain ⟨i, hi⟩ := List.mem_iff_getElem?.1 hl
    obtain ⟨k, hk⟩ := List.mem_iff_getElem?.1 hp
    exact ⟨k, i, hT.computed i l hi k p hk, by rw [← hT.length]; exact (List.getElem?_eq_some_iff.1 hi).1⟩
  have hwh : ∀ {k i p}, Computed d z k i p → p.whirl = 0 ∨ p.whirl = 1 / 2 ∨ p.whirl = 1 := by
    intro k i p hp
    obtain ⟨row, h1, -, h3, -⟩ := hp.row
    exact hw row (List.mem_of_getElem? h1) _ (List.mem_of_getElem? h3)
  have hgl : ∀ L ∈ CampbellLegend.all d.number_dof, glyphsOf L fig =
      T.flatMap fun l => (l.filter fun p => kind p.whirl p.type = some L).map fun p => (u * p.speed, u * p.freq, p.damping) := by
    intro L hL
    by_cases hc : L = .forward ∨ L = .mixed ∨ L = .backward
    · rw [hlat L hc]
      simp only [within_none, and_true, glyphsOf, List.flatMap_nil, List.nil_append]
    · have h6 : d.number_dof = 6 := by
        by_contra h6
        unfold CampbellLegend.all at hL
        rw [if_neg h6] at hL
        simp only [List.mem_cons, List.not_mem_nil, or_false] at hL
        exact hc hL
      obtain ⟨T', hT', hax⟩ := C108_axial hr h6 h
      obtain rfl := curves_unique hT hT'
      rw [hax L (by cases L <;> simp_all)]
      simp only [glyphsOf, List.flatMap_nil, List.nil_append]
  have hkind : ∀ {k i p}, Computed d z k i p → ∃ L ∈ CampbellLegend.all d.number_dof, kind p.whirl p.type = some L := by
    intro k i p hp
    rcases hd with h6 | hl
    · rw [h6]
      unfold kind CampbellLegend.all
      cases p.type
      · rcases hwh hp with e | e | e <;> rw [e] <;> norm_num
      · simp
      · simp
    · obtain ⟨l, h1, h2⟩ := hp.type
      rw [hl _ _ h1 _ (List.mem_of_getElem? h2)]
      have hm : ∀ L, L = .forward ∨ L = .mixed ∨ L = .backward → L ∈ CampbellLegend.all d.number_dof := by
        intro L hL
        unfold CampbellLegend.all
        rcases hL with rfl | rfl | rfl <;> split_ifs <;> simp
      unfold kind
      rcases hwh hp with e | e | e <;> rw [e]
      · exact ⟨.forward, hm _ (by simp), by norm_num⟩
      · exact ⟨.mixed, hm _ (by simp), by norm_num⟩
      · exact ⟨.backward, hm _ (by simp), by norm_num⟩
  constructor
  · intro k i p hp hi
    obtain ⟨L, hL, hk⟩ := hkind hp
    refine ⟨L, hL, hk, ?_⟩
    rw [hgl L hL, List.mem_flatMap]
    have hi' : i < T.length := by rw [hT.length]; exact hi
    have hk' : k < T[i].length := by
      rw [hT.points _ (List.getElem_mem hi')]
      exact (List.getElem?_eq_some_iff.1 hp.speed).1
    have e : T[i][k] = p :=
      computed_unique (hT.computed i _ (List.getElem?_eq_getElem hi') k _ (List.getElem?_eq_getElem hk')) hp
    refine ⟨T[i], List.getElem_mem _, List.mem_map.2 ⟨p, List.mem_filter.2 ⟨?_, by simpa using hk⟩, rfl⟩⟩
    rw [← e]
    exact List.getElem_mem _
  · have e1 : ((CampbellLegend.all d.number_dof).map fun L => (glyphsOf L fig).length).sum =
        ((CampbellLegend.all d.number_dof).map fun L =>
          (T.map fun l => (l.filter fun p => decide (kind p.whirl p.type = some L)).length).sum).sum := by
      congr 1
      refine List.map_congr_left fun L hL => ?_
      rw [hgl L hL, List.length_flatMap]
      simp
    have e2 : ∀ S : List (List CampbellPoint), (∀ l ∈ S, ∀ p ∈ l, ∃ k i, Computed d z k i p) →
        ((CampbellLegend.all d.number_dof).map fun L =>
          (S.map fun l => (l.filter fun p => decide (kind p.whirl p.type = some L)).length).sum).sum =
        (S.map List.length).sum := by
      intro S
      induction S with
      | nil => intro _; simp
      | cons l t ih =>
        intro hS
        have ih := ih fun l' hl' => hS l' (List.mem_cons_of_mem _ hl')
        simp only [List.map_cons, List.sum_cons]
        rw [List.sum_map_add, ih]
        congr 1
        rw [← kind_count l fun p hp => by
          obtain ⟨k, i, h⟩ := hS l (List.mem_cons_self ..) p hp
          exact hwh h]
        unfold CampbellLegend.all
        split_ifs with h6
        · rfl
        · have hz : ∀ L, L = .axial ∨ L = .torsional →
              (l.filter fun p => decide (kind p.whirl p.type = some L)).length = 0 := by
            intro L hL
            rw [List.length_eq_zero_iff, List.filter_eq_nil_iff]
            intro p hp
            obtain ⟨k, i, h⟩ := hS l (List.mem_cons_self ..) p hp
            obtain ⟨L', hL', e⟩ := hkind h
            rw [e, decide_eq_true_iff, Option.some.injEq]
            rintro rfl
            unfold CampbellLegend.all at hL'
            rw [if_neg h6] at hL'
            rcases hL with rfl | rfl <;> simp at hL'
          simp only [List.map_cons, List.map_nil, List.sum_cons, List.sum_nil]
          rw [hz .axial (.inl rfl), hz .torsional (.inr rfl)]
          simp only [add_zero]
    rw [e1, e2 T fun l hl p hp => by obtain ⟨k, i, h, -⟩ := hmem l hl p hp; exact ⟨k, i, h⟩]
    have e3 : T.map List.length = List.replicate T.length d.speed_range.length := by
      rw [List.eq_replicate_iff]
      refine ⟨by simp, fun n hn => ?_⟩
      rw [List.mem_map] at hn
      obtain ⟨l, hl, rfl⟩ := hn
      exact hT.points l hl
    rw [e3, List.sum_replicate, hT.length, smul_eq_mul]

theorem fill_mem {α : Type} {n : ℕ} {l r : List α} (h : fill n l = .ok r) {x : α} (hx : x ∈ r) : x ∈ l := by
  unfold fill at h
  split_ifs at h
  · rwa [Except.ok.inj h]
  · split at h
    · rw [← Except.ok.inj h] at hx
      rw [List.eq_of_mem_replicate hx]
      simp
    · cases h

theorem atIdx_mem {l r : List ℝ} {idx : List ℕ} (h : atIdx l idx = .ok r) {x : ℝ} (hx : x ∈ r) : x ∈ l := by
  obtain ⟨j, hj⟩ := List.mem_iff_getElem?.1 hx
  obtain ⟨i, -, hi⟩ := mapM_get' h hj
  exact List.mem_of_getElem? (item_ok_iff.1 hi)

theorem whirl_row {env : RunEnv} {f : ℕ} {type : String} {m : Modes} {row : CampbellRow} (h : campbellRow env f type m = .ok row)
    {v : ℝ} (hv : v ∈ row.whirl_values) : ∃ x, v = ModalResults.whirl_to_cmap x := by
  have key : v ∈ m.whirl.map ModalResults.whirl_to_cmap := by
    unfold campbellRow at h
    obtain ⟨row', hr, h⟩ := bindOk h
    obtain ⟨_, -, h⟩ := bindOk h
    obtain rfl := Except.ok.inj h
    unfold eitherRow at hr
    split_ifs at hr
    · unfold dampedRow at hr
      obtain ⟨_, -, hr⟩ := bindOk hr
      obtain ⟨_, -, hr⟩ := bindOk hr
      obtain ⟨_, -, hr⟩ := bindOk hr
      obtain ⟨l, hl, hr⟩ := bindOk hr
      obtain rfl := Except.ok.inj hr
      exact List.mem_of_mem_take (fill_mem hl hv)
    · unfold naturalRow at hr
      dsimp only at hr
      obtain ⟨_, -, hr⟩ := bindOk hr
      obtain ⟨_, -, hr⟩ := bindOk hr
      obtain ⟨_, -, hr⟩ := bindOk hr
      obtain ⟨l', hl', hr⟩ := bindOk hr
      obtain ⟨_, -, hr⟩ := bindOk hr
      obtain ⟨_, -, hr⟩ := bindOk hr
      obtain ⟨_, -, hr⟩ := bindOk hr
      obtain ⟨l, hl, hr⟩ := bindOk hr
      obtain rfl := Except.ok.inj hr
      exact atIdx_mem hl' (List.mem_of_mem_take (fill_mem hl hv))
  rw [List.mem_map] at key
  obtain ⟨x, -, rfl⟩ := key
  exact ⟨x, rfl⟩

/-- **C108** The Campbell diagram of a rotor with four degrees of freedom: every frequency of every mode asked for is drawn
once at every speed. -/
theorem C108_rotor {env : RunEnv} {r : Rotor} {speeds : List ℝ} {f : ℕ} {type : String} {c : Campbell}
    (hc : r.run_campbell env speeds f type = .ok c) (h4 : d.number_dof = 4) (hs : d.speed_range = c.speed_range)
    (hrow : d.rows = c.rows) (hn : d.num_frequencies = f)
    (hl : ∀ w l, d.mode_types.lookup w = some l → ∀ t ∈ l, t = .lateral)
    (h : d.plot u harmonics (dampingName z) = .ok fig) :
    (∀ k i p, Computed d z k i p → i < f → ∃ L, (L = .forward ∨ L = .mixed ∨ L = .backward) ∧ L.whirl = some p.whirl ∧
      (u * p.speed, u * p.freq, p.damping) ∈ glyphsOf L fig) ∧
    (glyphsOf .forward fig).length + (glyphsOf .mixed fig).length + (glyphsOf .backward fig).length = f * speeds.length := by
  obtain ⟨e1, e2, e3⟩ := C87_rows hc
  have hr : d.rows.length = d.speed_range.length := by rw [hs, hrow, e1, e2]
  have hw : ∀ row ∈ d.rows, ∀ v ∈ row.whirl_values, v = 0 ∨ v = 1 / 2 ∨ v = 1 := by
    intro row hm v hv
    rw [hrow] at hm
    obtain ⟨k, hk⟩ := List.mem_iff_getElem?.1 hm
    obtain ⟨j, hj⟩ := List.mem_iff_getElem?.1 hv
    have hk' : k < speeds.length := by rw [← e2]; exact (List.getElem?_eq_some_iff.1 hk).1
    obtain ⟨m, row', -, hrow', -, -, -, -, -, hcr⟩ := e3 k speeds[k] (List.getElem?_eq_getElem hk')
    obtain rfl := Option.some.inj (hk.symm.trans hrow')
    obtain ⟨x, rfl⟩ := whirl_row hcr hv
    cases x <;> simp [ModalResults.whirl_to_cmap]
  obtain ⟨h1, h2⟩ := C108_once hr (.inr hl) hw h
  rw [hn] at h1 h2
  have hall : CampbellLegend.all d.number_dof = [.forward, .mixed, .backward] := by
    rw [h4]; rfl
  rw [hall] at h1 h2
  constructor
  · intro k i p hp hi
    obtain ⟨L, hL, hk, hm⟩ := h1 k i p hp hi
    simp only [List.mem_cons, List.not_mem_nil, or_false] at hL
    exact ⟨L, hL, ((kind_lateral hL).1 hk).2, hm⟩
  · rw [hs, e1] at h2
    simp only [List.map_cons, List.map_nil, List.sum_cons, List.sum_nil] at h2
    omega

/-- A diagram of one curve with log. dec. and damping ratio zero and forward whirl. -/
def oneCurve (number_dof : ℕ) (t : ModeType) (l : List (ℝ × ℝ)) : CampbellData where
  speed_range := l.map Prod.fst
  rows := l.map fun x => ⟨[x.2], [0], [0], [0]⟩
  num_frequencies := 1
  number_dof := number_dof
  mode_types := l.map fun x => (x.1, [t])

theorem oneCurve_full (n : ℕ) (t : ModeType) (l : List (ℝ × ℝ)) : FullDiagram (oneCurve n t l) where
  rows := by simp [oneCurve]
  wd := by simp only [oneCurve, List.mem_map]; rintro _ ⟨_, -, rfl⟩; rfl
  log_dec := by simp only [oneCurve, List.mem_map]; rintro _ ⟨_, -, rfl⟩; rfl
  damping_ratio := by simp only [oneCurve, List.mem_map]; rintro _ ⟨_, -, rfl⟩; rfl
  whirl := by simp only [oneCurve, List.mem_map]; rintro _ ⟨_, -, rfl⟩; rfl
  types := by
    intro w hw
    refine ⟨[t], ?_, le_refl _⟩
    simp only [oneCurve] at hw ⊢
    induction l with
    | nil => cases hw
    | cons a s ih =>
      simp only [List.map_cons, List.lookup_cons]
      by_cases e : w = a.1
      · simp [e]
      · have : (w == a.1) = false := by simpa using e
        rw [this]
        refine ih ?_
        simpa [e] using hw

theorem oneCurve_curves {n : ℕ} {t : ModeType} {l : List (ℝ × ℝ)} {T : List (List CampbellPoint)}
    (h : Curves (oneCurve n t l) z T) : T = [l.map fun x => ⟨x.1, x.2, 0, 0, t⟩] := by
  refine curves_unique h ⟨rfl, ?_, ?_⟩
  · intro m hm
    rw [List.mem_singleton] at hm
    rw [hm]
    simp [oneCurve]
  · intro i m hi k p hk
    cases i with
    | succ i => cases hi
    | zero =>
      obtain rfl := Option.some.inj hi
      rw [List.getElem?_map, Option.map_eq_some_iff] at hk
      obtain ⟨x, hx, rfl⟩ := hk
      refine ⟨by simp [oneCurve, hx], ⟨⟨[x.2], [0], [0], [0]⟩, by simp [oneCurve, hx], rfl, rfl, by cases z <;> rfl⟩, ?_⟩
      obtain ⟨l', h1, h2⟩ := (oneCurve_full n t l).types x.1 (by
        simp only [oneCurve]; exact List.mem_map.2 ⟨x, List.mem_of_getElem? hx, rfl⟩)
      refine ⟨l', h1, ?_⟩
      have hl' : l' = [t] := by
        have : ∀ m : List (ℝ × ℝ), (m.map fun x => (x.1, [t])).lookup x.1 = some l' → l' = [t] := by
          intro m
          induction m with
          | nil => intro h; cases h
          | cons a s ih =>
            simp only [List.map_cons, List.lookup_cons]
            by_cases e : x.1 = a.1
            · simp [e, eq_comm]
            · have : (x.1 == a.1) = false := by simpa using e
              rw [this]
              exact ih
        exact this l h1
      rw [hl']; rfl

/-- **C108 is false** for axial modes: one of 5 rad/s is drawn although frequencies between 1 and 2 rad/s were asked for. -/
theorem C108_axial_false : ∃ d fig, FullDiagram d ∧ d.number_dof = 6 ∧
    d.plot 1 [1] "log_dec" (some (1, 2)) none = .ok fig ∧ (0, 5, 0) ∈ glyphsOf .axial fig ∧ ¬ Within (some (1, 2)) (5 : ℝ) := by
  have hf := oneCurve_full 6 .axial [(0, 5)]
  obtain ⟨fig, h⟩ := (C108_accepts (u := 1) (harmonics := [1]) (fr := some (1, 2)) (dr := none) hf "log_dec").2
    ⟨.inl rfl, by simp [oneCurve], one_ne_zero, by simp⟩
  refine ⟨_, fig, hf, rfl, h, ?_, fun hw => ?_⟩
  · obtain ⟨T, hT, hg⟩ := C108_axial (z := .log_dec) hf.rows rfl h
    rw [hg .axial (.inl rfl), oneCurve_curves hT]
    simp [glyphsOf, kind]
  · have := (hw 1 2 rfl).2
    norm_num at this

/-- **C108 is false** for critical speeds: one is marked although the damping of the mode is not in the range asked for, so
that nothing else is drawn of it. -/
theorem C108_damping_false : ∃ d fig, FullDiagram d ∧ d.plot 1 [1] "log_dec" none (some (5, 6)) = .ok fig ∧
    (1, 1) ∈ crosses fig ∧ (∀ L ∈ CampbellLegend.all d.number_dof, glyphsOf L fig = []) := by
  have hf := oneCurve_full 4 .lateral [(0, 1), (2, 1)]
  obtain ⟨fig, h⟩ := (C108_accepts (u := 1) (harmonics := [1]) (fr := none) (dr := some (5, 6)) hf "log_dec").2
    ⟨.inl rfl, by simp [oneCurve], one_ne_zero, by simp⟩
  refine ⟨_, fig, hf, h, ?_, fun L hL => ?_⟩
  · rw [C108_critical (z := .log_dec) hf.rows h]
    refine ⟨0, one_pos, [1, 1], rfl, ?_, 1, by simp, 0, 0, (1, 1), ?_, within_none _, by simp⟩
    · intro k x
      rcases k with _ | _ | k <;> simp [oneCurve]
    · refine ⟨by simp [oneCurve], by simp [oneCurve], ?_, ⟨1 / 2, by norm_num, by norm_num, ?_⟩, ⟨1 / 2, by norm_num, by norm_num, ?_⟩⟩
      · simp [oneCurve, Transversal]
      · simp [oneCurve]
      · simp [oneCurve]
  · have hl : ∀ w l, (oneCurve 4 .lateral [(0, 1), (2, 1)]).mode_types.lookup w = some l → ∀ t ∈ l, t = .lateral := by
      intro w l hl t ht
      simp only [oneCurve, List.map_cons, List.map_nil, List.lookup_cons, List.lookup_nil] at hl
      split at hl
      · obtain rfl := Option.some.inj hl; simpa using ht
      · split at hl
        · obtain rfl := Option.some.inj hl; simpa using ht
        · cases hl
    obtain ⟨T, hT, hg⟩ := C108_lateral (z := .log_dec) hf.rows (.inr hl) h
    rw [hg L (by simpa [CampbellLegend.all, oneCurve] using hL), oneCurve_curves hT]
    have : ¬ Within (some (5, 6)) (0 : ℝ) := fun hw => by
      have := (hw 5 6 rfl).1
      norm_num at this
    simp [glyphsOf, this]

/-- **C108** If critical speeds are marked in a new figure, the further modal analyses of a diagram with mode shapes are
those at the critical speeds marked. -/
theorem C108_extra_partial {name : String} (h : d.plot u harmonics name fr dr = .ok fig) (hx : crosses fig ≠ []) :
    CampbellData.extraSpeeds u fig = (crosses fig).map fun p => p.1 / u := by
  obtain ⟨c, hc, e⟩ := crosses_plot h
  obtain ⟨z', c', T, hz, hc', hT, -, -, -, rfl⟩ := plot_ok h
  obtain rfl := Except.ok.inj (hc.symm.trans hc')
  have hne : c ≠ [] := by
    rintro rfl
    rw [e] at hx
    exact hx (by simp [crosses])
  rw [e]
  unfold CampbellData.critTrace
  rw [if_neg hne]
  simp [CampbellData.extraSpeeds, CampbellData.traceX, crosses]

/-- **C108 is false** for the further modal analyses if no critical speed is marked: they are then run at speeds of the
diagram. -/
theorem C108_extra_false : ∃ d fig, FullDiagram d ∧ d.plot 1 = .ok fig ∧ crosses fig = [] ∧
    CampbellData.extraSpeeds 1 fig = [2] := by
  have hf := oneCurve_full 4 .lateral [(2, 1)]
  obtain ⟨fig, h⟩ := (C108_accepts (u := 1) (harmonics := [1]) (fr := none) (dr := none) hf "log_dec").2
    ⟨.inl rfl, by simp [oneCurve], one_ne_zero, by simp⟩
  obtain ⟨c, hc, e⟩ := crosses_plot h
  have hcr : crosses fig = [] := by
    rw [List.eq_nil_iff_forall_not_mem]
    intro q hq
    rw [C108_critical (z := .log_dec) hf.rows h] at hq
    obtain ⟨i, hi, w, hw, -, s, hs, a, b, p, ⟨ha, hb, -⟩, -⟩ := hq
    simp [oneCurve] at hb
  refine ⟨_, fig, hf, h, hcr, ?_⟩
  obtain ⟨z', c', T, hz, hc', hT, -, -, -, rfl⟩ := plot_ok h
  obtain rfl := Except.ok.inj (hc.symm.trans hc')
  have hce : c = [] := by
    rw [hcr] at e
    simpa [crosses] using e.symm
  have hT1 := oneCurve_curves (curves_ok hf.rows hT)
  rw [hce, hT1]
  simp [CampbellData.critTrace, oneCurve, CampbellLegend.all, CampbellData.glyphs, CampbellData.masked, CampbellData.glyphTrace,
    CampbellLegend.names, CampbellLegend.whirl, CampbellData.inside, CampbellData.extraSpeeds, CampbellData.traceX]

/-- **C108** A click on a damped frequency of a diagram shows a mode with that frequency. -/
theorem C108_click_partial (hu : u ≠ 0) {wd : List ℝ} {f : ℝ} (hf : f ∈ wd) :
    ∃ i, CampbellData.clicked u wd (u * f) = .ok i ∧ wd[i]? = some f := by
  unfold CampbellData.clicked
  rw [if_neg (List.ne_nil_of_mem hf), mul_div_cancel_left₀ f hu]
  refine ⟨_, rfl, ?_⟩
  unfold argmin
  obtain ⟨h1, h2, -⟩ := OrbitLemmas.argmax_of_pos (fun i => -|wd.getD i 0 - f|) wd.length (List.length_pos_of_mem hf)
  obtain ⟨j, hj⟩ := List.mem_iff_getElem?.1 hf
  have h3 := h2 j (List.getElem?_eq_some_iff.1 hj).1
  have e : wd.getD j 0 = f := by rw [List.getD_eq_getElem?_getD, hj]; rfl
  simp only [e, sub_self, abs_zero, neg_zero] at h3
  have h4 : |wd.getD (argmax (fun i => -|wd.getD i 0 - f|) wd.length) 0 - f| = 0 :=
    le_antisymm (by linarith) (abs_nonneg _)
  rw [abs_eq_zero, sub_eq_zero, List.getD_eq_getElem?_getD, List.getElem?_eq_getElem h1] at h4
  rw [List.getElem?_eq_getElem h1]
  simpa using h4

open Classical in
/-- **C108 is false** for diagrams of natural frequencies: there may be an underdamped axial mode of 13 rad/s and lateral
mode of 10 rad/s such that the diagram draws the frequency of the lateral mode as axial, and a click on the frequency of the
axial mode shows the lateral one. -/
theorem C108_natural_false {env : RunEnv} (ha : ArgsortOk env.argsort) : ∃ (m : Modes) (types : List ModeType) (row : CampbellRow)
    (fig : List CampbellTrace), m.wn = [13, 10] ∧ m.wd = [5, 8] ∧ m.damping_ratio = [12 / 13, 6 / 10] ∧
      (m.wd = List.zipWith (fun w ζ => w * √(1 - ζ ^ 2)) m.wn m.damping_ratio) ∧ types = [.axial, .lateral] ∧
      campbellRow env 2 "wn" m = .ok row ∧ row.wd = [10, 13] ∧
      (⟨[0], [row], 2, 6, [(0, types)]⟩ : CampbellData).plot 1 = .ok fig ∧ (∃ z, (0, 10, z) ∈ glyphsOf .axial fig) ∧
      CampbellData.clicked 1 m.wd (1 * 13) = .ok 1 := by
  have hs : env.argsort [13, 10] = [1, 0] := by
    rcases List.perm_pair.1 (ha.perm [13, 10]) with e | e
    · have := ha.sorted [13, 10]
      rw [e] at this
      norm_num at this
    · exact e
  obtain ⟨row, hrow⟩ : ∃ row : CampbellRow, row = ⟨[10, 13], [1, 1], [6 / 10, 12 / 13], [0, 0]⟩ := ⟨_, rfl⟩
  have hf : FullDiagram (⟨[0], [row], 2, 6, [(0, [.axial, .lateral])]⟩ : CampbellData) := by
    refine ⟨rfl, ?_, ?_, ?_, ?_, ?_⟩
    · simp [hrow]
    · simp [hrow]
    · simp [hrow]
    · simp [hrow]
    · intro w hw
      rw [List.mem_singleton] at hw
      exact ⟨[.axial, .lateral], by simp [hw], le_refl _⟩
  obtain ⟨fig, h⟩ := (C108_accepts (u := 1) (harmonics := [1]) (fr := none) (dr := none) hf "log_dec").2
    ⟨.inl rfl, by simp, two_ne_zero, by simp⟩
  refine ⟨⟨[13, 10], [5, 8], [12 / 13, 6 / 10], [1, 1], [.forward, .forward]⟩, _, row, fig, rfl, rfl, rfl, ?_, rfl, ?_, by rw [hrow], h,
    ⟨1, ?_⟩, ?_⟩
  · have e1 : √(1 - (12 / 13 : ℝ) ^ 2) = 5 / 13 := by
      rw [show (1 - (12 / 13 : ℝ) ^ 2) = (5 / 13) ^ 2 by norm_num, Real.sqrt_sq (by norm_num)]
    have e2 : √(1 - (6 / 10 : ℝ) ^ 2) = 8 / 10 := by
      rw [show (1 - (6 / 10 : ℝ) ^ 2) = (8 / 10) ^ 2 by norm_num, Real.sqrt_sq (by norm_num)]
    simp only [List.zipWith_cons_cons, List.zipWith_nil_left, e1, e2]
    norm_num
  · unfold campbellRow eitherRow naturalRow
    rw [if_neg (by decide)]
    simp only [hs, hrow]
    rfl
  · obtain ⟨T, hT, hg⟩ := C108_axial (z := .log_dec) hf.rows rfl h
    have hp : Computed (⟨[0], [row], 2, 6, [(0, [.axial, .lateral])]⟩ : CampbellData) .log_dec 0 0 ⟨0, 10, 0, 1, .axial⟩ :=
      ⟨rfl, ⟨row, rfl, by simp [hrow], by simp [hrow], by simp [hrow]⟩, [.axial, .lateral], by simp, rfl⟩
    have h0 : 0 < T.length := by rw [hT.length]; exact two_pos
    have h0' : 0 < T[0].length := by rw [hT.points _ (List.getElem_mem h0)]; exact one_pos
    have e : T[0][0] = ⟨0, 10, 0, 1, .axial⟩ :=
      computed_unique (hT.computed 0 _ (List.getElem?_eq_getElem h0) 0 _ (List.getElem?_eq_getElem h0')) hp
    rw [hg .axial (.inl rfl)]
    refine List.mem_append_right _ (List.mem_flatMap.2 ⟨T[0], List.getElem_mem _, List.mem_map.2 ⟨T[0][0], ?_, ?_⟩⟩)
    · rw [List.mem_filter]
      exact ⟨List.getElem_mem _, by rw [e]; simp [kind]⟩
    · rw [e]; norm_num
  · unfold CampbellData.clicked argmin argmax
    rw [if_neg (by simp)]
    norm_num [List.range_succ, abs_of_neg]

/-- Case: the diagram of a rotor at three speeds, with a range, drawn in rpm. -/
example : ∃ env r c d fig, Rotor.init env.pd env.fuel (twoArgs 0 0) = some (.ok r) ∧
    r.run_campbell env [0, 50, 50, 100] 2 "wd" = .ok c ∧ FullDiagram d ∧ d.number_dof = 4 ∧ d.speed_range = c.speed_range ∧
    d.rows = c.rows ∧ d.num_frequencies = 2 ∧ (∀ w l, d.mode_types.lookup w = some l → ∀ t ∈ l, t = .lateral) ∧
    d.plot (30 / Real.pi) [1, 2] (dampingName .damping_ratio) (some (0, 1000)) none = .ok fig ∧
    (200 * (30 / Real.pi) / 4, 100 * (30 / Real.pi)) ∈ crosses fig := by
  obtain ⟨env, r, c, c', ha, h1, h2, -, h4, -⟩ := campbell_two
  obtain ⟨e1, e2, e3⟩ := C87_rows h2
  have hmem : ∀ row ∈ c.rows, row.wd.length = 2 ∧ row.log_dec.length = 2 ∧ row.damping_ratio.length = 2 ∧
      row.whirl_values.length = 2 := by
    intro row hrow
    obtain ⟨k, hk⟩ := List.mem_iff_getElem?.1 hrow
    have hk' : k < ([0, 50, 50, 100] : List ℝ).length := by rw [← e2]; exact (List.getElem?_eq_some_iff.1 hk).1
    obtain ⟨m, row', -, hr', -, g1, g2, g3, g4, -⟩ := e3 k _ (List.getElem?_eq_getElem hk')
    obtain rfl := Option.some.inj (hk.symm.trans hr')
    exact ⟨g1, g2, g3, g4⟩
  have hlk : ∀ (l : List ℝ) w, w ∈ l → (l.map fun x => (x, [ModeType.lateral, .lateral])).lookup w = some [.lateral, .lateral] := by
    intro l w hw
    induction l with
    | nil => cases hw
    | cons a s ih =>
      simp only [List.map_cons, List.lookup_cons]
      by_cases e : w = a
      · simp [e]
      · have : (w == a) = false := by simpa using e
        rw [this]
        exact ih (by simpa [e] using hw)
  have hlk' : ∀ (l : List ℝ) w x, (l.map fun x => (x, [ModeType.lateral, .lateral])).lookup w = some x → x = [.lateral, .lateral] := by
    intro l w x
    induction l with
    | nil => intro h; cases h
    | cons a s ih =>
      simp only [List.map_cons, List.lookup_cons]
      by_cases e : w = a
      · simp [e, eq_comm]
      · have : (w == a) = false := by simpa using e
        rw [this]
        exact ih
  obtain ⟨d, hd⟩ : ∃ d : CampbellData, d = ⟨c.speed_range, c.rows, 2, 4, c.speed_range.map fun x => (x, [.lateral, .lateral])⟩ := ⟨_, rfl⟩
  have hf : FullDiagram d := by
    rw [hd]
    refine ⟨by rw [e1, e2], fun row h => (hmem row h).1, fun row h => (hmem row h).2.1, fun row h => (hmem row h).2.2.1,
      fun row h => (hmem row h).2.2.2, fun w hw => ⟨_, hlk _ w hw, le_refl _⟩⟩
  obtain ⟨fig, h⟩ := (C108_accepts (u := 30 / Real.pi) (harmonics := [1, 2]) (fr := some (0, 1000)) (dr := none) hf
    (dampingName .damping_ratio)).2 ⟨.inr rfl, by rw [hd, e1]; simp, by rw [hd]; exact two_ne_zero, by simp⟩
  refine ⟨env, r, c, d, fig, h1, h2, hf, by rw [hd], by rw [hd], by rw [hd], by rw [hd], ?_, h, ?_⟩
  · intro w l hl t ht
    rw [hd] at hl
    rw [hlk' _ _ _ hl] at ht
    simpa using ht
  · rw [C108_critical hf.rows h]
    have hwd : ∀ (k : ℕ) x, ([100, 100, 100, 100] : List ℝ)[k]? = some x ↔
        ∃ row, d.rows[k]? = some row ∧ row.wd[0]? = some x := by
      intro k x
      have e5 : ([[100, -100], [100, -100], [100, -100], [100, -100]] : List (List ℝ))[k]? = (c.rows[k]?).map CampbellRow.wd := by
        rw [← List.getElem?_map, h4]
      have e6 : (∃ row, d.rows[k]? = some row ∧ row.wd[0]? = some x) ↔
          ∃ l, ([[100, -100], [100, -100], [100, -100], [100, -100]] : List (List ℝ))[k]? = some l ∧ l[0]? = some x := by
        rw [e5, hd]
        constructor
        · rintro ⟨row, g1, g2⟩
          exact ⟨row.wd, by rw [g1]; rfl, g2⟩
        · rintro ⟨l, g1, g2⟩
          rw [Option.map_eq_some_iff] at g1
          obtain ⟨row, g1, rfl⟩ := g1
          exact ⟨row, g1, g2⟩
      rw [e6]
      rcases k with _ | _ | _ | _ | k <;> simp
    have hsp : d.speed_range = [0, 50, 50, 100] := by rw [hd, e1]
    refine ⟨0, by rw [hd]; exact two_pos, [100, 100, 100, 100], by rw [hsp]; rfl, hwd, 2, by simp, 0, 0, (50, 100), ?_, ?_, ?_⟩
    · rw [hsp]
      refine ⟨by simp, by simp, ?_, ⟨1, by norm_num, by norm_num, ?_⟩, ⟨1, by norm_num, by norm_num, ?_⟩⟩
      · norm_num [Transversal]
      · norm_num
      · norm_num
    · rintro a b ⟨⟩
      norm_num
    · simp only [Prod.mk.injEq]
      constructor <;> ring

end Ross.Props
