import Verif.Lemmas.StPlots
import Verif.Props.Readout
import Verif.Props.StRotor

/-!
# C116: the curves of random results
-/

namespace Ross.Props

open Ross Ross.Spec Ross.Rotor Ross.RotorLemmas Ross.ReadoutLemmas Ross.Stochastic Ross.StPlotsLemmas

/-! ### C116: any quantity -/

/-- C116: a figure shows the mean of the samples at every point, one percentile curve for each percentage in increasing
order, and one band for each confidence interval.  It is drawn when the percentages are between 0 and 100 and there is a
color for each of them, and there are samples; it is not drawn with too many percentages. -/
theorem C116_curves (kp kc : Option ℕ) (x : List ℝ) {f : ℝ} (hf : 0 ≤ f) (rows : List (List ℝ))
    (percentile conf : List ℝ) :
    (∀ fig, statFigure kp kc x f rows percentile conf = .ok fig →
      Shows fig x (rows.map fun s => s.map (f * ·)) percentile conf ∧
      (∀ n, kp = some n → percentile.length ≤ n) ∧ (∀ n, kc = some n → conf.length ≤ n)) ∧
    ((∀ s ∈ rows, s ≠ []) → Percentages kp percentile → Percentages kc conf →
      ∃ fig, statFigure kp kc x f rows percentile conf = .ok fig) := by
  refine ⟨fun fig h => ⟨statFigure_shows hf h, ?_⟩, fun hr hp hc => statFigure_exists hr hp hc⟩
  obtain ⟨ps, h1, h⟩ := bindOk h
  obtain ⟨bs, h2, h⟩ := bindOk h
  constructor
  · rintro n rfl
    rw [← (npSort_perm percentile).length_eq]
    exact forEach_short h1
  · rintro n rfl
    rw [← (npSort_perm conf).length_eq]
    exact forEach_short h2

/-- C116: bands are closed curves, as long above as below, and the upper limit is not below the lower one. -/
theorem C116_band {rows : List (List ℝ)} {p : ℝ} {l : List ℝ} (hp : 0 ≤ p) (h : BandOf rows p l) :
    ∃ up low : List ℝ, l = up ++ low.reverse ∧ up.length = rows.length ∧ low.length = rows.length ∧
      List.Forall₂ (· ≤ ·) low up := by
  obtain ⟨up, low, rfl, h1, h2⟩ := h
  refine ⟨up, low, rfl, (List.Forall₂.length_eq h1).symm, (List.Forall₂.length_eq h2).symm, ?_⟩
  unfold PercentileOf at h1 h2
  induction rows generalizing up low with
  | nil => cases h1; cases h2; exact .nil
  | cons s rows ih =>
    cases h1 with
    | cons a1 b1 =>
      cases h2 with
      | cons a2 b2 =>
        refine .cons ?_ (ih _ _ b1 b2)
        rcases eq_or_ne s [] with rfl | hs
        · unfold percentile at a1
          split_ifs at a1
          simp at a1
        · exact (C72_percentile hs).2.1 _ _ _ _ a2 a1 (by linarith)

/-- Three samples at two speeds: a median and a band. -/
example : (∀ s ∈ [[(1 : ℝ), 3, 2], [4, 6, 5]], s ≠ []) ∧ Percentages (some 24) [50] ∧ Percentages (some 24) [100] ∧
    percentile [1, 3, 2] 50 = .ok 2 := by
  refine ⟨by simp, ⟨by simp; norm_num, by simp⟩, ⟨by simp, by simp⟩, ?_⟩
  have hs : ([1, 3, 2] : List ℝ).mergeSort (fun a b => decide (a ≤ b)) = [1, 2, 3] := by
    apply List.Perm.eq_of_pairwise (le := (· ≤ ·)) (fun a b _ _ h h' => le_antisymm h h')
    · exact npSort_le _
    · norm_num
    · exact (List.mergeSort_perm _ _).trans (List.Perm.cons _ (List.Perm.swap _ _ _))
  unfold percentile
  rw [if_neg (by norm_num), hs]
  norm_num

/-! ### C116: Campbell diagrams -/

theorem mapM_spec {α β : Type} {f : α → Res β} {is : α → β → Prop} {l : List α}
    (h : ∀ a ∈ l, ∃ b, f a = .ok b ∧ is a b) : ∃ r, l.mapM f = .ok r ∧ List.Forall₂ is l r := by
  induction l with
  | nil => exact ⟨[], rfl, .nil⟩
  | cons a l ih =>
    obtain ⟨b, hb, hi⟩ := h a List.mem_cons_self
    obtain ⟨r, hr, hf⟩ := ih fun a ha => h a (List.mem_cons_of_mem _ ha)
    exact ⟨b :: r, by rw [List.mapM_cons, hb, hr]; rfl, .cons hi hf⟩

theorem zipIdx_spec {α β : Type} {f : α × ℕ → Res β} {is : α → β → Prop} {l : List α}
    (h : ∀ a i, a ∈ l → i < l.length → ∃ b, f (a, i) = .ok b ∧ is a b) :
    ∃ r, l.zipIdx.mapM f = .ok r ∧ List.Forall₂ is l r := by
  obtain ⟨r, h1, h2⟩ := mapM_spec (f := f) (is := fun q b => is q.1 b) (l := l.zipIdx) fun q hq => by
    obtain ⟨h1, h2⟩ := List.mem_zipIdx' (x := q.1) (i := q.2) hq
    exact h q.1 q.2 (h2 ▸ List.getElem_mem _) h1
  refine ⟨r, h1, ?_⟩
  have : l = l.zipIdx.map Prod.fst := by simp
  rw [this, List.forall₂_map_left_iff]
  exact h2

theorem modeFigures_spec (x : List ℝ) {modes : List (List (List ℝ))} {percentile conf : List ℝ}
    (hm : modes.length ≤ 24) (hs : ∀ m ∈ modes, ∀ s ∈ m, s ≠ []) (hp : Percentages none percentile)
    (hc : Percentages none conf) :
    ∃ figs, modeFigures x modes percentile conf = .ok figs ∧
      List.Forall₂ (fun m fig => Shows fig x m percentile conf) modes figs := by
  refine zipIdx_spec fun m i hmem hi => ?_
  obtain ⟨fig, hfig⟩ := statFigure_exists (f := 1) (x := x) (hs m hmem) hp hc
  refine ⟨fig, ?_, ?_⟩
  · have : hue (some 24) i = .ok () := if_pos (by omega)
    simp only
    rw [this, ShapeLemmas.ok_bind]
    exact hfig
  · have := statFigure_shows zero_le_one hfig
    rwa [one_scale] at this

/-- C116: the Campbell diagram has a line for every harmonic and, for every mode, the statistics of its damped natural
frequencies against the speed, all of them in the units of the frequency. -/
theorem C116_nat_freq (c : StCampbell) (u : ℝ) {percentile conf harmonics : List ℝ} (hm : c.wd.length ≤ 24)
    (hh : harmonics.length ≤ 24) (hs : ∀ m ∈ c.wd, ∀ s ∈ m, s ≠ []) (hp : Percentages none percentile)
    (hc : Percentages none conf) :
    ∃ lines figs, stNatFreq c u percentile conf harmonics = .ok (lines, figs) ∧
      lines = harmonics.map (fun h => ⟨c.speed_range.map (u * ·), c.speed_range.map fun w => h * (u * w)⟩) ∧
      List.Forall₂ (fun m fig => Shows fig (c.speed_range.map (u * ·)) (m.map fun s => s.map (u * ·)) percentile conf)
        c.wd figs := by
  obtain ⟨figs, h1, h2⟩ := modeFigures_spec (c.speed_range.map (u * ·))
    (modes := c.wd.map fun m => m.map fun s => s.map (u * ·)) (by simpa using hm) (by
      intro m hm s hs'
      obtain ⟨m, hm', rfl⟩ := List.mem_map.1 hm
      obtain ⟨s, hs'', rfl⟩ := List.mem_map.1 hs'
      simpa using hs m hm' s hs'') hp hc
  obtain ⟨lines, h3⟩ := forEach_exists (k := some 24) (curve := fun h => (pure
    (⟨c.speed_range.map (u * ·), (c.speed_range.map (u * ·)).map (· * h)⟩ : Curve) : Res Curve)) (ps := harmonics)
    (fun p _ => ⟨_, rfl⟩) (fun n hn => by cases hn; exact hh)
  refine ⟨lines, figs, ?_, ?_, ?_⟩
  · unfold stNatFreq
    simp only
    rw [h3, ShapeLemmas.ok_bind, h1]
    rfl
  · have := forEach_ok h3
    clear h1 h2 h3 hh
    induction this with
    | nil => rfl
    | cons hab _ ih =>
      rw [List.map_cons, ← ih, ← Except.ok.inj hab]
      simp [Function.comp_def, mul_comm]
  · rw [List.forall₂_map_left_iff] at h2
    exact h2

/-- C116: so do the logarithmic decrements, which have no units. -/
theorem C116_log_dec (c : StCampbell) (u : ℝ) {percentile conf : List ℝ} (hm : c.log_dec.length ≤ 24)
    (hs : ∀ m ∈ c.log_dec, ∀ s ∈ m, s ≠ []) (hp : Percentages none percentile) (hc : Percentages none conf) :
    ∃ figs, stLogDec c u percentile conf = .ok figs ∧
      List.Forall₂ (fun m fig => Shows fig (c.speed_range.map (u * ·)) m percentile conf) c.log_dec figs :=
  modeFigures_spec _ hm hs hp hc

/-! ### C116: frequency responses -/

/-- The displacements, velocities or accelerations of the samples. -/
def StFreqResp.asked (s : StFreqResp) : RespKind → List (List ℂ)
  | .displacement => s.freq_resp
  | .velocity => s.velc_resp
  | .acceleration => s.accl_resp

/-- C116: the magnitudes and phases of the displacements, velocities or accelerations, as the units ask, against the
frequency. -/
theorem C116_bode (s : StFreqResp) (u : ℝ) {k : RespKind} {f : ℝ} (ph : PhaseUnits)
    {percentile conf : List ℝ} (hs : ∀ l ∈ StFreqResp.asked s k, l ≠ []) (hp : Percentages (some 24) percentile)
    (hc : Percentages (some 24) conf) :
    (∃ fig, stFreqMagnitude s u ⟨some k, f⟩ percentile conf = .ok fig ∧
      Shows fig (s.speed_range.map (u * ·)) ((StFreqResp.asked s k).map fun l => l.map fun z => f * ‖z‖)
        percentile conf) ∧
    (∃ fig, stFreqPhase s u ⟨some k, f⟩ ph percentile conf = .ok fig ∧
      Shows fig (s.speed_range.map (u * ·)) ((StFreqResp.asked s k).map fun l => l.map fun z =>
        ph.factor * Complex.arg z) percentile conf) := by
  have hk : s.get (some k) = .ok (StFreqResp.asked s k) := by cases k <;> rfl
  have hne : ∀ g : ℂ → ℝ, ∀ l ∈ (StFreqResp.asked s k).map fun l => l.map g, l ≠ [] := by
    intro g l hl
    obtain ⟨l, hl', rfl⟩ := List.mem_map.1 hl
    simpa using hs l hl'
  constructor
  · obtain ⟨fig, hfig⟩ := statFigure_exists (f := 1) (x := s.speed_range.map (u * ·)) (hne fun z => f * ‖z‖) hp hc
    refine ⟨fig, ?_, ?_⟩
    · unfold stFreqMagnitude
      rw [hk]
      exact hfig
    · have := statFigure_shows zero_le_one hfig
      rwa [one_scale] at this
  · obtain ⟨fig, hfig⟩ := statFigure_exists (f := 1) (x := s.speed_range.map (u * ·))
      (hne fun z => ph.factor * Complex.arg z) hp hc
    refine ⟨fig, ?_, ?_⟩
    · unfold stFreqPhase
      rw [hk]
      exact hfig
    · have := statFigure_shows zero_le_one hfig
      rwa [one_scale] at this

/-- C116 is false for phases: they are averaged as numbers between `-π` and `π`.  Of two responses that are both
opposite to the force, the mean phase is drawn as zero, in the direction of the force. -/
theorem C116_phase_false : ∃ s fig, stFreqPhase s 1 ⟨some .displacement, 1⟩ ⟨true, 1⟩ [] [] = .ok fig ∧
    s.freq_resp = [[⟨-1, 1⟩, ⟨-1, -1⟩]] ∧ fig.mean.y = [0] := by
  refine ⟨⟨[0], [[⟨-1, 1⟩, ⟨-1, -1⟩]], [], []⟩, _, statFigure_nil, rfl, ?_⟩
  have h : (⟨-1, -1⟩ : ℂ) = (starRingEnd ℂ) ⟨-1, 1⟩ := by simp [Complex.ext_iff]
  have harg : Complex.arg ⟨-1, -1⟩ = -Complex.arg ⟨-1, 1⟩ := by
    rw [h, Complex.arg_conj, if_neg]
    rw [Complex.arg_eq_pi_iff]
    simp
  simp [meanRows, mean, harg]

/-- C116: the polar diagram has the statistics of the magnitudes as radii and those of the phases as angles; with phases
in radians the curves and the axis agree on the unit. -/
theorem C116_polar_partial (s : StFreqResp) {k : RespKind} {f : ℝ} (ph : PhaseUnits) {percentile conf : List ℝ}
    (hs : ∀ l ∈ StFreqResp.asked s k, l ≠ []) (hp : Percentages (some 24) percentile) (hc : Percentages (some 24) conf) :
    ∃ p, stFreqPolar s ⟨some k, f⟩ ph percentile conf = .ok p ∧
      ShowsBoth p.fig ((StFreqResp.asked s k).map fun l => l.map fun z => f * ‖z‖)
        ((StFreqResp.asked s k).map fun l => l.map fun z => ph.factor * Complex.arg z) percentile conf ∧
      p.axis_radian = ph.radian ∧ (ph.radian = true → p.traces_radian = true) := by
  have hk : s.get (some k) = .ok (StFreqResp.asked s k) := by cases k <;> rfl
  have hne : ∀ g : ℂ → ℝ, ∀ l ∈ (StFreqResp.asked s k).map fun l => l.map g, l ≠ [] := by
    intro g l hl
    obtain ⟨l, hl', rfl⟩ := List.mem_map.1 hl
    simpa using hs l hl'
  obtain ⟨fig, hfig⟩ := statPair_exists (fx := 1) (fy := 1) (hne fun z => f * ‖z‖)
    (hne fun z => ph.factor * Complex.arg z) hp hc
  refine ⟨⟨fig, true, ph.radian⟩, ?_, ?_, rfl, fun _ => rfl⟩
  · unfold stFreqPolar
    simp only
    rw [hk, ShapeLemmas.ok_bind, hfig]
    rfl
  · have := statPair_shows zero_le_one zero_le_one hfig
    rwa [one_scale, one_scale] at this

/-- C116 is false for phases in degrees: the curves of the polar diagram say that their angles are radians, so that the
response `i` of one sample, at 90 degrees, is drawn in another direction. -/
theorem C116_polar_false : ∃ s p, stFreqPolar s ⟨some .displacement, 1⟩ ⟨false, 180 / Real.pi⟩ [] [] = .ok p ∧
    s.freq_resp = [[Complex.I]] ∧ p.traces_radian = true ∧ p.axis_radian = false ∧ p.fig.mean = ⟨[1], [90]⟩ ∧
    Complex.exp (90 * Complex.I) ≠ Complex.I := by
  refine ⟨⟨[0], [[Complex.I]], [], []⟩, ⟨⟨⟨(meanRows [[1 * ‖Complex.I‖]]).map (1 * ·),
    (meanRows [[180 / Real.pi * Complex.arg Complex.I]]).map (1 * ·)⟩, [], []⟩, true, false⟩, ?_, rfl, rfl, rfl, ?_, ?_⟩
  · unfold stFreqPolar
    simp only [StFreqResp.get]
    rw [ShapeLemmas.ok_bind, statPair_nil]
    rfl
  · have : 180 / Real.pi * (Real.pi / 2) = 90 := by
      have := Real.pi_ne_zero
      field_simp
      norm_num
    simp [meanRows, mean, this]
  · intro h
    have hI : Complex.I = Complex.exp ((Real.pi / 2 : ℝ) * Complex.I) := by
      push_cast
      rw [Complex.exp_pi_div_two_mul_I]
    rw [hI, Complex.exp_eq_exp_iff_exists_int] at h
    obtain ⟨n, hn⟩ := h
    have hr : (90 : ℝ) = Real.pi / 2 + n * (2 * Real.pi) := by
      have := congrArg Complex.im hn
      simpa using this
    have h1 := Real.pi_gt_d2
    have h2 := Real.pi_lt_d2
    rcases le_or_gt n 14 with hn14 | hn14
    · have : (n : ℝ) ≤ 14 := by exact_mod_cast hn14
      nlinarith
    · have : (15 : ℝ) ≤ n := by exact_mod_cast hn14
      nlinarith

/-! ### C116: time responses -/

variable {pd : Pandas} {fuel : ℕ} {a : RotorArgs} {r : Rotor} {six : Bool} {N : ℕ}

/-- C116: for every probe, the statistics of the motion of its node in its direction, against the time. -/
theorem C116_probes_partial (hs : SortsRows pd) (hw : WellFormed six N a) (h : init pd fuel a = some (.ok r))
    {probe : List (ℕ × ℝ)} (hn : ∀ p ∈ probe, Readable a N p.1) {t : List ℝ} {yout : List (List (Fin r.ndof → ℝ))}
    (h0 : yout ≠ []) (hl : ∀ y ∈ yout, y.length = t.length) (ut : ℝ) {ud : ℝ} (hud : 0 ≤ ud)
    {percentile conf : List ℝ} (hp : Percentages none percentile) (hc : Percentages (some 24) conf) :
    ∃ figs, stTime1d r t yout ut ud probe percentile conf = .ok figs ∧
      List.Forall₂ (fun p fig => Shows fig (t.map (ut * ·)) (over t.length yout fun y =>
        ud * (Real.cos p.2 * motion r.number_dof N y ("x", p.1) + Real.sin p.2 * motion r.number_dof N y ("y", p.1)))
        percentile conf) probe figs := by
  refine mapM_spec fun p hpm => ?_
  obtain ⟨e0, e1, -, l0, l1, -⟩ := readDof_eq hs hw h (hn p hpm)
  have hresp : (yout.mapM fun y => stProbe r y p.1 p.2) = .ok (yout.map fun y => y.map fun v =>
      Real.cos p.2 * motion r.number_dof N v ("x", p.1) + Real.sin p.2 * motion r.number_dof N v ("y", p.1)) := by
    rw [mapM_ok_iff, List.map_map]
    refine List.map_congr_left fun y _ => ?_
    unfold stProbe
    rw [column_motion y e0 l0, ShapeLemmas.ok_bind, column_motion y e1 l1, ShapeLemmas.ok_bind]
    simp only [project, zipWith_map, Function.comp]
    rfl
  obtain ⟨fig, hfig⟩ := statFigure_exists (f := ud) (x := t.map (ut * ·)) (over_ne (g := fun v =>
      Real.cos p.2 * motion r.number_dof N v ("x", p.1) + Real.sin p.2 * motion r.number_dof N v ("y", p.1)) h0 hl) hp hc
  refine ⟨fig, ?_, ?_⟩
  · rw [hresp, ShapeLemmas.ok_bind, axis0_over]
    exact hfig
  · have := statFigure_shows hud hfig
    rwa [over_scale] at this

/-- C116: the orbit of a node has the statistics of its motions in the two directions. -/
theorem C116_orbit_partial (hs : SortsRows pd) (hw : WellFormed six N a) (h : init pd fuel a = some (.ok r))
    {node : ℕ} (hn : Readable a N node) {n : ℕ} {yout : List (List (Fin r.ndof → ℝ))}
    (h0 : yout ≠ []) (hl : ∀ y ∈ yout, y.length = n) {ud : ℝ} (hud : 0 ≤ ud)
    {percentile conf : List ℝ} (hp : Percentages (some 24) percentile) (hc : Percentages (some 24) conf) :
    ∃ fig, stTime2d r n yout ud node percentile conf = .ok fig ∧
      ShowsBoth fig (over n yout fun y => ud * motion r.number_dof N y ("x", node))
        (over n yout fun y => ud * motion r.number_dof N y ("y", node)) percentile conf := by
  obtain ⟨e0, e1, -, l0, l1, -⟩ := readDof_eq hs hw h hn
  have hx : (yout.mapM fun y => column y (r.readDof node 0)) = .ok (yout.map fun y => y.map fun v =>
      motion r.number_dof N v ("x", node)) := by
    rw [mapM_ok_iff, List.map_map]
    exact List.map_congr_left fun y _ => column_motion y e0 l0
  have hy : (yout.mapM fun y => column y (r.readDof node 1)) = .ok (yout.map fun y => y.map fun v =>
      motion r.number_dof N v ("y", node)) := by
    rw [mapM_ok_iff, List.map_map]
    exact List.map_congr_left fun y _ => column_motion y e1 l1
  obtain ⟨fig, hfig⟩ := statPair_exists (fx := ud) (fy := ud)
    (over_ne (g := fun v => motion r.number_dof N v ("x", node)) h0 hl)
    (over_ne (g := fun v => motion r.number_dof N v ("y", node)) h0 hl) hp hc
  refine ⟨fig, ?_, ?_⟩
  · unfold stTime2d
    rw [hx, ShapeLemmas.ok_bind, hy, ShapeLemmas.ok_bind, axis0_over, axis0_over]
    exact hfig
  · have := statPair_shows hud hud hfig
    rwa [over_scale, over_scale] at this

/-- What the curves of a node at `z` show in three dimensions: `low` is where the lower limits are drawn. -/
structure Shows3 (fig : Figure3) (n : ℕ) (z low : ℝ) (rx ry : List (List ℝ)) (percentile conf : List ℝ) : Prop where
  mean : fig.mean.pos = List.replicate n z ∧ MeanOf rx fig.mean.x ∧ MeanOf ry fig.mean.y
  percentiles : EachOf percentile (fun p c => c.pos = List.replicate n z ∧ PercentileOf rx p c.x ∧
    PercentileOf ry p c.y) fig.percentiles
  bands : EachOf conf (fun p c =>
    (c.1.pos = List.replicate n z ∧ PercentileOf rx (50 + p / 2) c.1.x ∧ PercentileOf ry (50 + p / 2) c.1.y) ∧
    (c.2.pos = List.replicate n low ∧ PercentileOf rx (50 - p / 2) c.2.x ∧ PercentileOf ry (50 - p / 2) c.2.y)) fig.bands

/-- C116: in three dimensions, the orbits of all nodes of the shaft are drawn, at their positions, around the center
line.  The lower limits of the confidence intervals are drawn at the position in metres. -/
theorem C116_3d_partial (hw : WellFormed six N a) (h : init pd fuel a = some (.ok r))
    {n : ℕ} {yout : List (List (Fin r.ndof → ℝ))} (h0 : yout ≠ []) (hl : ∀ y ∈ yout, y.length = n) {ud : ℝ}
    (hud : 0 ≤ ud) (ul : ℝ) {percentile conf : List ℝ} (hp : Percentages (some 24) percentile)
    (hc : Percentages (some 24) conf) :
    ∃ figs, stTime3d r n yout ud ul percentile conf = .ok
        (⟨r.nodes_pos.map (ul * ·), List.replicate (N + 1) 0, List.replicate (N + 1) 0⟩, figs) ∧
      List.Forall₂ (fun node fig => ∃ z, r.nodes_pos[node]? = some z ∧
        Shows3 fig n (ul * z) z (over n yout fun y => ud * motion r.number_dof N y ("x", node))
          (over n yout fun y => ud * motion r.number_dof N y ("y", node)) percentile conf) (List.range (N + 1)) figs := by
  have hpos := pos_length hw h
  obtain ⟨hnd, hN⟩ := ndof_eq' hw h
  have key : ∃ figs, ((List.range (N + 1)).mapM fun node => stNode3d r n yout ud ul node percentile conf) = .ok figs ∧
      List.Forall₂ (fun node fig => ∃ z, r.nodes_pos[node]? = some z ∧
        Shows3 fig n (ul * z) z (over n yout fun y => ud * motion r.number_dof N y ("x", node))
          (over n yout fun y => ud * motion r.number_dof N y ("y", node)) percentile conf) (List.range (N + 1)) figs := by
    refine mapM_spec fun node hnode => ?_
    have hnN : node ≤ N := by have := List.mem_range.1 hnode; omega
    obtain ⟨e1, e2, -⟩ := slot_shaft hnd hnN
    have hlt : r.number_dof * node + r.number_dof ≤ r.ndof := by
      rw [hN]
      unfold size
      have : r.number_dof * (node + 1) ≤ r.number_dof * (N + 1) := Nat.mul_le_mul_left _ (by omega)
      have : r.number_dof * (node + 1) = r.number_dof * node + r.number_dof := by ring
      omega
    have hx : (yout.mapM fun y => column y ((r.number_dof : ℤ) * node)) = .ok (yout.map fun y => y.map fun v =>
        motion r.number_dof N v ("x", node)) := by
      rw [mapM_ok_iff, List.map_map]
      refine List.map_congr_left fun y _ => column_motion y (by rw [e1]; push_cast; rfl) (by rw [e1]; omega)
    have hy : (yout.mapM fun y => column y ((r.number_dof : ℤ) * node + 1)) = .ok (yout.map fun y => y.map fun v =>
        motion r.number_dof N v ("y", node)) := by
      rw [mapM_ok_iff, List.map_map]
      refine List.map_congr_left fun y _ => column_motion y (by rw [e2]; push_cast; rfl) (by rw [e2]; omega)
    have hz : r.nodes_pos[node]? = some (r.nodes_pos[node]'(by omega)) := List.getElem?_eq_getElem _
    generalize r.nodes_pos[node]'(by omega) = z at hz
    have hrx := over_ne (g := fun v => motion r.number_dof N v ("x", node)) h0 hl
    have hry := over_ne (g := fun v => motion r.number_dof N v ("y", node)) h0 hl
    rw [← axis0_over] at hrx hry
    have sx := over_scale n yout (fun v => motion r.number_dof N v ("x", node)) ud
    have sy := over_scale n yout (fun v => motion r.number_dof N v ("y", node)) ud
    rw [← axis0_over] at sx sy
    rw [← sx, ← sy]
    unfold stNode3d
    rw [hx, ShapeLemmas.ok_bind, hy, ShapeLemmas.ok_bind, hz]
    simp only
    rw [ShapeLemmas.ok_bind]
    generalize axis0 n (yout.map fun y => y.map fun v => motion r.number_dof N v ("x", node)) = rx at hrx
    generalize axis0 n (yout.map fun y => y.map fun v => motion r.number_dof N v ("y", node)) = ry at hry
    obtain ⟨ps, h1⟩ := each_exists (curve := fun p => (do
      let p1 ← percentileRows rx p
      let p2 ← percentileRows ry p
      pure (⟨(List.replicate n z).map (ul * ·), p1.map (ud * ·), p2.map (ud * ·)⟩ : Curve3) : Res Curve3)) hp
        (fun p h0 h1 => by
        obtain ⟨l, hl⟩ := percentileRows_exists hrx h0 h1
        obtain ⟨l', hl'⟩ := percentileRows_exists hry h0 h1
        exact ⟨_, by rw [hl, hl']; rfl⟩)
    obtain ⟨bs, h2⟩ := each_exists (curve := fun p => (do
      let p1 ← percentileRows rx (50 + p / 2)
      let p2 ← percentileRows rx (50 - p / 2)
      let p3 ← percentileRows ry (50 + p / 2)
      let p4 ← percentileRows ry (50 - p / 2)
      pure ((⟨(List.replicate n z).map (ul * ·), p1.map (ud * ·), p3.map (ud * ·)⟩,
        ⟨List.replicate n z, p2.map (ud * ·), p4.map (ud * ·)⟩) : Curve3 × Curve3) : Res (Curve3 × Curve3))) hc
        (fun p h0 h1 => by
        obtain ⟨l, hl⟩ := percentileRows_exists hrx (q := 50 + p / 2) (by linarith) (by linarith)
        obtain ⟨l', hl'⟩ := percentileRows_exists hry (q := 50 + p / 2) (by linarith) (by linarith)
        obtain ⟨m, hm⟩ := percentileRows_exists hrx (q := 50 - p / 2) (by linarith) (by linarith)
        obtain ⟨m', hm'⟩ := percentileRows_exists hry (q := 50 - p / 2) (by linarith) (by linarith)
        exact ⟨_, by rw [hl, hl', hm, hm']; rfl⟩)
    refine ⟨_, by rw [h1, ShapeLemmas.ok_bind, h2]; rfl, z, rfl, ?_, ?_, ?_⟩
    · exact ⟨by simp, MeanOf.scale (meanRows_ok rx), MeanOf.scale (meanRows_ok ry)⟩
    · refine each_of h1 fun p c hc => ?_
      obtain ⟨p1, g1, hc⟩ := bindOk hc
      obtain ⟨p2, g2, hc⟩ := bindOk hc
      obtain rfl := Except.ok.inj hc
      exact ⟨by simp, PercentileOf.scale hud (percentileRows_iff.1 g1), PercentileOf.scale hud (percentileRows_iff.1 g2)⟩
    · refine each_of h2 fun p c hc => ?_
      obtain ⟨p1, g1, hc⟩ := bindOk hc
      obtain ⟨p2, g2, hc⟩ := bindOk hc
      obtain ⟨p3, g3, hc⟩ := bindOk hc
      obtain ⟨p4, g4, hc⟩ := bindOk hc
      obtain rfl := Except.ok.inj hc
      exact ⟨⟨by simp, PercentileOf.scale hud (percentileRows_iff.1 g1), PercentileOf.scale hud (percentileRows_iff.1 g3)⟩,
        rfl, PercentileOf.scale hud (percentileRows_iff.1 g2), PercentileOf.scale hud (percentileRows_iff.1 g4)⟩
  obtain ⟨figs, h1, h2⟩ := key
  refine ⟨figs, ?_, h2⟩
  unfold stTime3d
  rw [hpos, h1]
  rfl

/-- C116 is false in three dimensions when lengths are not in metres: the two curves of a confidence interval are drawn
at different positions, for every node that is not at the origin. -/
theorem C116_3d_false {fig : Figure3} {n : ℕ} {z ul : ℝ} {rx ry : List (List ℝ)} {percentile conf : List ℝ}
    (h : Shows3 fig n (ul * z) z rx ry percentile conf) (hn : 0 < n) (hz : z ≠ 0) (hu : ul ≠ 1) :
    ∀ c ∈ fig.bands, c.1.pos ≠ c.2.pos := by
  intro c hc he
  obtain ⟨ps, -, -, hb⟩ := h.bands
  obtain ⟨i, hi, rfl⟩ := List.getElem_of_mem hc
  have := (List.forall₂_iff_get.1 hb).2 i (by rw [List.Forall₂.length_eq hb]; exact hi) hi
  simp only [List.get_eq_getElem] at this
  rw [this.1.1, this.2.1] at he
  obtain ⟨m, rfl⟩ : ∃ m, n = m + 1 := ⟨n - 1, by omega⟩
  rw [List.replicate_succ, List.replicate_succ] at he
  have := (List.cons.inj he).1
  exact hu (mul_right_cancel₀ hz (this.trans (one_mul z).symm))

/-! ### C116: forced responses -/

theorem stAxes_eq (hs : SortsRows pd) (hw : WellFormed six N a) (h : init pd fuel a = some (.ok r))
    {node : ℕ} (hn : Readable a N node) (resp : List (List (ForcedResp r.ndof))) (k : RespKind) (θ : ℝ) :
    stAxes r resp (some k) node θ = .ok (resp.map fun s => s.map fun v =>
      axisRow (motion r.number_dof N (asked v k) ("x", node)) (motion r.number_dof N (asked v k) ("y", node)) (.at θ)) := by
  show (resp.mapM fun s => r.majorAxisPerNode (s.map fun v => v.get k) node (.at θ)) = _
  rw [mapM_ok_iff, List.map_map]
  refine List.map_congr_left fun s _ => ?_
  rw [C65_node_partial hs hw h hn, List.map_map]
  have : ∀ v : ForcedResp r.ndof, v.get k = asked v k := fun v => by cases k <;> rfl
  simp only [Function.comp_def, this]

theorem left_percentages {i m : ℕ} {ps : List ℝ} (hi : i < m) (hp : ∀ p ∈ ps, 0 ≤ p ∧ p ≤ 100)
    (hk : m * ps.length ≤ 24) : Percentages (coloursLeft i ps.length) ps := by
  refine ⟨hp, fun n hn => ?_⟩
  cases hn
  have : (i + 1) * ps.length ≤ m * ps.length := Nat.mul_le_mul_right _ hi
  rw [Nat.add_mul, one_mul] at this
  omega

/-- C116: for every probe of a forced response, the statistics of the distance of the node at the phase of the angle
(see C65), and of the direction in which it is then seen, against the frequency.  There are colors for ten probes, and
for 24 percentages of all probes. -/
theorem C116_forced_partial (hs : SortsRows pd) (hw : WellFormed six N a) (h : init pd fuel a = some (.ok r))
    {probe : List (ℕ × ℝ)} (hn : ∀ p ∈ probe, Readable a N p.1) {freq : List ℝ}
    {resp : List (List (ForcedResp r.ndof))} (h0 : resp ≠ []) (hl : ∀ s ∈ resp, s.length = freq.length) (uf : ℝ)
    {k : RespKind} {f : ℝ} (hf : 0 ≤ f) (ph : PhaseUnits) {percentile conf : List ℝ} (h10 : probe.length ≤ 10)
    (hp : ∀ p ∈ percentile, 0 ≤ p ∧ p ≤ 100) (hc : ∀ p ∈ conf, 0 ≤ p ∧ p ≤ 100)
    (hp' : probe.length * percentile.length ≤ 24) (hc' : probe.length * conf.length ≤ 24) :
    (∃ figs, stForcedMagnitude r freq resp uf ⟨some k, f⟩ probe percentile conf = .ok figs ∧
      List.Forall₂ (fun p fig => Shows fig (freq.map (uf * ·)) (over freq.length resp fun v =>
        f * radius (motion r.number_dof N (asked v k) ("x", p.1)) (motion r.number_dof N (asked v k) ("y", p.1)) p.2)
        percentile conf) probe figs) ∧
    (∃ figs, stForcedPhase r freq resp uf ⟨some k, f⟩ ph probe percentile conf = .ok figs ∧
      List.Forall₂ (fun p fig => Shows fig (freq.map (uf * ·)) (over freq.length resp fun v =>
        ph.factor * Complex.arg ⟨coord (motion r.number_dof N (asked v k) ("x", p.1)) p.2,
          coord (motion r.number_dof N (asked v k) ("y", p.1)) p.2⟩) percentile conf) probe figs) := by
  constructor
  · unfold stForcedMagnitude
    rw [if_neg (by simp)]
    refine zipIdx_spec fun p i hpm hi => ?_
    simp only
    rw [stAxes_eq hs hw h (hn p hpm), ShapeLemmas.ok_bind]
    have hh : hue (some 10) i = .ok () := if_pos (by omega)
    rw [hh, ShapeLemmas.ok_bind, List.map_map]
    have habs : ∀ x y : ℂ, |(axisRow x y (.at p.2)).amplitude| = radius x y p.2 := fun x y => by
      rw [(C65_angle x y p.2).1]
      exact abs_of_nonneg (Real.sqrt_nonneg _)
    simp only [Function.comp_def, List.map_map, habs]
    rw [axis0_over]
    obtain ⟨fig, hfig⟩ := statFigure_exists (f := f) (x := freq.map (uf * ·)) (over_ne (g := fun v =>
      radius (motion r.number_dof N (asked v k) ("x", p.1)) (motion r.number_dof N (asked v k) ("y", p.1)) p.2) h0 hl)
      (left_percentages hi hp hp') (left_percentages hi hc hc')
    refine ⟨fig, hfig, ?_⟩
    have := statFigure_shows hf hfig
    rwa [over_scale] at this
  · refine zipIdx_spec fun p i hpm hi => ?_
    simp only
    rw [stAxes_eq hs hw h (hn p hpm), ShapeLemmas.ok_bind]
    have hh : hue (some 10) i = .ok () := if_pos (by omega)
    rw [hh, ShapeLemmas.ok_bind, List.map_map]
    simp only [Function.comp_def, List.map_map, (C65_angle _ _ _).2.1]
    rw [axis0_over]
    obtain ⟨fig, hfig⟩ := statFigure_exists (f := 1) (x := freq.map (uf * ·)) (over_ne (g := fun v =>
      ph.factor * Complex.arg ⟨coord (motion r.number_dof N (asked v k) ("x", p.1)) p.2,
          coord (motion r.number_dof N (asked v k) ("y", p.1)) p.2⟩) h0 hl)
      (left_percentages hi hp hp') (left_percentages hi hc hc')
    refine ⟨fig, hfig, ?_⟩
    have := statFigure_shows zero_le_one hfig
    rwa [one_scale] at this

theorem colors_of {freq : List ℝ} {probe : List (ℕ × ℝ)} {percentile conf : List ℝ} {f : ℝ}
    {g : (ℕ × ℝ) × ℕ → Res (List (List AxisRow))} {rows : List (List AxisRow) → List (List ℝ)}
    {figs : List (StFigure Curve)} (h : (probe.zipIdx.mapM fun p => (do
      let l ← g p
      hue (some 10) p.2
      statFigure (coloursLeft p.2 percentile.length) (coloursLeft p.2 conf.length) freq f (rows l) percentile conf :
        Res (StFigure Curve))) = .ok figs) :
    probe.length ≤ 10 ∧ probe.length * percentile.length ≤ 24 ∧ probe.length * conf.length ≤ 24 := by
  rcases Nat.eq_zero_or_pos probe.length with h0 | h0
  · rw [h0]; simp
  have h := List.forall₂_iff_get.1 (mapM_forall₂.1 h)
  have hl : probe.length - 1 < probe.zipIdx.length := by simp; omega
  have := h.2 (probe.length - 1) hl (by rw [← h.1]; exact hl)
  simp only [List.get_eq_getElem, List.getElem_zipIdx, Nat.zero_add] at this
  obtain ⟨l, -, h1⟩ := bindOk this
  obtain ⟨_, h2, h1⟩ := bindOk h1
  have h10 : probe.length - 1 < 10 := by
    by_contra hc
    simp [hue, hc] at h2
  obtain ⟨ps, e1, h1⟩ := bindOk h1
  obtain ⟨bs, e2, h1⟩ := bindOk h1
  have e1 := forEach_short e1
  have e2 := forEach_short e2
  rw [(npSort_perm _).length_eq] at e1 e2
  obtain ⟨m, hm⟩ : ∃ m, probe.length = m + 1 := ⟨probe.length - 1, by omega⟩
  rw [hm] at e1 e2 ⊢
  rw [Nat.add_mul, Nat.add_mul, one_mul, one_mul]
  simp only [Nat.add_sub_cancel] at e1 e2
  refine ⟨by omega, ?_, ?_⟩
  · rcases Nat.eq_zero_or_pos percentile.length with hz | hz
    · rw [hz]; simp
    · omega
  · rcases Nat.eq_zero_or_pos conf.length with hz | hz
    · rw [hz]; simp
    · omega

/-- C116: with more than ten probes, or more than 24 percentages or confidence intervals for all of them, nothing is
drawn. -/
theorem C116_forced_colors {freq : List ℝ} {resp : List (List (ForcedResp r.ndof))} {uf : ℝ} {amp : AmpUnits}
    {ph : PhaseUnits} {probe : List (ℕ × ℝ)} {percentile conf : List ℝ} {figs : List (StFigure Curve)}
    (h : stForcedMagnitude r freq resp uf amp probe percentile conf = .ok figs ∨
      stForcedPhase r freq resp uf amp ph probe percentile conf = .ok figs) :
    probe.length ≤ 10 ∧ probe.length * percentile.length ≤ 24 ∧ probe.length * conf.length ≤ 24 := by
  rcases h with h | h
  · unfold stForcedMagnitude at h
    split_ifs at h
    exact colors_of h
  · exact colors_of h

/-- A rotor whose probes at the nodes 1 and 3, with two samples of three instants or frequencies, meet the conditions. -/
example : ∃ r, init exPandas 10 exArgs = some (.ok r) ∧ SortsRows exPandas ∧ WellFormed false 2 exArgs ∧
    (∀ p ∈ [((1 : ℕ), (0 : ℝ)), (3, 1)], Readable exArgs 2 p.1) ∧
    (∃ yout : List (List (Fin r.ndof → ℝ)), yout ≠ [] ∧ ∀ y ∈ yout, y.length = [(0 : ℝ), 1, 2].length) ∧
    Percentages none [75, 25] ∧ Percentages (some 24) [90] := by
  obtain ⟨r, h1, -⟩ := exRotor_exists
  refine ⟨r, h1, exPandas_sorts, exArgs_wf, ?_, ⟨[[0, fun _ => 1, fun _ => 2], [0, fun _ => 3, 0]], by simp, by simp⟩,
    ⟨by simp; norm_num, by simp⟩, ⟨by simp; norm_num, by simp⟩⟩
  intro p hp
  simp only [List.mem_cons, List.not_mem_nil, or_false] at hp
  rcases hp with rfl | rfl
  · refine Or.inl ⟨by norm_num, ?_⟩
    intro b hb
    simp only [exArgs, List.mem_cons, List.not_mem_nil, or_false] at hb
    rcases hb with rfl | rfl | rfl <;> simp [BrgEl.n_link, BrgEl.base, exBrg]
  · exact Or.inr ⟨by norm_num, by norm_num [exArgs], .brg false (exBrg 0 (some 3) 1e6 100), by simp [exArgs], rfl⟩

end Ross.Props
