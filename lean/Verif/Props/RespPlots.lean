import Verif.Spec.RespPlots
import Verif.Lemmas.Readout
import Verif.Lemmas.ListRes
import Verif.Lemmas.ResultsFile
import Verif.Lemmas.ExRotor

/-!
# C118: tables and figures of forced and time responses
-/

namespace Ross.Props

open Ross Ross.Spec Ross.Rotor Ross.RotorLemmas Ross.ReadoutLemmas Ross.RespPlots Ross.Stochastic

variable {pd : Pandas} {fuel : ℕ} {a : RotorArgs} {r : Rotor} {six : Bool} {N : ℕ}

theorem probeTag_eq (deg : ℝ → String) (p : Probe) (i : ℕ) : probeTag deg p i = nameOf deg p i := by
  unfold probeTag nameOf
  cases p.tag with
  | none => rfl
  | some t => by_cases h : t = "" <;> simp [h, Option.filter]

/-! ### Names -/

theorem digits_stop {i j : ℕ} {s t : List Char}
    (h : (toString i).toList ++ ' ' :: s = (toString j).toList ++ ' ' :: t) : i = j ∧ s = t := by
  rw [Nat.toString_eq_ofList_toDigits, Nat.toString_eq_ofList_toDigits, String.toList_ofList, String.toList_ofList] at h
  have key : ∀ (k : ℕ) (u : List Char), (Nat.toDigits 10 k ++ ' ' :: u).takeWhile Char.isDigit = Nat.toDigits 10 k := by
    intro k u
    rw [List.takeWhile_append_of_pos (fun c hc => Nat.isDigit_of_mem_toDigits (by decide) (by decide) hc)]
    simp [show Char.isDigit ' ' = false from rfl]
  have h1 := congrArg (List.takeWhile Char.isDigit) h
  rw [key, key] at h1
  have h2 := congrArg (fun l => Nat.ofDigitChars 10 l 0) h1
  simp only [Nat.ofDigitChars_ten_toDigits] at h2
  subst h2
  exact ⟨rfl, by simpa using h⟩

/-- C118: the labels of different probes of a list are different, and none of them is the name of the column of
frequencies. -/
theorem C118_labels (deg : ℝ → String) (p q : Probe) (i j : ℕ) :
    (getLabel deg p i = getLabel deg q j → i = j ∧ p.node = q.node) ∧ getLabel deg p i ≠ "frequency" := by
  constructor
  · intro h
    unfold getLabel at h
    have h1 := congrArg String.toList h
    simp only [String.toList_append, List.append_assoc] at h1
    have h2 := List.append_cancel_left h1
    have e : ∀ u : List Char, (" - Node ").toList ++ u = ' ' :: (("- Node ").toList ++ u) := fun _ => rfl
    rw [e, e] at h2
    obtain ⟨rfl, h3⟩ := digits_stop h2
    have h4 := List.append_cancel_left h3
    have e' : ∀ u : List Char, (" ").toList ++ u = ' ' :: u := fun _ => rfl
    rw [e', e'] at h4
    exact ⟨rfl, (digits_stop h4).1⟩
  · intro h
    unfold getLabel at h
    have h1 := congrArg (fun s : String => s.toList.head?) h
    simp only [String.toList_append] at h1
    have e : ∀ u v : List Char, ((("Probe ").toList ++ u) ++ v).head? = some 'P' := fun _ _ => rfl
    rw [e] at h1
    exact absurd h1 (by decide)

/-- C118: so probes without tags have different names. -/
theorem C118_names (deg : ℝ → String) {probe : List Probe} (ht : ∀ p ∈ probe, p.tag = none ∨ p.tag = some "") :
    ((radials probe).map fun q => nameOf deg q.1 q.2).Nodup ∧
    ∀ q ∈ radials probe, nameOf deg q.1 q.2 ≠ "frequency" := by
  have hn : ∀ q ∈ probe.zipIdx, nameOf deg q.1 q.2 = getLabel deg q.1 (q.2 + 1) := by
    intro q hq
    have hm : q.1 ∈ probe := by
      obtain ⟨h1, h2⟩ := List.mem_zipIdx' (x := q.1) (i := q.2) hq
      exact h2 ▸ List.getElem_mem _
    unfold nameOf
    rcases ht q.1 hm with e | e <;> rw [e] <;> rfl
  have hf : ∀ q ∈ radials probe, q ∈ probe.zipIdx := fun q hq => (List.mem_filter.1 hq).1
  refine ⟨?_, fun q hq => by rw [hn q (hf q hq)]; exact (C118_labels deg q.1 q.1 _ 0).2⟩
  rw [List.map_congr_left fun q hq => hn q (hf q hq)]
  unfold radials
  refine List.Nodup.map_on ?_ (List.Nodup.filter _ ?_)
  · intro q hq q' hq' h
    have hi : q.2 = q'.2 := Nat.succ.inj ((C118_labels deg q.1 q'.1 _ _).1 h).1
    have h1 := List.mem_zipIdx' (x := q.1) (i := q.2) (hf q hq)
    have h2 := List.mem_zipIdx' (x := q'.1) (i := q'.2) (hf q' hq')
    refine Prod.ext ?_ hi
    obtain ⟨l1, e1⟩ := h1
    obtain ⟨l2, e2⟩ := h2
    rw [e1, e2]
    simp only [hi]
  · exact List.Nodup.of_map Prod.snd (by rw [List.zipIdx_map_snd]; exact List.nodup_range')

/-! ### Forced responses -/

theorem probeAmplitude_radial (la : Lapack) (hw : WellFormed six N a) (h : init pd fuel a = some (.ok r))
    {p : Probe} {θ : ℝ} (hd : p.direction = "radial") (ha : p.angle = some θ) (hn : p.node ≤ N)
    (resp : List (ForcedResp r.ndof)) (kind : RespKind) :
    r.probeAmplitude la (resp.map fun x => x.get kind) p = .ok (some (resp.map (measured la r N kind p))) := by
  have hask : ∀ x : ForcedResp r.ndof, x.get kind = asked x kind := fun x => by cases kind <;> rfl
  unfold probeAmplitude
  rw [if_neg (by rw [hd]; decide)]
  have : (resp.map fun x => x.get kind).mapM (r.amplitudeAt la p) = .ok (resp.map (measured la r N kind p)) := by
    rw [mapM_ok_iff, List.map_map, List.map_map]
    refine List.map_congr_left fun x _ => ?_
    simp only [Function.comp_apply]
    unfold amplitudeAt measured
    rw [nodeOrbitAt_eq la hw h hn, ha, hask]
    rfl
  rw [this]

theorem addColumns_eq (la : Lapack) (deg : ℝ → String) (hw : WellFormed six N a) (h : init pd fuel a = some (.ok r))
    (resp : List (ForcedResp r.ndof)) (kind : RespKind) (f : ℝ × ℝ → ℝ) :
    ∀ (l : List (Probe × ℕ)) (d : Dict String (List ℝ)),
      (∀ q ∈ l, IsProbe q.1 ∧ (q.1.direction = "radial" → q.1.node ≤ N)) →
      (d.keys ++ (l.filter fun q => q.1.direction = "radial").map fun q => nameOf deg q.1 q.2).Nodup →
      addColumns r la deg (resp.map fun x => x.get kind) f l d =
        .ok (d ++ (l.filter fun q => q.1.direction = "radial").map fun q =>
          (nameOf deg q.1 q.2, resp.map fun x => f (measured la r N kind q.1 x)))
  | [], d, _, _ => by simp [addColumns]
  | (p, i) :: l, d, hl, hd => by
    have hl' := fun q hq => hl q (List.mem_cons_of_mem _ hq)
    obtain ⟨hp, hnode⟩ := hl (p, i) List.mem_cons_self
    rcases hp with ⟨hr, θ, hθ⟩ | hax
    · have hr' : ((p, i).1.direction = "radial") := hr
      rw [List.filter_cons_of_pos (by simpa using hr), List.map_cons] at hd ⊢
      unfold addColumns
      rw [probeAmplitude_radial la hw h hr hθ (hnode hr)]
      simp only
      have hnot : nameOf deg p i ∉ d.keys := by
        intro hc
        rw [List.nodup_append] at hd
        exact hd.2.2 _ hc _ List.mem_cons_self rfl
      rw [probeTag_eq, Dict.set_of_not_mem _ _ _ hnot, addColumns_eq la deg hw h resp kind f l _ hl']
      · simp [List.map_map, Function.comp_def]
      · have e : Dict.keys (d ++ [(nameOf deg p i, (resp.map (measured la r N kind p)).map f)]) =
            d.keys ++ [nameOf deg p i] := by simp [Dict.keys]
        rw [e, List.append_assoc]
        exact hd
    · have hr' : ¬ (p.direction = "radial") := by rw [hax]; decide
      rw [List.filter_cons_of_neg (by simpa using hr')] at hd ⊢
      unfold addColumns
      have : r.probeAmplitude la (resp.map fun x => x.get kind) p = .ok none := by
        unfold probeAmplitude
        rw [if_pos hax]
      rw [this]
      exact addColumns_eq la deg hw h resp kind f l d hl' hd

theorem forcedTable_eq (la : Lapack) (deg : ℝ → String) (hw : WellFormed six N a) (h : init pd fuel a = some (.ok r))
    {probe : List Probe} (hp : DistinctNames deg N probe) (ω : List ℝ) (uf : ℝ) (resp : List (ForcedResp r.ndof))
    (kind : RespKind) (f : ℝ × ℝ → ℝ) :
    forcedTable r la deg ω uf (resp.map fun x => x.get kind) f probe =
      .ok (("frequency", ω.map (uf * ·)) :: (radials probe).map fun q =>
        (nameOf deg q.1 q.2, resp.map fun x => f (measured la r N kind q.1 x))) := by
  unfold forcedTable
  rw [addColumns_eq la deg hw h resp kind f]
  · rfl
  · intro q hq
    have hm : q.1 ∈ probe := by
      obtain ⟨h1, h2⟩ := List.mem_zipIdx' (x := q.1) (i := q.2) hq
      exact h2 ▸ List.getElem_mem _
    exact ⟨hp.made _ hm, hp.on _ hm⟩
  · show ("frequency" :: (radials probe).map fun q => nameOf deg q.1 q.2).Nodup
    rw [List.nodup_cons]
    refine ⟨fun hc => ?_, hp.names⟩
    obtain ⟨q, hq, e⟩ := List.mem_map.1 hc
    exact hp.free q hq e

/-- C118: the tables have the frequencies, and one column for each radial probe, in their order and under their names,
with the amplitudes or the phases in the unit that is asked for. -/
theorem C118_table_partial (la : Lapack) (deg : ℝ → String) (hw : WellFormed six N a)
    (h : init pd fuel a = some (.ok r)) {probe : List Probe} (hp : DistinctNames deg N probe) (ω : List ℝ) (uf ua up : ℝ)
    (resp : List (ForcedResp r.ndof)) (kind : RespKind) :
    magnitudeTable r la deg ω uf ua resp kind probe =
      .ok (("frequency", ω.map (uf * ·)) :: (radials probe).map fun q =>
        (nameOf deg q.1 q.2, resp.map fun x => ua * (measured la r N kind q.1 x).1)) ∧
    phaseTable r la deg ω uf up resp kind probe =
      .ok (("frequency", ω.map (uf * ·)) :: (radials probe).map fun q =>
        (nameOf deg q.1 q.2, resp.map fun x => up * (measured la r N kind q.1 x).2)) :=
  ⟨forcedTable_eq la deg hw h hp ω uf resp kind _, forcedTable_eq la deg hw h hp ω uf resp kind _⟩

theorem colOf_mem {t : Dict String (List ℝ)} (hn : t.keys.Nodup) {k : String} {c : List ℝ} (h : (k, c) ∈ t) :
    colOf t k = .ok c := by
  unfold colOf
  rw [ResultsFileLemmas.get?_of_mem hn h]

theorem zipIdx_mapM {α β γ : Type} (g : α → γ) (F : γ × ℕ → Res β) (G : α → β) (l : List α)
    (h : ∀ a i, a ∈ l → i < l.length → F (g a, i) = .ok (G a)) : (l.map g).zipIdx.mapM F = .ok (l.map G) := by
  rw [mapM_ok_iff]
  apply List.ext_getElem
  · simp
  · intro i h1 h2
    have hi : i < l.length := by simpa using h1
    simp [h l[i] i (List.getElem_mem _) hi]

theorem tableFigure_eq {f : List ℝ} {cols : Dict String (List ℝ)}
    (hn : (Dict.keys (("frequency", f) :: cols)).Nodup) (hl : cols.length ≤ 10) :
    tableFigure (("frequency", f) :: cols) = .ok (cols.map fun c => (c.1, (⟨f, c.2⟩ : Curve))) := by
  unfold tableFigure
  refine zipIdx_mapM Prod.fst _ _ cols fun c i hc hi => ?_
  simp only
  rw [colOf_mem hn List.mem_cons_self, colOf_mem (c := c.2) hn (List.mem_cons_of_mem _ hc)]
  have : hue (some 10) i = .ok () := if_pos (by omega)
  simp only [ShapeLemmas.ok_bind, this]
  rfl

theorem keys_nodup {deg : ℝ → String} {probe : List Probe} (hp : DistinctNames deg N probe) (f : List ℝ)
    (c : Probe × ℕ → List ℝ) :
    (Dict.keys (("frequency", f) :: (radials probe).map fun q => (nameOf deg q.1 q.2, c q))).Nodup := by
  show (("frequency" :: ((radials probe).map fun q => (nameOf deg q.1 q.2, c q)).map Prod.fst)).Nodup
  rw [List.map_map, List.nodup_cons]
  refine ⟨fun hc => ?_, hp.names⟩
  obtain ⟨q, hq, e⟩ := List.mem_map.1 hc
  exact hp.free q hq e

/-- C118: a Bode figure has one curve in each of its two rows for each radial probe, in their order and under their
names: the amplitudes and the phases against the frequencies. -/
theorem C118_bode_partial (la : Lapack) (deg : ℝ → String) (hw : WellFormed six N a)
    (h : init pd fuel a = some (.ok r)) {probe : List Probe} (hp : DistinctNames deg N probe)
    (hc : (radials probe).length ≤ 10) (ω : List ℝ) (uf ua up : ℝ) (resp : List (ForcedResp r.ndof))
    (kind : RespKind) :
    plotBode r la deg ω uf ua up resp kind probe =
      .ok ((radials probe).map fun q => (nameOf deg q.1 q.2,
          ⟨ω.map (uf * ·), resp.map fun x => ua * (measured la r N kind q.1 x).1⟩),
        (radials probe).map fun q => (nameOf deg q.1 q.2,
          ⟨ω.map (uf * ·), resp.map fun x => up * (measured la r N kind q.1 x).2⟩)) := by
  obtain ⟨h1, h2⟩ := C118_table_partial la deg hw h hp ω uf ua up resp kind
  unfold plotBode plotMagnitude plotPhase
  rw [h1, h2]
  simp only [ShapeLemmas.ok_bind]
  rw [tableFigure_eq (keys_nodup hp _ _) (by simpa using hc), tableFigure_eq (keys_nodup hp _ _) (by simpa using hc)]
  simp only [ShapeLemmas.ok_bind, List.map_map]
  rfl

/-- C118: a polar figure shows, for each radial probe, the amplitudes at the angles that are the phases. -/
theorem C118_polar_partial (la : Lapack) (deg : ℝ → String) (hw : WellFormed six N a)
    (h : init pd fuel a = some (.ok r)) {probe : List Probe} (hp : DistinctNames deg N probe)
    (hc : (radials probe).length ≤ 10) (ω : List ℝ) (uf ua : ℝ) {conv : String → ℝ} (hconv : ConvertsAngles conv)
    {phase_units : String} (hu : phase_units ∈ ["rad", "radian", "radians", "degree", "degrees", "deg"])
    (resp : List (ForcedResp r.ndof)) (kind : RespKind) :
    ∃ curves, plotPolarBode r la deg conv ω uf ua phase_units resp kind probe = .ok curves ∧
      List.Forall₂ (fun (q : Probe × ℕ) (c : String × PolarCurve) => c.1 = nameOf deg q.1 q.2 ∧
        c.2.frequency = ω.map (uf * ·) ∧ c.2.r = (resp.map fun x => ua * (measured la r N kind q.1 x).1) ∧
        c.2.theta.map (inRadians c.2.thetaunit) = resp.map fun x => some (measured la r N kind q.1 x).2)
        (radials probe) curves := by
  obtain ⟨h1, h2⟩ := C118_table_partial la deg hw h hp ω uf ua (conv phase_units) resp kind
  obtain ⟨u, hu1, hu2⟩ : ∃ u, thetaUnit phase_units = .ok u ∧ ∀ x, inRadians u (conv phase_units * x) = some x := by
    unfold thetaUnit
    by_cases hr : phase_units ∈ ["rad", "radian", "radians"]
    · refine ⟨_, if_pos hr, fun x => ?_⟩
      rw [hconv.1 _ hr, one_mul]
      rfl
    · have hd : phase_units ∈ ["degree", "degrees", "deg"] := by
        simp only [List.mem_cons, List.not_mem_nil, or_false] at hu hr ⊢
        tauto
      rw [if_neg hr]
      refine ⟨_, if_pos hd, fun x => ?_⟩
      rw [hconv.2 _ hd]
      show some _ = _
      congr 1
      have := Real.pi_ne_zero
      field_simp
  refine ⟨(radials probe).map fun q => (nameOf deg q.1 q.2,
    ⟨resp.map fun x => ua * (measured la r N kind q.1 x).1,
     resp.map fun x => conv phase_units * (measured la r N kind q.1 x).2, ω.map (uf * ·), u⟩), ?_, ?_⟩
  · unfold plotPolarBode
    rw [h1, h2]
    simp only [ShapeLemmas.ok_bind, hu1]
    have e : ∀ (f : List ℝ) (c : Probe × ℕ → List ℝ),
        (Dict.keys (("frequency", f) :: (radials probe).map fun q => (nameOf deg q.1 q.2, c q))).tail =
        (radials probe).map fun q => nameOf deg q.1 q.2 := fun f c => by simp [Dict.keys, Function.comp_def]
    rw [e, zipIdx_mapM (fun q : Probe × ℕ => nameOf deg q.1 q.2) _ _ (radials probe)]
    · rfl
    · intro q i hq hi
      simp only
      rw [colOf_mem (keys_nodup hp _ _) (List.mem_cons_of_mem _ (List.mem_map.2 ⟨q, hq, rfl⟩)),
        colOf_mem (keys_nodup hp _ _) (List.mem_cons_of_mem _ (List.mem_map.2 ⟨q, hq, rfl⟩)),
        colOf_mem (keys_nodup hp _ _) List.mem_cons_self]
      have : hue (some 10) i = .ok () := if_pos (by omega)
      simp only [ShapeLemmas.ok_bind, this]
      rfl
  · rw [List.forall₂_map_right_iff, List.forall₂_same]
    intro q _
    refine ⟨rfl, rfl, rfl, ?_⟩
    simp only [List.map_map]
    exact List.map_congr_left fun x _ => hu2 _

/-- C118 is false for other units of the phase, for which there is a table: a polar figure in turns fails. -/
theorem C118_polar_false (la : Lapack) (deg : ℝ → String) (conv : String → ℝ) (ω : List ℝ) (uf ua : ℝ)
    {phase_units : String} (hu : phase_units ∉ ["rad", "radian", "radians", "degree", "degrees", "deg"])
    (resp : List (ForcedResp r.ndof)) (kind : RespKind) (probe : List Probe) :
    ∃ e, plotPolarBode r la deg conv ω uf ua phase_units resp kind probe = .error e := by
  have ht : thetaUnit phase_units = .error .nameError := by
    unfold thetaUnit
    simp only [List.mem_cons, List.not_mem_nil, or_false] at hu ⊢
    rw [if_neg (by tauto), if_neg (by tauto)]
  cases hx : plotPolarBode r la deg conv ω uf ua phase_units resp kind probe with
  | error e => exact ⟨e, rfl⟩
  | ok c =>
    exfalso
    unfold plotPolarBode at hx
    obtain ⟨df, -, hx⟩ := BearingLemmas.bind_ok.1 hx
    obtain ⟨df', -, hx⟩ := BearingLemmas.bind_ok.1 hx
    obtain ⟨fig, -, hx⟩ := BearingLemmas.bind_ok.1 hx
    rw [ht] at hx
    cases hx

/-- C118 is false for probes with the same tag: the table has one column for both, and it is that of the second. -/
theorem C118_tags_false (la : Lapack) (deg : ℝ → String) (hw : WellFormed six N a)
    (h : init pd fuel a = some (.ok r)) {p q : Probe} {θ φ : ℝ} {t : String} (hp : p.direction = "radial")
    (hq : q.direction = "radial") (hθ : p.angle = some θ) (hφ : q.angle = some φ) (hpn : p.node ≤ N) (hqn : q.node ≤ N)
    (hpt : p.tag = some t) (hqt : q.tag = some t) (ht : t ≠ "") (hf : t ≠ "frequency") (ω : List ℝ) (uf ua : ℝ)
    (resp : List (ForcedResp r.ndof)) (kind : RespKind) :
    magnitudeTable r la deg ω uf ua resp kind [p, q] =
      .ok [("frequency", ω.map (uf * ·)), (t, resp.map fun x => ua * (measured la r N kind q x).1)] := by
  have e1 : probeTag deg p 0 = t := by unfold probeTag; rw [hpt]; exact if_neg ht
  have e2 : probeTag deg q 1 = t := by unfold probeTag; rw [hqt]; exact if_neg ht
  unfold magnitudeTable forcedTable
  simp only [List.zipIdx_cons, List.zipIdx_nil, zero_add, addColumns]
  rw [probeAmplitude_radial la hw h hp hθ hpn, probeAmplitude_radial la hw h hq hφ hqn]
  simp only [e1, e2, Dict.set, if_neg (Ne.symm hf), if_true, List.map_map]
  rfl

/-- C118 is false for a probe with the tag "frequency": its amplitudes replace the frequencies, and it has no curve. -/
theorem C118_frequency_false (la : Lapack) (deg : ℝ → String) (hw : WellFormed six N a)
    (h : init pd fuel a = some (.ok r)) {p : Probe} {θ : ℝ} (hp : p.direction = "radial") (hθ : p.angle = some θ)
    (hpn : p.node ≤ N) (hpt : p.tag = some "frequency") (ω : List ℝ) (uf ua : ℝ) (resp : List (ForcedResp r.ndof))
    (kind : RespKind) :
    magnitudeTable r la deg ω uf ua resp kind [p] =
      .ok [("frequency", resp.map fun x => ua * (measured la r N kind p x).1)] ∧
    plotMagnitude r la deg ω uf ua resp kind [p] = .ok [] := by
  have e1 : probeTag deg p 0 = "frequency" := by unfold probeTag; rw [hpt]; exact if_neg (by decide)
  have key : magnitudeTable r la deg ω uf ua resp kind [p] =
      .ok [("frequency", resp.map fun x => ua * (measured la r N kind p x).1)] := by
    unfold magnitudeTable forcedTable
    simp only [List.zipIdx_cons, List.zipIdx_nil, zero_add, addColumns]
    rw [probeAmplitude_radial la hw h hp hθ hpn]
    simp only [e1, Dict.set, if_true, List.map_map]
    rfl
  refine ⟨key, ?_⟩
  unfold plotMagnitude
  rw [key]
  rfl

/-- C118 is false for more than ten probes: there are no more colors. -/
theorem C118_colors_false (la : Lapack) (deg : ℝ → String) (hw : WellFormed six N a)
    (h : init pd fuel a = some (.ok r)) {probe : List Probe} (hp : DistinctNames deg N probe)
    (hc : 10 < (radials probe).length) (ω : List ℝ) (uf ua : ℝ) (resp : List (ForcedResp r.ndof)) (kind : RespKind) :
    ∃ e, plotMagnitude r la deg ω uf ua resp kind probe = .error e := by
  cases hx : plotMagnitude r la deg ω uf ua resp kind probe with
  | error e => exact ⟨e, rfl⟩
  | ok c =>
    exfalso
    unfold plotMagnitude at hx
    rw [(C118_table_partial la deg hw h hp ω uf ua 1 resp kind).1] at hx
    rw [ShapeLemmas.ok_bind] at hx
    unfold tableFigure at hx
    have := ShapeLemmas.mapM_get hx 10
    have hl : 10 < ((Dict.keys (("frequency", ω.map (uf * ·)) :: (radials probe).map fun q =>
        (nameOf deg q.1 q.2, resp.map fun x => ua * (measured la r N kind q.1 x).1))).tail.zipIdx).length := by
      simpa [Dict.keys] using hc
    rw [List.getElem?_eq_getElem hl, Option.map_some] at this
    cases hy : c[10]? with
    | none => rw [hy] at this; cases this
    | some y =>
      rw [hy] at this
      have := Option.some.inj this
      obtain ⟨x, -, h2⟩ := BearingLemmas.bind_ok.1 this
      obtain ⟨z, -, h3⟩ := BearingLemmas.bind_ok.1 h2
      obtain ⟨u, h4, -⟩ := BearingLemmas.bind_ok.1 h3
      simp [hue] at h4

/-! ### Time responses -/

theorem probeResp_eq (hs : SortsRows pd) (hw : WellFormed six N a) (h : init pd fuel a = some (.ok r))
    {p : Probe} (hp : IsProbe p) (hn : Readable a N p.node) (yout : List (Fin r.ndof → ℝ)) :
    r.probeResp yout p = .ok (if p.direction = "radial" ∨ r.number_dof = 6 then
      some (yout.map (seen r.number_dof N p)) else none) := by
  obtain ⟨e0, e1, e2, l0, l1, l2⟩ := readDof_eq hs hw h hn
  rcases hp with ⟨hd, θ, ha⟩ | hd
  · rw [if_pos (Or.inl hd)]
    have hsn : seen r.number_dof N p = fun y : Fin r.ndof → ℝ =>
        Real.cos θ * motion r.number_dof N y ("x", p.node) + Real.sin θ * motion r.number_dof N y ("y", p.node) := by
      funext y
      unfold seen
      rw [if_neg (by rw [hd]; decide), ha]
      rfl
    unfold probeResp
    rw [hd, if_neg (fun e => absurd e.1 (by decide)), if_neg (by decide), ha]
    simp only
    rw [column_motion yout e0 l0, column_motion yout e1 l1, hsn]
    simp only [project, zipWith_map]
  · by_cases h6 : r.number_dof = 6
    · rw [if_pos (Or.inr h6)]
      have hsn : seen r.number_dof N p = fun y : Fin r.ndof → ℝ => motion r.number_dof N y ("z", p.node) := by
        funext y
        unfold seen
        rw [if_pos hd]
      unfold probeResp
      rw [if_neg (by simp [h6]), if_pos hd, column_motion yout (e2 h6) (l2 h6), hsn]
    · rw [if_neg (by rw [hd]; simp [h6])]
      unfold probeResp
      rw [if_pos ⟨hd, h6⟩]

/-- C118: the table of a time response has the instants, and for each probe that can be read its name and what it sees,
in the units that are asked for. -/
theorem C118_time_table (deg : ℝ → String) (hs : SortsRows pd) (hw : WellFormed six N a)
    (h : init pd fuel a = some (.ok r)) {probe : List Probe} (hp : ∀ p ∈ probe, IsProbe p ∧ Readable a N p.node)
    (t : List ℝ) (yout : List (Fin r.ndof → ℝ)) (ud ut : ℝ) :
    timeTable r deg t yout ud ut probe =
      .ok (probe.zipIdx.map fun q => if q.1.direction = "radial" ∨ r.number_dof = 6 then
        some (nameOf deg q.1 q.2, yout.map fun y => ud * seen r.number_dof N q.1 y) else none, t.map (ut * ·)) := by
  unfold timeTable
  have : (probe.zipIdx.mapM fun q : Probe × ℕ => (do
      let c ← r.probeResp yout q.1
      pure (c.map fun c : List ℝ => (probeTag deg q.1 q.2, c.map (ud * ·))) : Res (Option (String × List ℝ)))) =
      .ok (probe.zipIdx.map fun q => if q.1.direction = "radial" ∨ r.number_dof = 6 then
        some (nameOf deg q.1 q.2, yout.map fun y => ud * seen r.number_dof N q.1 y) else none) := by
    rw [mapM_ok_iff, List.map_map]
    refine List.map_congr_left fun q hq => ?_
    have hm : q.1 ∈ probe := by
      obtain ⟨h1, h2⟩ := List.mem_zipIdx' (x := q.1) (i := q.2) hq
      exact h2 ▸ List.getElem_mem _
    rw [probeResp_eq hs hw h (hp _ hm).1 (hp _ hm).2, ShapeLemmas.ok_bind, probeTag_eq]
    simp only [Function.comp_apply]
    split_ifs
    · simp only [Option.map_some, List.map_map]
      rfl
    · rfl
  rw [this]
  rfl

theorem plot1d_eq (deg : ℝ → String) (hs : SortsRows pd) (hw : WellFormed six N a)
    (h : init pd fuel a = some (.ok r)) {probe : List Probe} (hp : ∀ p ∈ probe, IsProbe p ∧ Readable a N p.node)
    {t : List ℝ} (ht : t ≠ []) (yout : List (Fin r.ndof → ℝ)) (ud ut : ℝ) :
    plot1d r deg t yout ud ut probe =
      .ok ((shown r.number_dof probe).map fun q => (nameOf deg q.1 q.2,
        ⟨t.map (ut * ·), yout.map fun y => ud * (ud * seen r.number_dof N q.1 y)⟩)) := by
  unfold plot1d
  rw [C118_time_table deg hs hw h hp, ShapeLemmas.ok_bind]
  have ht' : t.map (ut * ·) ≠ [] := by simpa using ht
  have : ((probe.zipIdx.map fun q => if q.1.direction = "radial" ∨ r.number_dof = 6 then
        some (nameOf deg q.1 q.2, yout.map fun y => ud * seen r.number_dof N q.1 y) else none).mapM
        (timeCurve ud (t.map (ut * ·)))) =
      .ok (probe.zipIdx.map fun q => if q.1.direction = "radial" ∨ r.number_dof = 6 then
        some (nameOf deg q.1 q.2, (⟨t.map (ut * ·), yout.map fun y => ud * (ud * seen r.number_dof N q.1 y)⟩ : Curve))
        else none) := by
    rw [mapM_ok_iff, List.map_map, List.map_map]
    refine List.map_congr_left fun q _ => ?_
    simp only [Function.comp_apply]
    split_ifs
    · simp only [timeCurve, if_neg ht', List.map_map]
      rfl
    · rfl
  simp only
  rw [this, ShapeLemmas.ok_bind]
  unfold shown
  congr 1
  induction probe.zipIdx with
  | nil => rfl
  | cons q l ih =>
    by_cases hq : q.1.direction = "radial" ∨ r.number_dof = 6
    · rw [List.filter_cons_of_pos (by simpa using hq), List.map_cons, List.map_cons, if_pos hq, List.filterMap_cons]
      exact congrArg _ ih
    · rw [List.filter_cons_of_neg (by simpa using hq), List.map_cons, if_neg hq, List.filterMap_cons]
      exact ih

/-- C118: in meters, the figure of a time response has one curve for each probe that can be read, in their order and
under their names: what the probe sees against the instants. -/
theorem C118_time_partial (deg : ℝ → String) (hs : SortsRows pd) (hw : WellFormed six N a)
    (h : init pd fuel a = some (.ok r)) {probe : List Probe} (hp : ∀ p ∈ probe, IsProbe p ∧ Readable a N p.node)
    {t : List ℝ} (ht : t ≠ []) (yout : List (Fin r.ndof → ℝ)) (ut : ℝ) :
    plot1d r deg t yout 1 ut probe =
      .ok ((shown r.number_dof probe).map fun q => (nameOf deg q.1 q.2,
        ⟨t.map (ut * ·), yout.map (seen r.number_dof N q.1)⟩)) := by
  rw [plot1d_eq deg hs hw h hp ht]
  simp only [one_mul]

/-- C118 is false for other units of length: the figure converts the motion twice, so that a node that has moved by one
meter is drawn at the square of the factor of the unit. -/
theorem C118_units_false (deg : ℝ → String) (hs : SortsRows pd) (hw : WellFormed six N a)
    (h : init pd fuel a = some (.ok r)) {p : Probe} (hd : p.direction = "radial") (ha : p.angle = some 0)
    (hn : Readable a N p.node) (ud ut : ℝ) :
    ∃ y : Fin r.ndof → ℝ, seen r.number_dof N p y = 1 ∧
      timeTable r deg [0] [y] ud ut [p] = .ok ([some (nameOf deg p 0, [ud])], [0]) ∧
      plot1d r deg [0] [y] ud ut [p] = .ok [(nameOf deg p 0, ⟨[0], [ud ^ 2]⟩)] := by
  obtain ⟨e0, e1, -, l0, l1, -⟩ := readDof_eq hs hw h hn
  have hy : ∃ y : Fin r.ndof → ℝ, seen r.number_dof N p y = 1 := by
    refine ⟨fun i => if (i : ℕ) = slot r.number_dof N ("x", p.node) then 1 else 0, ?_⟩
    unfold seen
    rw [if_neg (by rw [hd]; decide), ha]
    simp [motion, l0]
  obtain ⟨y, hy⟩ := hy
  have hp : ∀ q ∈ [p], IsProbe q ∧ Readable a N q.node := by
    intro q hq
    rw [List.mem_singleton] at hq
    subst hq
    exact ⟨Or.inl ⟨hd, _, ha⟩, hn⟩
  refine ⟨y, hy, ?_, ?_⟩
  · rw [C118_time_table deg hs hw h hp]
    simp [hd, hy]
  · rw [plot1d_eq deg hs hw h hp (by simp)]
    simp [shown, hd, hy, sq]

/-- C118: without instants there is a table, but no figure. -/
theorem C118_no_instants (deg : ℝ → String) (hs : SortsRows pd) (hw : WellFormed six N a)
    (h : init pd fuel a = some (.ok r)) {p : Probe} (hd : p.direction = "radial") {θ : ℝ} (ha : p.angle = some θ)
    (hn : Readable a N p.node) (ud ut : ℝ) :
    (∃ t, timeTable r deg [] [] ud ut [p] = .ok t) ∧ plot1d r deg [] [] ud ut [p] = .error .indexError := by
  have hp : ∀ q ∈ [p], IsProbe q ∧ Readable a N q.node := by
    intro q hq
    rw [List.mem_singleton] at hq
    subst hq
    exact ⟨Or.inl ⟨hd, _, ha⟩, hn⟩
  have e := C118_time_table deg hs hw h hp [] [] ud ut
  refine ⟨⟨_, e⟩, ?_⟩
  unfold plot1d
  rw [e, ShapeLemmas.ok_bind]
  simp [hd, timeCurve]

/-- C118: the orbit of a node, in the unit that is asked for. -/
theorem C118_orbit (hs : SortsRows pd) (hw : WellFormed six N a) (h : init pd fuel a = some (.ok r))
    {node : ℕ} (hn : Readable a N node) (yout : List (Fin r.ndof → ℝ)) (ud : ℝ) :
    plot2d r yout ud node = .ok ⟨yout.map fun y => ud * motion r.number_dof N y ("x", node),
      yout.map fun y => ud * motion r.number_dof N y ("y", node)⟩ := by
  obtain ⟨e0, e1, -, l0, l1, -⟩ := readDof_eq hs hw h hn
  unfold plot2d orbit2d
  rw [column_motion yout e0 l0, column_motion yout e1 l1]
  simp only [ShapeLemmas.ok_bind, List.map_map]
  rfl

/-- C118: the orbits of all the nodes of the shaft, each at the position of its node, and the center line through the
positions of the nodes. -/
theorem C118_orbits (hw : WellFormed six N a) (h : init pd fuel a = some (.ok r)) (yout : List (Fin r.ndof → ℝ))
    (ud ul : ℝ) :
    plot3d r yout ud ul = .ok ((List.range (N + 1)).map fun n =>
        ⟨yout.map fun _ => ul * position r.shaft n, yout.map fun y => ud * motion r.number_dof N y ("x", n),
          yout.map fun y => ud * motion r.number_dof N y ("y", n)⟩,
      ⟨(List.range (N + 1)).map fun n => ul * position r.shaft n, List.replicate (N + 1) 0,
        List.replicate (N + 1) 0⟩) := by
  obtain ⟨hnd, hN⟩ := ndof_eq' hw h
  have hlen := pos_length hw h
  have hpos : r.nodes_pos = (List.range (N + 1)).map fun n => position r.shaft n := by
    rw [(init_ok h).pos, (full_of_wf hw h).nodesPos]
  unfold plot3d
  rw [hlen]
  have : (List.range (N + 1)).mapM (node3d r yout ud ul) = .ok ((List.range (N + 1)).map fun n =>
      (⟨yout.map fun _ => ul * position r.shaft n, yout.map fun y => ud * motion r.number_dof N y ("x", n),
          yout.map fun y => ud * motion r.number_dof N y ("y", n)⟩ : Curve3)) := by
    rw [mapM_ok_iff, List.map_map]
    refine List.map_congr_left fun n hn => ?_
    rw [List.mem_range] at hn
    obtain ⟨ex, ey, -⟩ := slot_shaft hnd (Nat.lt_succ_iff.1 hn)
    have hlt : r.number_dof * n + 1 < r.ndof := by
      rw [hN, size]
      rcases hnd with e | e <;> rw [e] <;> omega
    unfold node3d
    rw [hpos, List.getElem?_map, List.getElem?_range hn]
    simp only [Option.map_some, Function.comp_apply]
    rw [column_motion (nd := r.number_dof) (N := N) (key := ("x", n)) yout (by rw [ex]) (by rw [ex]; omega),
      column_motion (nd := r.number_dof) (N := N) (key := ("y", n)) yout (by rw [ey]) (by rw [ey]; exact hlt)]
    simp only [ShapeLemmas.ok_bind, List.map_map, List.map_replicate]
    show Except.ok _ = Except.ok _
    congr 2
    simp
  rw [this, ShapeLemmas.ok_bind, hpos, List.map_map]
  rfl

/-! ### Non-vacuity -/

/-- Two radial probes without tags, and one with a tag. -/
noncomputable def exProbes : List Probe :=
  [⟨0, some 0, "radial", none⟩, ⟨1, some 1, "radial", some "drive end"⟩, ⟨2, none, "axial", none⟩,
   ⟨1, some 0, "radial", some ""⟩]

/-- They meet the hypotheses of the theorems on forced responses. -/
example (deg : ℝ → String) : ∃ r, init exPandas 10 exArgs = some (.ok r) ∧ WellFormed false 2 exArgs ∧
    DistinctNames deg 2 exProbes ∧ (radials exProbes).length = 3 := by
  obtain ⟨r, h1, -⟩ := exRotor_exists
  have hr : radials exProbes = [(⟨0, some 0, "radial", none⟩, 0), (⟨1, some 1, "radial", some "drive end"⟩, 1),
      (⟨1, some 0, "radial", some ""⟩, 3)] := by
    unfold radials exProbes
    simp
  have hL : ∀ p i, getLabel deg p i ≠ "drive end" := by
    intro p i h
    unfold getLabel at h
    have h1 := congrArg (fun s : String => s.toList.head?) h
    simp only [String.toList_append] at h1
    have e : ∀ u v : List Char, ((("Probe ").toList ++ u) ++ v).head? = some 'P' := fun _ _ => rfl
    rw [e] at h1
    exact absurd h1 (by decide)
  refine ⟨r, h1, exArgs_wf, ⟨?_, ?_, ?_, ?_⟩, by rw [hr]; rfl⟩
  · intro p hp
    simp only [exProbes, List.mem_cons, List.not_mem_nil, or_false] at hp
    rcases hp with rfl | rfl | rfl | rfl
    · exact Or.inl ⟨rfl, _, rfl⟩
    · exact Or.inl ⟨rfl, _, rfl⟩
    · exact Or.inr rfl
    · exact Or.inl ⟨rfl, _, rfl⟩
  · intro p hp _
    simp only [exProbes, List.mem_cons, List.not_mem_nil, or_false] at hp
    rcases hp with rfl | rfl | rfl | rfl <;> norm_num
  · rw [hr]
    simp only [List.map_cons, List.map_nil, List.nodup_cons, List.mem_cons, List.not_mem_nil, or_false, not_or]
    refine ⟨⟨hL _ _, fun e => ?_⟩, fun e => (hL _ _) e.symm, by simp⟩
    have := ((C118_labels deg _ _ _ _).1 e).1
    omega
  · rw [hr]
    intro q hq
    simp only [List.mem_cons, List.not_mem_nil, or_false] at hq
    rcases hq with rfl | rfl | rfl
    · exact (C118_labels deg _ ⟨0, none, "", none⟩ _ 0).2
    · show "drive end" ≠ "frequency"
      decide
    · exact (C118_labels deg _ ⟨0, none, "", none⟩ _ 0).2

/-- There are such conversions. -/
example : ConvertsAngles fun s => if s ∈ ["rad", "radian", "radians"] then 1 else 180 / Real.pi := by
  refine ⟨fun s hs => if_pos hs, fun s hs => if_neg ?_⟩
  simp only [List.mem_cons, List.not_mem_nil, or_false] at hs ⊢
  rcases hs with rfl | rfl | rfl <;> decide

end Ross.Props
