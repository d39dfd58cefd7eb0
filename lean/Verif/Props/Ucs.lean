import Verif.Lemmas.RunsOne
import Verif.Lemmas.ExRotor
import Verif.Lemmas.Accept2
import Verif.Props.Intersection

/-! # C88: undamped critical speed maps -/

namespace Ross.Props

open Ross Rotor Ross.Spec Ross.RunLemmas Ross.RotorLemmas

variable {env : RunEnv} {r : Rotor} {sr fr : Option (ℝ × ℝ)} {nm num : ℕ} {syn : Bool} {u : Ucs}

/-- **C88** the rotor of the map for a stiffness is built of the same shaft elements and disks, with a spring of that
stiffness, in both directions and without damping, in place of each bearing that is not a seal. -/
theorem C88_springs {k : ℝ} {r' : Rotor} (h : r.onSprings env k = .ok r') :
    ∃ b, List.Forall₂ (fun x y => ∃ e, y = .brg false e ∧ IsSpring e x.n k) (r.bearings.filter fun b => !b.isSeal) b ∧
      Rotor.init env.pd env.fuel { shaft := r.shaft.map Nest.el, disks := r.disks, bearings := b } = some (.ok r') ∧
      r'.pms = [] ∧ ∀ x ∈ r'.bearings, x.n_link = none ∧ x.isSeal = false := by
  obtain ⟨b, hb, hf⟩ := springs_exists env r.bearings k
  unfold onSprings at h
  rw [hb] at h
  have hi := make_ok h
  have ho := init_ok hi
  refine ⟨b, hf, hi, by rw [ho.pms]; rfl, fun x hx => ?_⟩
  rw [ho.bearings] at hx
  have := (parts_br_perm _).mem_iff.1 hx
  unfold tagBearings at this
  obtain ⟨i, hi, rfl⟩ := List.mem_mapIdx.1 this
  obtain ⟨y, -, e, he, hs⟩ := mem_forall₂_left hf.flip (List.getElem_mem hi)
  rw [he]
  exact ⟨hs.ground, rfl⟩

/-- What a successful run went through. -/
theorem ucs_ok (h : r.run_ucs env sr fr nm num syn = .ok u) :
    ∃ range columns b t coeffs points, r.ucsRange sr = .ok range ∧ u.stiffness_range = range ∧
      u.stiffness_log = logspace range.1 range.2 num ∧
      (u.stiffness_log.mapM fun k => do
        let rotor ← r.onSprings env k
        let m ← rotor.modes env 0 nm syn
        fill (nm / 2 / 2) (everyOther m.wn)) = .ok columns ∧
      u.wn = ((List.range (nm / 2 / 2)).map fun j => columns.map fun c => c.getD j 0) ∧
      (r.bearings.filter fun b => !b.isSeal) = b :: t ∧ u.bearing = b.base ∧
      ucsFrequencies fr b.base u.wn = .ok u.bearing_frequency_range ∧
      (b.base.kxx.values = b.base.kyy.values ∧ coeffs = [b.base.kxx] ∨
        b.base.kxx.values ≠ b.base.kyy.values ∧ coeffs = [b.base.kxx, b.base.kyy]) ∧
      (u.wn.mapM fun wn => coeffs.mapM fun c => r.criticalPoints env u.stiffness_log wn c u.bearing_frequency_range) =
        .ok points ∧ u.points = points.flatten.flatten := by
  classical
  unfold run_ucs at h
  obtain ⟨range, h1, h⟩ := bindOk h
  dsimp only at h
  obtain ⟨columns, h2, h⟩ := bindOk h
  split at h
  · cases h
  · rename_i b t hb
    obtain ⟨freq, h3, h⟩ := bindOk h
    obtain ⟨points, h4, h⟩ := bindOk h
    have h := Except.ok.inj h
    refine ⟨range, columns, b, t, _, points, h1, by rw [← h], by rw [← h], by rw [← h]; exact h2, by rw [← h], hb,
      by rw [← h], by rw [← h]; exact h3, ?_, by rw [← h]; exact h4, by rw [← h]⟩
    split_ifs with hc
    · exact .inl ⟨hc, rfl⟩
    · exact .inr ⟨hc, rfl⟩

/-- **C88** the stiffnesses of the map are evenly spaced on a logarithmic scale over the range; there are as many
curves as a quarter of `num_modes`, and each has one point per stiffness. -/
theorem C88_shape (h : r.run_ucs env sr fr nm num syn = .ok u) :
    u.stiffness_log.length = num ∧ u.wn.length = nm / 4 ∧ (∀ row ∈ u.wn, row.length = num) ∧
    (∀ a b, sr = some (a, b) → u.stiffness_range = (a, b)) ∧
    ∀ i < num, 2 ≤ num → u.stiffness_log[i]? = some ((10 : ℝ) ^ (u.stiffness_range.1 +
      i * ((u.stiffness_range.2 - u.stiffness_range.1) / (num - 1)))) := by
  obtain ⟨range, columns, b, t, coeffs, points, h1, h2, h3, h4, h5, -⟩ := ucs_ok h
  have hl : u.stiffness_log.length = num := by rw [h3]; simp [logspace, linspace_length]
  refine ⟨hl, by rw [h5]; simp; omega, fun row hrow => ?_, ?_, fun i hi hn => ?_⟩
  · rw [h5] at hrow
    obtain ⟨j, -, rfl⟩ := List.mem_map.1 hrow
    rw [List.length_map, (mapM_get h4).1, hl]
  · rintro a b rfl
    rw [h2]
    exact (Except.ok.inj h1).symm
  · rw [h3, h2]
    unfold logspace
    rw [List.getElem?_map, linspace_get hi hn]
    rfl

/-- **C88** without a given range, the range reaches three decades to both sides of the order of magnitude of the
stiffness of the first bearing at the rated speed, and from `10 ^ 6` to `10 ^ 11` if there is no rated speed. -/
theorem C88_default (h : r.run_ucs env none fr nm num syn = .ok u) :
    (r.rated_w = none → u.stiffness_range = (6, 11)) ∧
    ∀ w, r.rated_w = some w → ∃ b t k, r.bearings = b :: t ∧ b.base.kxx.eval w = .ok k ∧ 0 < k ∧
      ∀ q : ℤ, 0 ≤ q → (10 : ℝ) ^ q ≤ k → k < 10 ^ (q + 1) → u.stiffness_range = ((q : ℝ) - 3, (q : ℝ) + 3) := by
  obtain ⟨range, columns, b, t, coeffs, points, h1, h2, -⟩ := ucs_ok h
  unfold ucsRange at h1
  refine ⟨fun hw => ?_, fun w hw => ?_⟩
  · rw [hw] at h1
    rw [h2]; exact (Except.ok.inj h1).symm
  · rw [hw] at h1
    cases hb : r.bearings with
    | nil => rw [hb] at h1; cases h1
    | cons b t =>
      rw [hb] at h1
      obtain ⟨k, hk, h1⟩ := bindOk h1
      obtain ⟨q, hq, h1⟩ := bindOk h1
      have h1 := Except.ok.inj h1
      unfold intLog10 at hq
      split_ifs at hq with hp hl
      · refine ⟨b, t, k, rfl, hk, hp, fun q' h0 hle hlt => ?_⟩
        have hq := Except.ok.inj hq
        have hfl : ⌊Real.logb 10 k⌋ = q' := by
          rw [Int.floor_eq_iff]
          constructor
          · rw [Real.le_logb_iff_rpow_le (by norm_num) hp, Real.rpow_intCast]
            exact hle
          · have : ((q' : ℝ) + 1) = ((q' + 1 : ℤ) : ℝ) := by push_cast; ring
            rw [Real.logb_lt_iff_lt_rpow (by norm_num) hp, this, Real.rpow_intCast]
            exact hlt
        rw [h2, ← h1, ← hq, hfl]
      · refine ⟨b, t, k, rfl, hk, hp, fun q' h0 hle hlt => ?_⟩
        exfalso
        apply hl
        rw [Real.le_logb_iff_rpow_le (by norm_num) hp, Real.rpow_zero]
        exact le_trans (one_le_zpow₀ (by norm_num) h0) hle

/-- **C88** point `i` of curve `j` is natural frequency `2 j` at rest of the rotor on springs of stiffness `i` (or the first
frequency, if the analysis finds only two). -/
theorem C88_map (h : r.run_ucs env sr fr nm num syn = .ok u) {i : ℕ} {k : ℝ} (hk : u.stiffness_log[i]? = some k) :
    ∃ r' m, r.onSprings env k = .ok r' ∧ r'.modes env 0 nm syn = .ok m ∧
      ∀ (j : ℕ) row, u.wn[j]? = some row → ∃ w, row[i]? = some w ∧
        (m.wn[2 * j]? = some w ∨ m.wn.length ≤ 2 ∧ m.wn[0]? = some w) := by
  obtain ⟨range, columns, b, t, coeffs, points, h1, h2, h3, h4, h5, -⟩ := ucs_ok h
  have hi : i < columns.length := by
    rw [(mapM_get h4).1]; exact (List.getElem?_eq_some_iff.1 hk).1
  have hc := List.getElem?_eq_getElem hi
  have hf := (mapM_get h4).2 i k _ hk hc
  obtain ⟨r', e1, hf⟩ := bindOk hf
  obtain ⟨m, e2, hf⟩ := bindOk hf
  refine ⟨r', m, e1, e2, fun j row hj => ?_⟩
  rw [h5, List.getElem?_map, Option.map_eq_some_iff] at hj
  obtain ⟨j', hj', rfl⟩ := hj
  obtain ⟨hjn, rfl⟩ := List.getElem?_eq_some_iff.1 hj'
  simp only [List.length_range] at hjn
  simp only [List.getElem_range]
  rw [List.getElem?_map, hc, Option.map_some]
  refine ⟨_, rfl, ?_⟩
  obtain ⟨hl, hcase⟩ := fill_ok hf
  rcases hcase with ⟨hel, he⟩ | ⟨hel, x, hx, he⟩
  · left
    rw [← everyOther_get, ← he, List.getD_eq_getElem?_getD, List.getElem?_eq_getElem (by omega)]
    rfl
  · right
    have hone := congrArg List.length hx
    rw [everyOther_length, List.length_singleton] at hone
    refine ⟨by omega, ?_⟩
    have h0 : (everyOther m.wn)[0]? = some x := by rw [hx]; rfl
    rw [everyOther_get] at h0
    rw [he, List.getD_eq_getElem?_getD, List.getElem?_replicate_of_lt (by omega)]
    exact h0

theorem mem_mapM {α β : Type} {f : α → Res β} {l : List α} {p : List β} (h : l.mapM f = .ok p) {b : β} :
    b ∈ p ↔ ∃ a ∈ l, f a = .ok b := by
  rw [mapM_ok_iff] at h
  constructor
  · intro hb
    have : (Except.ok b : Res β) ∈ l.map f := by rw [h]; exact List.mem_map.2 ⟨b, hb, rfl⟩
    obtain ⟨a, ha, hf⟩ := List.mem_map.1 this
    exact ⟨a, ha, hf⟩
  · rintro ⟨a, ha, hf⟩
    have : (Except.ok b : Res β) ∈ p.map Except.ok := by rw [← h]; exact List.mem_map.2 ⟨a, ha, hf⟩
    obtain ⟨c, hc, hcb⟩ := List.mem_map.1 this
    obtain rfl := Except.ok.inj hcb
    exact hc

/-- The stiffness of a bearing against frequency, at the given frequencies. -/
def StiffnessCurve (c : Coeff) (freq : List ℝ) (curve : List (ℝ × ℝ)) : Prop :=
  List.Forall₂ (fun f p => p.2 = f ∧ c.eval f = .ok p.1) freq curve

theorem curve_zip {c : Coeff} : ∀ {freq x2 : List ℝ}, freq.mapM c.eval = .ok x2 → StiffnessCurve c freq (x2.zip freq)
  | [], x2, h => by
    obtain rfl := Except.ok.inj h
    exact .nil
  | f :: t, x2, h => by
    rw [List.mapM_cons] at h
    obtain ⟨a, ha, h⟩ := bindOk h
    obtain ⟨l, hl, h⟩ := bindOk h
    obtain rfl := Except.ok.inj h
    exact .cons ⟨rfl, ha⟩ (curve_zip hl)

theorem curve_unique {c : Coeff} : ∀ {freq : List ℝ} {p q : List (ℝ × ℝ)}, StiffnessCurve c freq p →
    StiffnessCurve c freq q → p = q
  | [], _, _, .nil, .nil => rfl
  | f :: t, _, _, .cons h1 h2, .cons h3 h4 => by
    rw [curve_unique h2 h4]
    congr 1
    refine Prod.ext ?_ (h1.1.trans h3.1.symm)
    have := h1.2
    rw [h3.2] at this
    exact (Except.ok.inj this).symm

/-- **C88** the critical points are exactly the points where a curve of the map crosses the curve of the stiffness `kxx`,
or `kyy` if it is different, of the first bearing against frequency; each comes with the modes of the rotor on springs of
that stiffness at that speed. -/
theorem C88_points (h : r.run_ucs env sr fr nm num syn = .ok u) :
    ∃ b t, (r.bearings.filter fun b => !b.isSeal) = b :: t ∧ u.bearing = b.base ∧
      (∀ p ∈ u.points, (∃ row ∈ u.wn, ∃ c curve i j, (c = b.base.kxx ∨ c = b.base.kyy) ∧
          StiffnessCurve c u.bearing_frequency_range curve ∧ Crossing (u.stiffness_log.zip row) curve i j (p.x, p.y)) ∧
        ∃ r', r.onSprings env p.x = .ok r' ∧ r'.modes env p.y = .ok p.modal) ∧
      ∀ row ∈ u.wn, ∀ c, c = b.base.kxx ∨ c = b.base.kyy ∧ b.base.kxx.values ≠ b.base.kyy.values →
        ∀ curve, StiffnessCurve c u.bearing_frequency_range curve → ∀ i j x y,
          Crossing (u.stiffness_log.zip row) curve i j (x, y) → ∃ p ∈ u.points, p.x = x ∧ p.y = y := by
  obtain ⟨range, columns, b, t, coeffs, points, h1, h2, h3, h4, h5, h6, h7, h8, h9, h10, h11⟩ := ucs_ok h
  refine ⟨b, t, h6, h7, fun p hp => ?_, fun row hrow c hc curve hcurve i j x y hx => ?_⟩
  · rw [h11] at hp
    obtain ⟨l1, hl1, hp⟩ := List.mem_flatten.1 hp
    obtain ⟨l2, hl2, hl1'⟩ := List.mem_flatten.1 hl1
    obtain ⟨row, hrow, hf⟩ := (mem_mapM h10).1 hl2
    obtain ⟨c, hc, hf⟩ := (mem_mapM hf).1 hl1'
    unfold criticalPoints at hf
    obtain ⟨x2, hx2, hf⟩ := bindOk hf
    obtain ⟨q, hq, hf⟩ := bindOk hf
    obtain ⟨z, hz, hf⟩ := (mem_mapM hf).1 hp
    obtain ⟨r', e1, hf⟩ := bindOk hf
    obtain ⟨m, e2, hf⟩ := bindOk hf
    obtain rfl := Except.ok.inj hf
    obtain ⟨i, j, hcr⟩ := C34_sound hq hz
    refine ⟨⟨row, hrow, c, x2.zip _, i, j, ?_, curve_zip hx2, hcr⟩, r', e1, e2⟩
    rcases h9 with ⟨-, rfl⟩ | ⟨-, rfl⟩
    · exact .inl (List.mem_singleton.1 hc)
    · simpa using hc
  · have hcm : c ∈ coeffs := by
      rcases h9 with ⟨e, rfl⟩ | ⟨-, rfl⟩
      · rcases hc with rfl | ⟨-, hne⟩
        · exact List.mem_singleton.2 rfl
        · exact absurd e hne
      · rcases hc with rfl | ⟨rfl, -⟩ <;> simp
    have hg : ∃ g, (coeffs.mapM fun c => r.criticalPoints env u.stiffness_log row c u.bearing_frequency_range) = .ok g ∧
        g ∈ points := by
      have he := (mapM_ok_iff _ _ _).1 h10
      have : (coeffs.mapM fun c => r.criticalPoints env u.stiffness_log row c u.bearing_frequency_range) ∈
          points.map Except.ok := by
        rw [← he]
        exact List.mem_map.2 ⟨row, hrow, rfl⟩
      obtain ⟨g, hg, hge⟩ := List.mem_map.1 this
      exact ⟨g, hge.symm, hg⟩
    obtain ⟨g, hg, hgm⟩ := hg
    have hl : ∃ l, r.criticalPoints env u.stiffness_log row c u.bearing_frequency_range = .ok l ∧ l ∈ g := by
      have he := (mapM_ok_iff _ _ _).1 hg
      have : r.criticalPoints env u.stiffness_log row c u.bearing_frequency_range ∈ g.map Except.ok := by
        rw [← he]
        exact List.mem_map.2 ⟨c, hcm, rfl⟩
      obtain ⟨l, hl, hle⟩ := List.mem_map.1 this
      exact ⟨l, hle.symm, hl⟩
    obtain ⟨l, hl, hlm⟩ := hl
    have hlu : ∀ p ∈ l, p ∈ u.points := fun p hp => by
      rw [h11]
      exact List.mem_flatten.2 ⟨l, List.mem_flatten.2 ⟨g, hgm, hlm⟩, hp⟩
    unfold criticalPoints at hl
    obtain ⟨x2, hx2, hl⟩ := bindOk hl
    obtain ⟨q, hq, hl⟩ := bindOk hl
    obtain rfl := curve_unique hcurve (curve_zip hx2)
    have hz := C34_complete hq hx
    have he := (mapM_ok_iff _ _ _).1 hl
    obtain ⟨n, hn⟩ := List.mem_iff_getElem?.1 hz
    obtain ⟨hnl, -⟩ := List.getElem?_eq_some_iff.1 hn
    have hnp : n < l.length := by rw [(mapM_get hl).1]; exact hnl
    have hf := (mapM_get hl).2 n _ _ hn (List.getElem?_eq_getElem hnp)
    obtain ⟨r', e1, hf⟩ := bindOk hf
    obtain ⟨m, e2, hf⟩ := bindOk hf
    refine ⟨l[n], hlu _ (List.getElem_mem hnp), ?_⟩
    rw [← Except.ok.inj hf]
    exact ⟨rfl, rfl⟩

/-- **C88** a given range of frequencies of the bearing is divided evenly into thirty frequencies; otherwise those of the
table of the bearing are used. -/
theorem C88_frequencies (h : r.run_ucs env sr fr nm num syn = .ok u) :
    (∀ a b, fr = some (a, b) → u.bearing_frequency_range.length = 30 ∧
      ∀ i < 30, u.bearing_frequency_range[i]? = some (a + (i : ℕ) * ((b - a) / 29))) ∧
    (∀ f, fr = none → u.bearing.frequency = some f → u.bearing_frequency_range = f) ∧
    (fr = none → u.bearing.frequency = none → ∃ lo hi, lo ∈ u.wn.flatten ∧ hi ∈ u.wn.flatten ∧
      (∀ w ∈ u.wn.flatten, lo ≤ w ∧ w ≤ hi) ∧ u.bearing_frequency_range = linspace (lo - lo * 0.1) (hi + lo * 0.1) 10) := by
  obtain ⟨range, columns, b, t, coeffs, points, h1, h2, h3, h4, h5, h6, h7, h8, -⟩ := ucs_ok h
  rw [h7]
  unfold ucsFrequencies at h8
  refine ⟨?_, ?_, ?_⟩
  · rintro a b' rfl
    have h8 := Except.ok.inj h8
    rw [← h8]
    refine ⟨linspace_length _ _ _, fun i hi => ?_⟩
    rw [linspace_get hi (by norm_num)]
    norm_num
  · rintro f rfl hf
    rw [hf] at h8
    exact (Except.ok.inj h8).symm
  · rintro rfl hf
    rw [hf] at h8
    obtain ⟨lo, hlo, h8⟩ := bindOk h8
    obtain ⟨hi, hhi, h8⟩ := bindOk h8
    unfold smallest at hlo
    unfold greatest at hhi
    cases e1 : u.wn.flatten.min? with
    | none => rw [e1] at hlo; cases hlo
    | some x =>
      cases e2 : u.wn.flatten.max? with
      | none => rw [e2] at hhi; cases hhi
      | some y =>
        rw [e1] at hlo
        rw [e2] at hhi
        obtain rfl := Except.ok.inj hlo
        obtain rfl := Except.ok.inj hhi
        rw [List.min?_eq_some_iff] at e1
        rw [List.max?_eq_some_iff] at e2
        exact ⟨x, y, e1.1, e2.1, fun w hw => ⟨e1.2 w hw, e2.2 w hw⟩, (Except.ok.inj h8).symm⟩

/-- **C88** supports are not carried over: a rotor with a bearing on a node beyond the shaft, as a support under a bearing
is, has no map. -/
theorem C88_support {pd : Pandas} {fuel : ℕ} {a : RotorArgs} (h : Rotor.init pd fuel a = some (.ok r)) {b : BrgEl}
    (hb : b ∈ r.bearings) (hs : b.isSeal = false) (hout : ∀ e ∈ r.shaft, nodeOf e + 1 < b.n) (hn : num ≠ 0) :
    ∃ e, r.run_ucs env sr fr nm num syn = .error e := by
  have hno : ∀ k r', r.onSprings env k ≠ .ok r' := by
    intro k r' h'
    obtain ⟨l, hf, hi, -⟩ := C88_springs h'
    obtain ⟨y, hy, e, rfl, hsp⟩ := mem_forall₂_left hf (List.mem_filter.2 ⟨hb, by simp [hs]⟩)
    obtain ⟨x, hx, hle⟩ := bearing_inside hi rfl hy
    obtain ⟨z, hz, hzn⟩ := same_nodes h hi rfl hx
    have h1 := hout z hz
    have h2 : (BrgEl.brg false e).n = b.n := hsp.n
    omega
  cases hu : r.run_ucs env sr fr nm num syn with
  | error e => exact ⟨e, rfl⟩
  | ok u =>
    exfalso
    have hl := (C88_shape hu).1
    have h0 : 0 < u.stiffness_log.length := by omega
    obtain ⟨r', m, e1, -⟩ := C88_map hu (List.getElem?_eq_getElem h0)
    exact hno _ _ e1

/-- **C88** each analysis has to find two natural frequencies per curve (or one or two in all, which then make every curve). -/
theorem C88_fits (h : r.run_ucs env sr fr nm num syn = .ok u) {k : ℝ} (hk : k ∈ u.stiffness_log) :
    ∃ r' m, r.onSprings env k = .ok r' ∧ r'.modes env 0 nm syn = .ok m ∧
      ((m.wn.length + 1) / 2 = nm / 4 ∨ m.wn.length = 1 ∨ m.wn.length = 2) := by
  obtain ⟨range, columns, b, t, coeffs, points, h1, h2, h3, h4, h5, -⟩ := ucs_ok h
  obtain ⟨i, hi⟩ := List.mem_iff_getElem?.1 hk
  have hc : i < columns.length := by rw [(mapM_get h4).1]; exact (List.getElem?_eq_some_iff.1 hi).1
  have hf := (mapM_get h4).2 i _ _ hi (List.getElem?_eq_getElem hc)
  obtain ⟨r', e1, hf⟩ := bindOk hf
  obtain ⟨m, e2, hf⟩ := bindOk hf
  refine ⟨r', m, e1, e2, ?_⟩
  obtain ⟨-, hcase⟩ := fill_ok hf
  rcases hcase with ⟨hel, -⟩ | ⟨-, x, hx, -⟩
  · rw [everyOther_length] at hel
    omega
  · have := congrArg List.length hx
    rw [everyOther_length, List.length_singleton] at this
    omega

/-- **C88** with more than four modes, `num_modes` has to be a multiple of four, or one more, for a map to be drawn: an
odd number of natural frequencies does not fit. -/
theorem C88_num_modes (hn : num ≠ 0) (hodd : nm / 2 % 2 = 1) (h3 : 3 ≤ nm / 2)
    (hfull : ∀ k r' m, r.onSprings env k = .ok r' → r'.modes env 0 nm syn = .ok m → m.wn.length = nm / 2) :
    ∃ e, r.run_ucs env sr fr nm num syn = .error e := by
  cases hu : r.run_ucs env sr fr nm num syn with
  | error e => exact ⟨e, rfl⟩
  | ok u =>
    exfalso
    obtain ⟨range, columns, b, t, coeffs, points, h1, h2, h3', h4, h5, -⟩ := ucs_ok hu
    have hl := (C88_shape hu).1
    have h0 : 0 < u.stiffness_log.length := by omega
    have hc : 0 < columns.length := by rw [(mapM_get h4).1]; exact h0
    have hf := (mapM_get h4).2 0 _ _ (List.getElem?_eq_getElem h0) (List.getElem?_eq_getElem hc)
    obtain ⟨r', e1, hf⟩ := bindOk hf
    obtain ⟨m, e2, hf⟩ := bindOk hf
    have hm := hfull _ _ _ e1 e2
    obtain ⟨-, hcase⟩ := fill_ok hf
    rcases hcase with ⟨hel, -⟩ | ⟨-, x, hx, -⟩
    · rw [everyOther_length] at hel
      omega
    · have := congrArg List.length hx
      rw [everyOther_length, List.length_singleton] at this
      omega

/-- **C88** so the map is not always that of the rotor: the example with a support can be built and has none. -/
theorem C88_support_false : ∃ r, Rotor.init exPandas 10 exArgs = some (.ok r) ∧
    ∀ env sr fr nm num syn, num ≠ 0 → ∃ e, r.run_ucs env sr fr nm num syn = .error e := by
  obtain ⟨r, h1, -, h3⟩ := exRotor_exists
  refine ⟨r, h1, fun env sr fr nm num syn hn => ?_⟩
  have ho := init_ok h1
  have hb : ∃ b ∈ r.bearings, b.isSeal = false ∧ b.n = 3 := by
    rw [ho.bearings]
    refine ⟨_, (parts_br_perm exArgs).mem_iff.2 (List.mem_mapIdx.2 ⟨0, by simp [exArgs], rfl⟩), ?_, ?_⟩ <;> rfl
  obtain ⟨b, hb, hs, hbn⟩ := hb
  refine C88_support h1 hb hs (fun e he => ?_) hn
  rw [ho.shaft] at he
  have h2 : nodeOf e ∈ givenNodes exArgs := by
    rw [← numberShaft_nodes]
    exact List.mem_map_of_mem ((parts_sh_perm _).mem_iff.1 he)
  replace h2 : nodeOf e ∈ [0, 1] := h2
  rw [hbn]
  simp at h2
  omega

/-- A map with a critical point: the rotor has a bearing of stiffness `10 ^ 6`, and a solver that finds the frequency `100`
for every rotor meets it there. -/
example : ∃ (env : RunEnv) (r : Rotor) (u : Ucs), r.run_ucs env (some (5, 7)) none 4 2 = .ok u ∧ u.wn = [[100, 100]] ∧
    ∃ p ∈ u.points, p.x = 1e6 ∧ p.y = 100 := by
  obtain ⟨r, h1, h2, h3, h4, h5, h6, h7, h8, h9, h10⟩ := one_rotor none
  let env : RunEnv := ⟨⟨fun _ _ => none, fun _ _ _ => none⟩, onePair, exPandas, 10, secant, fun _ => []⟩
  have hon : ∀ k, ∃ r', r.onSprings env k = .ok r' ∧ ∀ s n, ∃ m, r'.modes env s n = .ok m ∧
      m.wn = ([100, 100] : List ℝ).take (n / 2) := by
    intro k
    obtain ⟨e, he, hp, hn, ht⟩ := plain_scalar env.sp false 0 (by norm_num) k 0 0 0
    obtain ⟨r', g1, g2, g3, g4, g5, g6, -⟩ := one_facts (w := none) (bs := [.brg false e]) (by simp)
      (fun b hb => by rw [List.mem_singleton.1 hb]; exact hp) (by
        simp [allTags, oneArgs, ht, shaftList, Nest.flattenAll, Nest.flatten, BrgEl.tag, BrgEl.base, tagOr, BrgEl.isSeal]
        decide) (by simp)
    refine ⟨r', ?_, fun s n => ?_⟩
    · have hs : springs env r.bearings k = .ok [.brg false e] := by
        rw [h9]
        unfold springs
        show ([exSupport].mapM fun b => do
          let e ← BearingElement.init env.sp { n := b.n, kxx := .scalar k, cxx := .scalar 0 }
          pure (BrgEl.brg false e)) = _
        rw [List.mapM_cons, show BearingElement.init env.sp { n := exSupport.n, kxx := .scalar k, cxx := .scalar 0 } = .ok e
          from he]
        rfl
      unfold onSprings make
      rw [hs, h7, h8]
      show (match Rotor.init exPandas 10 (oneArgs none [.brg false e]) with
        | some x => x
        | none => Except.error PyErr.exception) = _
      rw [g1]
    · obtain ⟨m, e1, e2, -⟩ := modes_onePair (env := env) rfl (n := n) (g6 s) g2 g3 g4 g5
      exact ⟨m, e1, e2⟩
  have hcol : ((logspace 5 7 2).mapM fun k => do
      let rotor ← r.onSprings env k
      let m ← rotor.modes env 0 4 false
      fill (4 / 2 / 2) (everyOther m.wn)) = .ok [[100], [100]] := by
    refine (mapM_const fun k _ => ?_).trans (by simp [logspace, linspace_length]; rfl)
    obtain ⟨r', e1, e2⟩ := hon k
    obtain ⟨m, e2, e3⟩ := e2 0 4
    rw [e1]
    simp only [bind, Except.bind]
    rw [e2]
    simp only [e3]
    rfl
  have hmin : smallest ([[100, 100]] : List (List ℝ)).flatten = .ok 100 := by
    simp [smallest]
  have hmax : greatest ([[100, 100]] : List (List ℝ)).flatten = .ok 100 := by
    simp [greatest]
  have hfreq : ucsFrequencies none exSupport.base [[100, 100]] = .ok (linspace 90 110 10) := by
    unfold ucsFrequencies
    rw [hmin, hmax]
    simp only [exSupport, BrgEl.base, exBrg, bind, Except.bind, pure, Except.pure]
    norm_num
  have hk : (linspace 90 110 10).mapM exSupport.base.kxx.eval = .ok (List.replicate (linspace 90 110 10).length 1e6) :=
    mapM_const fun w _ => by simp [exSupport, BrgEl.base, exBrg, constCoeff, Coeff.eval]
  obtain ⟨⟨xs, ys⟩, hi⟩ := (C34_errors (x1 := logspace 5 7 2) (y1 := [100, 100]) (x2 := List.replicate (linspace 90 110 10).length 1e6)
    (y2 := linspace 90 110 10)).1.2 ⟨by simp [logspace, linspace_length], by simp, by simp [logspace, linspace],
      by simp [linspace_length]⟩
  obtain ⟨ps, hps⟩ := mapM_total (l := xs.zip ys) (f := fun q => do
    let rotor ← r.onSprings env q.1
    let m ← rotor.modes env q.2
    pure (⟨q.1, q.2, m⟩ : CriticalPoint)) fun q _ => by
      obtain ⟨r', e1, e2⟩ := hon q.1
      obtain ⟨m, e2, -⟩ := e2 q.2 12
      exact ⟨_, by rw [e1]; simp only [bind, Except.bind]; rw [e2]; rfl⟩
  have hcp : r.criticalPoints env (logspace 5 7 2) [100, 100] exSupport.base.kxx (linspace 90 110 10) = .ok ps := by
    unfold criticalPoints
    rw [hk]
    simp only [bind, Except.bind]
    rw [hi]
    exact hps
  have hu : ∃ u, r.run_ucs env (some (5, 7)) none 4 2 = .ok u ∧ u.wn = [[100, 100]] := by
    unfold run_ucs ucsRange
    simp only [bind, Except.bind]
    simp only [bind, Except.bind] at hcol
    rw [hcol, h9]
    have : (List.filter (fun b => !b.isSeal) [exSupport]) = [exSupport] := rfl
    rw [this]
    simp only
    have hw : ((List.range (4 / 2 / 2)).map fun j => ([[100], [100]] : List (List ℝ)).map fun c => c.getD j 0) = [[100, 100]] :=
      rfl
    rw [hw, hfreq]
    simp only
    have hv : exSupport.base.kxx.values = exSupport.base.kyy.values := rfl
    simp only [if_pos hv]
    simp only [List.mapM_cons, List.mapM_nil, bind, Except.bind, pure, Except.pure]
    rw [hcp]
    exact ⟨_, rfl, rfl⟩
  obtain ⟨u, hu, hwn⟩ := hu
  refine ⟨env, r, u, hu, hwn, ?_⟩
  obtain ⟨b, t, hb, hub, -, hcomp⟩ := C88_points hu
  have hbe : b = exSupport := by
    rw [h9] at hb
    exact (List.cons.inj hb).1.symm
  subst hbe
  obtain ⟨-, -, hf⟩ := C88_frequencies hu
  have hlog : u.stiffness_log = logspace 5 7 2 := by
    obtain ⟨range, _, _, _, _, _, g1, g2, g3, -⟩ := ucs_ok hu
    rw [g3]
    obtain rfl := Except.ok.inj g1
    rfl
  have hfr : u.bearing_frequency_range = linspace 90 110 10 := by
    obtain ⟨_, _, b', _, _, _, g1, g2, g3, g4, g5, g6, g7, g8, -⟩ := ucs_ok hu
    rw [h9] at g6
    obtain rfl := (List.cons.inj g6).1
    rw [hwn] at g8
    rw [show ucsFrequencies none _ _ = _ from hfreq] at g8
    exact (Except.ok.inj g8).symm
  rw [hfr] at hcomp
  refine hcomp [100, 100] (by rw [hwn]; simp) _ (.inl rfl) _ (curve_zip hk) 0 4 1e6 100 ?_
  rw [hlog]
  have e1 : (logspace 5 7 2).zip [100, 100] = [((10 : ℝ) ^ (5 : ℝ), (100 : ℝ)), ((10 : ℝ) ^ (7 : ℝ), 100)] := by
    norm_num [logspace, linspace, List.range_succ]
  have e5 : (10 : ℝ) ^ (5 : ℝ) = 100000 := by
    rw [show (5 : ℝ) = ((5 : ℕ) : ℝ) by norm_num, Real.rpow_natCast]; norm_num
  have e7 : (10 : ℝ) ^ (7 : ℝ) = 10000000 := by
    rw [show (7 : ℝ) = ((7 : ℕ) : ℝ) by norm_num, Real.rpow_natCast]; norm_num
  have hlen : ((List.replicate (linspace 90 110 10).length (1e6 : ℝ)).zip (linspace 90 110 10)).length = 10 := by
    simp [linspace_length]
  have e2 : ∀ (i : ℕ) (hi : i < ((List.replicate (linspace 90 110 10).length (1e6 : ℝ)).zip (linspace 90 110 10)).length),
      ((List.replicate (linspace 90 110 10).length (1e6 : ℝ)).zip (linspace 90 110 10))[i] = ((1e6 : ℝ), (90 : ℝ) + (i : ℝ) * (20 / 9)) := by
    intro i hi
    rw [hlen] at hi
    have := linspace_get (a := 90) (b := 110) hi (by norm_num)
    rw [List.getElem?_eq_some_iff] at this
    obtain ⟨hl, this⟩ := this
    rw [List.getElem_zip, this, List.getElem_replicate]
    norm_num
  refine ⟨by rw [e1]; simp, by rw [hlen]; norm_num, ?_, ?_, ?_⟩
  · rw [e2, e2]
    simp only [e1, e5, e7]
    norm_num [Transversal]
  · refine ⟨1 / 11, ?_⟩
    simp only [e1, e5, e7]
    norm_num
  · refine ⟨1 / 2, ?_⟩
    rw [e2, e2]
    norm_num

end Ross.Props
