import Verif.Model.MapPlots
import Verif.Spec.MapPlots
import Verif.Props.Ucs
import Verif.Props.Level1
import Verif.Lemmas.StPlots

/-!
# C120: figures of maps and coefficients
-/

namespace Ross.Props

open Ross Rotor Ross.Spec Ross.RunLemmas MapPlots

/-- A point in other units. -/
def inUnits (us uf : ℝ) (p : ℝ × ℝ) : ℝ × ℝ := (us * p.1, uf * p.2)

theorem crossing_units {us uf : ℝ} (hs : us ≠ 0) (hf : uf ≠ 0) (P Q : List (ℝ × ℝ)) (i j : ℕ) (p : ℝ × ℝ) :
    Crossing (P.map (inUnits us uf)) (Q.map (inUnits us uf)) i j (inUnits us uf p) ↔ Crossing P Q i j p := by
  have hon : ∀ a b : ℝ × ℝ, OnSegment (inUnits us uf a) (inUnits us uf b) (inUnits us uf p) ↔ OnSegment a b p := by
    intro a b
    refine exists_congr fun t => and_congr_right fun _ => and_congr_right fun _ => ?_
    simp only [inUnits, Prod.ext_iff]
    constructor
    · rintro ⟨h1, h2⟩
      exact ⟨mul_left_cancel₀ hs (by rw [h1]; ring), mul_left_cancel₀ hf (by rw [h2]; ring)⟩
    · rintro ⟨h1, h2⟩
      rw [h1, h2]
      constructor <;> ring
  have htr : ∀ a b c d : ℝ × ℝ, Transversal (inUnits us uf a) (inUnits us uf b) (inUnits us uf c) (inUnits us uf d) ↔
      Transversal a b c d := by
    intro a b c d
    simp only [Transversal, inUnits, ne_eq]
    refine not_congr ?_
    constructor
    · intro h
      exact mul_left_cancel₀ (mul_ne_zero hs hf) (by linear_combination h)
    · intro h
      linear_combination (us * uf) * h
  unfold Crossing
  simp only [List.length_map, List.getElem_map, hon, htr]

theorem zip_units (us uf : ℝ) (x y : List ℝ) :
    (x.map (us * ·)).zip (y.map (uf * ·)) = (x.zip y).map (inUnits us uf) := by
  rw [List.zip_map]
  rfl

variable {env : RunEnv} {r : Rotor} {sr fr : Option (ℝ × ℝ)} {nm num : ℕ} {syn : Bool} {u : Ucs}

/-- C120: the figure of an undamped critical speed map has a curve for each row of the map, and the stiffness of the
bearing against frequency, all in the units that are asked for; the marked points are exactly the points where the
curves of the map cross those of the bearing, as they are drawn. -/
theorem C120_map (h : r.run_ucs env sr fr nm num syn = .ok u) {us uf : ℝ} (hs : us ≠ 0) (hf : uf ≠ 0) {f : UcsFig}
    (hp : ucsPlot u us uf = .ok f) :
    f.curves.length = u.wn.length ∧
    (∀ (j : ℕ) (row : List ℝ), u.wn[j]? = some row → ∃ c, f.curves[j]? = some c ∧
      c.x.length = u.stiffness_log.length ∧ c.y.length = row.length ∧
      (∀ (i : ℕ) (k : ℝ), u.stiffness_log[i]? = some k → c.x[i]? = some (us * k)) ∧
      ∀ (i : ℕ) (w : ℝ), row[i]? = some w → c.y[i]? = some (uf * w)) ∧
    f.kxx.x.length = u.bearing_frequency_range.length ∧ f.kyy.x.length = u.bearing_frequency_range.length ∧
    f.kxx.y.length = u.bearing_frequency_range.length ∧ f.kyy.y = f.kxx.y ∧
    (∀ (i : ℕ) (w : ℝ), u.bearing_frequency_range[i]? = some w → f.kxx.y[i]? = some (uf * w) ∧
      (∀ k, u.bearing.kxx.eval w = .ok k → f.kxx.x[i]? = some (us * k)) ∧
      ∀ k, u.bearing.kyy.eval w = .ok k → f.kyy.x[i]? = some (us * k)) ∧
    (∀ p ∈ pointsOf f.points.x f.points.y, ∃ c ∈ f.curves, ∃ k, (k = f.kxx ∨ k = f.kyy) ∧
      ∃ i j, Crossing (pointsOf c.x c.y) (pointsOf k.x k.y) i j p) ∧
    ∀ c ∈ f.curves, ∀ k, k = f.kxx ∨ k = f.kyy ∧ u.bearing.kxx.values ≠ u.bearing.kyy.values → ∀ i j p,
      Crossing (pointsOf c.x c.y) (pointsOf k.x k.y) i j p → p ∈ pointsOf f.points.x f.points.y := by
  unfold ucsPlot at hp
  obtain ⟨kxx, hkx, hp⟩ := bindOk hp
  obtain ⟨kyy, hky, hp⟩ := bindOk hp
  cases hp
  obtain ⟨b, t, -, hb, hsound, hcomplete⟩ := C88_points h
  have gx := mapM_get hkx
  have gy := mapM_get hky
  have hpts : ∀ p, p ∈ pointsOf (u.points.map fun p => us * p.x) (u.points.map fun p => uf * p.y) ↔
      ∃ q ∈ u.points, p = inUnits us uf (q.x, q.y) := by
    intro p
    unfold pointsOf
    rw [List.zip_map', List.mem_map]
    exact exists_congr fun q => and_congr_right fun _ => eq_comm
  refine ⟨by simp, fun j row hj => ⟨_, by rw [List.getElem?_map, hj]; rfl, by simp, by simp, fun i k hk => ?_,
    fun i w hw => ?_⟩, by simp [gx.1], by simp [gy.1], by simp, rfl, fun i w hw => ⟨?_, fun k hk => ?_, fun k hk => ?_⟩,
    fun p hp => ?_, fun c hc k hk i j p hcr => ?_⟩
  · simp [hk]
  · simp [hw]
  · simp [hw]
  · have hi : i < kxx.length := by
      rw [gx.1]
      exact (List.getElem?_eq_some_iff.1 hw).1
    have := gx.2 i _ _ hw (List.getElem?_eq_getElem hi)
    rw [hk] at this
    simp only [List.getElem?_map, List.getElem?_eq_getElem hi, ← Except.ok.inj this, Option.map_some]
  · have hi : i < kyy.length := by
      rw [gy.1]
      exact (List.getElem?_eq_some_iff.1 hw).1
    have := gy.2 i _ _ hw (List.getElem?_eq_getElem hi)
    rw [hk] at this
    simp only [List.getElem?_map, List.getElem?_eq_getElem hi, ← Except.ok.inj this, Option.map_some]
  · obtain ⟨q, hq, rfl⟩ := (hpts p).1 hp
    obtain ⟨⟨row, hrow, c, curve, i, j, hc, hcurve, hcr⟩, -⟩ := hsound q hq
    refine ⟨_, List.mem_map.2 ⟨row, hrow, rfl⟩, ?_⟩
    rw [← hb] at hc
    rcases hc with rfl | rfl
    · refine ⟨_, Or.inl rfl, i, j, ?_⟩
      rw [curve_unique hcurve (curve_zip hkx)] at hcr
      unfold pointsOf
      rw [zip_units, zip_units, crossing_units hs hf]
      exact hcr
    · refine ⟨_, Or.inr rfl, i, j, ?_⟩
      rw [curve_unique hcurve (curve_zip hky)] at hcr
      unfold pointsOf
      rw [zip_units, zip_units, crossing_units hs hf]
      exact hcr
  · obtain ⟨row, hrow, rfl⟩ := List.mem_map.1 hc
    obtain ⟨p', rfl⟩ : ∃ p', p = inUnits us uf p' :=
      ⟨(p.1 / us, p.2 / uf), by simp only [inUnits, mul_div_cancel₀ _ hs, mul_div_cancel₀ _ hf]⟩
    rw [hpts]
    rw [← hb] at hcomplete
    rcases hk with rfl | ⟨rfl, hne⟩
    · unfold pointsOf at hcr
      rw [zip_units, zip_units, crossing_units hs hf] at hcr
      obtain ⟨q, hq, e1, e2⟩ := hcomplete row hrow _ (Or.inl rfl) _ (curve_zip hkx) i j p'.1 p'.2 hcr
      exact ⟨q, hq, by rw [e1, e2]⟩
    · unfold pointsOf at hcr
      rw [zip_units, zip_units, crossing_units hs hf] at hcr
      obtain ⟨q, hq, e1, e2⟩ := hcomplete row hrow _ (Or.inr ⟨rfl, hne⟩) _ (curve_zip hky) i j p'.1 p'.2 hcr
      exact ⟨q, hq, by rw [e1, e2]⟩

/-- C120: the map can be drawn when the stiffness of the bearing can be evaluated. -/
theorem C120_map_accepts (us uf : ℝ) (hx : u.bearing.kxx.interp.isSome) (hy : u.bearing.kyy.interp.isSome) :
    ∃ f, ucsPlot u us uf = .ok f := by
  have key : ∀ (c : Coeff) (l : List ℝ), c.interp.isSome → ∃ y, l.mapM c.eval = .ok y := by
    intro c l hc
    obtain ⟨g, hg⟩ := Option.isSome_iff_exists.1 hc
    refine ⟨l.map g, (mapM_ok_iff _ _ _).2 ?_⟩
    rw [List.map_map]
    refine List.map_congr_left fun w _ => ?_
    unfold Coeff.eval
    rw [hg]
    rfl
  obtain ⟨a, ha⟩ := key _ u.bearing_frequency_range hx
  obtain ⟨b, hb⟩ := key _ u.bearing_frequency_range hy
  unfold ucsPlot
  rw [ha, hb]
  exact ⟨_, rfl⟩

/-- C120: the figure of the stability analysis shows the stiffnesses that were applied against the logarithmic
decrements found with them. -/
theorem C120_level1 {n : ℕ} {a b : ℝ} {res : Level1} (h : r.run_level1 env n (some (a, b)) num = .ok res) :
    (level1Plot res).x.length = num ∧ (level1Plot res).y.length = num ∧
    (∀ i : ℕ, i < num → num ≠ 1 → (level1Plot res).x[i]? = some (a + i * ((b - a) / (num - 1)))) ∧
    ∀ (i : ℕ) (q d : ℝ), (level1Plot res).x[i]? = some q → (level1Plot res).y[i]? = some d →
      ∃ w, r.rated_w = some w ∧ r.level1At env n w q = .ok d := by
  unfold run_level1 at h
  cases hw : r.rated_w with
  | none =>
    rw [hw] at h
    cases h
  | some w =>
    rw [hw] at h
    obtain ⟨m, -, h⟩ := bindOk h
    obtain ⟨l, hl, h⟩ := bindOk h
    cases h
    have g := mapM_get hl
    have e : (linspace a b num).length = num := by
      unfold linspace
      rw [List.length_map, List.length_range]
    refine ⟨e, g.1.trans e, fun i hi h1 => ?_, fun i q d hq hd => ⟨w, rfl, g.2 i q d hq hd⟩⟩
    show (linspace a b num)[i]? = _
    unfold linspace
    rw [List.getElem?_map, List.getElem?_range hi, Option.map_some, if_neg h1]

/-- The first letter of the names of a kind. -/
def letterOf : CoeffKind → Char
  | .stiffness => 'k'
  | .damping => 'c'
  | .mass => 'm'

theorem letter_of {b : BearingElement} {name : String} {k : CoeffKind} {c : Coeff}
    (h : (name, k, c) ∈ coefficientTable b) :
    coeffOf b name = .ok c ∧ firstLetter name = .ok (letterOf k) := by
  unfold coefficientTable at h
  simp only [List.mem_cons, List.not_mem_nil, or_false, Prod.mk.injEq] at h
  rcases h with h | h | h | h | h | h | h | h | h | h | h | h <;> obtain ⟨rfl, rfl, rfl⟩ := h <;> exact ⟨rfl, rfl⟩

theorem named_of {b : BearingElement} {name : String} {c : Coeff} (h : coeffOf b name = .ok c) :
    ∃ k, (name, k, c) ∈ coefficientTable b := by
  unfold coeffOf at h
  split at h <;> first | (cases h; done) | (cases h; simp [coefficientTable])

/-- C120: the figure of the coefficients of a bearing: for names of coefficients of one kind, a curve for each in their
order, over thirty frequencies from the lowest to the highest of the table of the bearing, with the coefficient there,
in the unit for its kind. -/
theorem C120_coefficients {b : BearingElement} {fs : List ℝ} (hb : b.frequency = some fs) {lo hi : ℝ}
    (hlo : IsLeast {x | x ∈ fs} lo) (hhi : IsGreatest {x | x ∈ fs} hi) {names : List String} (hne : names ≠ [])
    (kind : CoeffKind) (hn : ∀ name ∈ names, ∃ c g, (name, kind, c) ∈ coefficientTable b ∧ c.interp = some g)
    (us ud um uf : ℝ) :
    ∃ F, bearingPlot b names us ud um uf = .ok F ∧ F.map Prod.fst = names ∧
      ∀ (i : ℕ) (name : String) (curve : Stochastic.Curve), F[i]? = some (name, curve) → ∀ c g,
        (name, kind, c) ∈ coefficientTable b → c.interp = some g →
        curve.x.length = 30 ∧ curve.y.length = 30 ∧ ∀ j : ℕ, j < 30 →
          curve.x[j]? = some (uf * (lo + j * ((hi - lo) / 29))) ∧
          curve.y[j]? = some (kind.unit us ud um * g (lo + j * ((hi - lo) / 29))) := by
  have e1 : smallest fs = .ok lo := by
    unfold smallest
    rw [List.min?_eq_some_iff.2 ⟨hlo.1, fun x hx => hlo.2 hx⟩]
  have e2 : greatest fs = .ok hi := by
    unfold greatest
    rw [List.max?_eq_some_iff.2 ⟨hhi.1, fun x hx => hhi.2 hx⟩]
  set a : Char := letterOf kind with ha
  have e3 : names.mapM firstLetter = .ok (names.map fun _ => a) := by
    refine (mapM_ok_iff _ _ _).2 ?_
    rw [List.map_map]
    refine List.map_congr_left fun name hname => ?_
    obtain ⟨c, g, hc, -⟩ := hn name hname
    exact (letter_of hc).2
  obtain ⟨n0, nt, rfl⟩ := List.exists_cons_of_ne_nil hne
  have hunit : (if a = 'k' then us else if a = 'c' then ud else um) = kind.unit us ud um := by
    rw [ha]
    cases kind <;> rfl
  set range := linspace lo hi 30 with hrange
  have hr : ∀ j : ℕ, j < 30 → range[j]? = some (lo + j * ((hi - lo) / 29)) := by
    intro j hj
    rw [hrange]
    unfold linspace
    rw [List.getElem?_map, List.getElem?_range hj, Option.map_some, if_neg (by norm_num)]
    norm_num
  have hrl : range.length = 30 := by
    rw [hrange]
    unfold linspace
    rw [List.length_map, List.length_range]
  have hev : ∀ (c : Coeff) (g : ℝ → ℝ), c.interp = some g → range.mapM c.eval = .ok (range.map g) := by
    intro c g hg
    refine (mapM_ok_iff _ _ _).2 ?_
    rw [List.map_map]
    refine List.map_congr_left fun w _ => ?_
    unfold Coeff.eval
    rw [hg]
    rfl
  set body : String → Res (String × Stochastic.Curve) := fun name => do
    let c ← coeffOf b name
    let y ← range.mapM c.eval
    pure (name, (⟨range.map (uf * ·), y.map (kind.unit us ud um * ·)⟩ : Stochastic.Curve)) with hbody
  have hbd : ∀ name c g, (name, kind, c) ∈ coefficientTable b → c.interp = some g → body name =
      .ok (name, ⟨range.map (uf * ·), (range.map g).map (kind.unit us ud um * ·)⟩) := by
    intro name c g hc hg
    show (coeffOf b name >>= fun c => _) = _
    rw [(letter_of hc).1]
    show (range.mapM c.eval >>= fun y => _) = _
    rw [hev c g hg]
    rfl
  have hplot : bearingPlot b (n0 :: nt) us ud um uf = (n0 :: nt).mapM body := by
    unfold bearingPlot
    rw [e3]
    simp only [List.map_cons]
    show (if ∃ c ∈ nt.map fun _ => a, c ≠ a then _ else _) = _
    rw [if_neg (by simp), hb]
    simp only [e1, e2, hunit]
    rfl
  have hF : ∃ F, (n0 :: nt).mapM body = .ok F := by
    have : ∀ l : List String, (∀ name ∈ l, ∃ c g, (name, kind, c) ∈ coefficientTable b ∧ c.interp = some g) →
        ∃ F, l.mapM body = .ok F := by
      intro l hl
      refine ⟨l.map fun name => (body name).toOption.getD ("", ⟨[], []⟩), (mapM_ok_iff _ _ _).2 ?_⟩
      rw [List.map_map]
      refine List.map_congr_left fun name hname => ?_
      obtain ⟨c, g, hc, hg⟩ := hl name hname
      simp only [Function.comp, hbd name c g hc hg]
      rfl
    exact this _ hn
  obtain ⟨F, hF⟩ := hF
  have G := mapM_get hF
  have hname : ∀ (i : ℕ) (name : String), (n0 :: nt)[i]? = some name → ∀ q, F[i]? = some q → q.1 = name ∧
      ∀ c g, (name, kind, c) ∈ coefficientTable b → c.interp = some g →
        q = (name, ⟨range.map (uf * ·), (range.map g).map (kind.unit us ud um * ·)⟩) := by
    intro i name hi q hq
    have := G.2 i _ _ hi hq
    obtain ⟨c, g, hc, hg⟩ := hn name (List.mem_of_getElem? hi)
    rw [hbd name c g hc hg] at this
    refine ⟨(congrArg Prod.fst (Except.ok.inj this)).symm, fun c' g' hc' hg' => ?_⟩
    have t := G.2 i _ _ hi hq
    rw [hbd name c' g' hc' hg'] at t
    exact (Except.ok.inj t).symm
  refine ⟨F, hplot.trans hF, ?_, fun i name curve hi c g hc hg => ?_⟩
  · refine List.ext_getElem? fun i => ?_
    by_cases hi : i < (n0 :: nt).length
    · have hi' : i < F.length := by rw [G.1]; exact hi
      rw [List.getElem?_map, List.getElem?_eq_getElem hi', List.getElem?_eq_getElem hi, Option.map_some,
        (hname i _ (List.getElem?_eq_getElem hi) _ (List.getElem?_eq_getElem hi')).1]
    · rw [List.getElem?_eq_none (by rw [List.length_map, G.1]; omega), List.getElem?_eq_none (by omega)]
  · have hi' : i < (n0 :: nt).length := by
      rw [← G.1]
      exact (List.getElem?_eq_some_iff.1 hi).1
    have q := hname i _ (List.getElem?_eq_getElem hi') _ hi
    have hnm : name = (n0 :: nt)[i] := q.1
    have hcv := q.2 c g (hnm ▸ hc) hg
    obtain rfl := congrArg Prod.snd hcv
    refine ⟨by simp [hrl], by simp [hrl], fun j hj => ⟨?_, ?_⟩⟩
    · show (range.map (uf * ·))[j]? = _
      rw [List.getElem?_map, hr j hj, Option.map_some]
    · show ((range.map g).map (kind.unit us ud um * ·))[j]? = _
      rw [List.getElem?_map, List.getElem?_map, hr j hj, Option.map_some, Option.map_some]

/-- C120: coefficients of different kinds are not drawn together, and what is no coefficient is refused. -/
theorem C120_kinds {b : BearingElement} (names : List String) (us ud um uf : ℝ) :
    ((∀ name ∈ names, ∃ k c, (name, k, c) ∈ coefficientTable b) →
      (∃ n₁ ∈ names, ∃ n₂ ∈ names, ∃ k₁ k₂ c₁ c₂, (n₁, k₁, c₁) ∈ coefficientTable b ∧ (n₂, k₂, c₂) ∈ coefficientTable b ∧
        k₁ ≠ k₂) → bearingPlot b names us ud um uf = .error .valueError) ∧
    ((∃ name ∈ names, ∀ k c, (name, k, c) ∉ coefficientTable b) → ∀ F, bearingPlot b names us ud um uf ≠ .ok F) := by
  constructor
  · rintro hall ⟨n₁, h₁, n₂, h₂, k₁, k₂, c₁, c₂, t₁, t₂, hk⟩
    have hl : ∀ l : List String, (∀ name ∈ l, ∃ k c, (name, k, c) ∈ coefficientTable b) →
        ∃ cs, l.mapM firstLetter = .ok cs := by
      intro l hl
      refine ⟨l.map fun name => (firstLetter name).toOption.getD 'a', (mapM_ok_iff _ _ _).2 ?_⟩
      rw [List.map_map]
      refine List.map_congr_left fun name hname => ?_
      obtain ⟨k, c, hc⟩ := hl name hname
      simp only [Function.comp, (letter_of hc).2]
      rfl
    obtain ⟨cs, hcs⟩ := hl names hall
    have m := (mapM_ok_iff _ _ _).1 hcs
    have hm : ∀ name ∈ names, ∀ c, firstLetter name = .ok c → c ∈ cs := by
      intro name hname c hc
      have : Except.ok c ∈ names.map firstLetter := List.mem_map.2 ⟨name, hname, hc⟩
      rw [m] at this
      obtain ⟨d, hd, he⟩ := List.mem_map.1 this
      cases he
      exact hd
    have a₁ := hm _ h₁ _ (letter_of t₁).2
    have a₂ := hm _ h₂ _ (letter_of t₂).2
    unfold bearingPlot
    rw [hcs]
    cases cs with
    | nil => cases a₁
    | cons a t =>
      show (if ∃ c ∈ t, c ≠ a then _ else _) = _
      rw [if_pos]
      by_contra hno
      have hno : ∀ c ∈ t, c = a := by simpa using hno
      have e : ∀ c ∈ a :: t, c = a := by simpa using hno
      have := (e _ a₁).trans (e _ a₂).symm
      cases k₁ <;> cases k₂ <;> simp [letterOf] at this hk
  · rintro ⟨name, hname, hno⟩ F hF
    unfold bearingPlot at hF
    obtain ⟨cs, -, hF⟩ := bindOk hF
    split at hF
    · cases hF
    · rename_i a t
      by_cases hne : ∃ c ∈ t, c ≠ a
      · rw [if_pos hne] at hF
        cases hF
      rw [if_neg hne] at hF
      cases hfr : b.frequency with
      | none => simp [hfr] at hF
      | some fs =>
        simp only [hfr] at hF
        obtain ⟨lo, -, hF⟩ := bindOk hF
        obtain ⟨hi, -, hF⟩ := bindOk hF
        have G := mapM_get hF
        obtain ⟨i, hi⟩ := List.getElem?_of_mem hname
        have hl : i < F.length := by
          rw [G.1]
          exact (List.getElem?_eq_some_iff.1 hi).1
        have := G.2 i _ _ hi (List.getElem?_eq_getElem hl)
        obtain ⟨c, hc, -⟩ := bindOk this
        obtain ⟨k, hk⟩ := named_of hc
        exact hno k c hk

/-- C120 fails for bearings with constant coefficients and no table: there is no figure. -/
theorem C120_constant_false {b : BearingElement} (hb : b.frequency = none) (names : List String) (us ud um uf : ℝ) :
    (∀ F, bearingPlot b names us ud um uf ≠ .ok F) ∧ bearingPlot b ["kxx"] us ud um uf = .error .typeError := by
  constructor
  · intro F hF
    unfold bearingPlot at hF
    obtain ⟨cs, -, hF⟩ := bindOk hF
    split at hF
    · cases hF
    · rename_i a t
      by_cases hne : ∃ c ∈ t, c ≠ a
      · rw [if_pos hne] at hF
        cases hF
      · rw [if_neg hne] at hF
        simp [hb] at hF
  · unfold bearingPlot
    rw [show ["kxx"].mapM firstLetter = .ok ['k'] from rfl]
    simp [bind, Except.bind, hb]

/-- Non-vacuity: a bearing with a table of two frequencies, and one without a table. -/
example (sp : Scipy) :
    (∃ b : BearingElement, b.frequency = some [30, 10] ∧ IsLeast {x : ℝ | x ∈ [(30 : ℝ), 10]} 10 ∧
      IsGreatest {x : ℝ | x ∈ [(30 : ℝ), 10]} 30 ∧
      ∀ name ∈ ["kyy", "kxx"], ∃ c g, (name, CoeffKind.stiffness, c) ∈ coefficientTable b ∧ c.interp = some g) ∧
    ∃ b, BearingElement.init sp { n := 0, kxx := .scalar 1, cxx := .scalar 0 } = .ok b ∧ b.frequency = none := by
  constructor
  · let c : Coeff := ⟨[3, 1], some fun x => x / 10⟩
    refine ⟨⟨0, none, some [30, 10], c, c, c, c, c, c, c, c, c, c, c, c, none, 1, ""⟩, rfl, ?_, ?_, ?_⟩
    · constructor <;> simp [lowerBounds]
      norm_num
    · constructor <;> simp [upperBounds]
      norm_num
    · intro name hname
      simp only [List.mem_cons, List.not_mem_nil, or_false] at hname
      rcases hname with rfl | rfl <;> exact ⟨c, _, by simp [coefficientTable], rfl⟩
  · exact ⟨_, rfl, rfl⟩

end Ross.Props
