import Mathlib.Topology.MetricSpace.Contracting
import Verif.Lemmas.Runs
import Verif.Lemmas.RunsEx

/-! # C86: critical speeds -/

namespace Ross.Props

open Ross Rotor Ross.Spec Ross.RunLemmas

variable {env : RunEnv} {r : Rotor} {n : ℕ} {rtol : ℝ} {c : CriticalSpeeds}

theorem critical_none (h : r.run_critical_speed env none n rtol = .ok c) :
    ∃ l, r.criticalRows env n rtol = .ok l ∧ c = .of l := by
  unfold run_critical_speed at h
  obtain ⟨l, h1, h⟩ := bindOk h
  exact ⟨l, h1, (Except.ok.inj h).symm⟩

/-- **C86** there is one critical speed per mode of the analysis at rest; entry `i` of each array belongs to mode `i`: the
speed is where the chord of two nearby points of the curve of the `i`-th frequency meets the synchronous line. -/
theorem C86_speeds (hn : NewtonOk env.newton) (h : r.run_critical_speed env none n rtol = .ok c) :
    (∃ m0, r.modes env 0 n = .ok m0 ∧ c.wn.length = m0.wn.length ∧ c.wd.length = m0.wn.length ∧
      c.log_dec.length = m0.wn.length ∧ c.damping_ratio.length = m0.wn.length ∧
      c.whirl_direction.length = m0.wn.length) ∧
    (∀ (i : ℕ) x, c.wd[i]? = some x → ∃ a wa b wb, FrequencyAt env r n Modes.wd i a wa ∧
      FrequencyAt env r n Modes.wd i b wb ∧ ChordMeets a wa b wb x ∧ |x - b| ≤ 1.48e-8 + rtol * |b|) ∧
    ∀ (i : ℕ) x, c.wn[i]? = some x → ∃ a wa b wb, FrequencyAt env r n Modes.wn i a wa ∧
      FrequencyAt env r n Modes.wn i b wb ∧ ChordMeets a wa b wb x ∧ |x - b| ≤ 1.48e-8 + rtol * |b| := by
  obtain ⟨l, h1, rfl⟩ := critical_none h
  obtain ⟨m0, h0, hl, hr⟩ := criticalRows_ok h1
  refine ⟨⟨m0, h0, ?_⟩, fun i x hx => ?_, fun i x hx => ?_⟩
  · simp [CriticalSpeeds.of, hl]
  · simp only [CriticalSpeeds.of, List.getElem?_map, Option.map_eq_some_iff] at hx
    obtain ⟨y, hy, rfl⟩ := hx
    obtain ⟨-, ⟨w0, -, hf⟩, -⟩ := hr i y hy
    exact findSpeed_ok hn hf
  · simp only [CriticalSpeeds.of, List.getElem?_map, Option.map_eq_some_iff] at hx
    obtain ⟨y, hy, rfl⟩ := hx
    obtain ⟨⟨w0, -, hf⟩, -, -⟩ := hr i y hy
    exact findSpeed_ok hn hf

/-- **C86** the other quantities of entry `i` are those of mode `i` of the analysis at the damped critical speed. -/
theorem C86_modes (h : r.run_critical_speed env none n rtol = .ok c) {i : ℕ} {x : ℝ} (hx : c.wd[i]? = some x) :
    ∃ m d z v, r.modes env x n = .ok m ∧ m.log_dec[i]? = some d ∧ m.damping_ratio[i]? = some z ∧ m.whirl[i]? = some v ∧
      c.log_dec[i]? = some d ∧ c.damping_ratio[i]? = some z ∧ c.whirl_direction[i]? = some v := by
  obtain ⟨l, h1, rfl⟩ := critical_none h
  obtain ⟨m0, h0, hl, hr⟩ := criticalRows_ok h1
  simp only [CriticalSpeeds.of, List.getElem?_map, Option.map_eq_some_iff] at hx
  obtain ⟨y, hy, rfl⟩ := hx
  obtain ⟨-, -, hf⟩ := hr i y hy
  unfold criticalRow at hf
  obtain ⟨m, h2, hf⟩ := bindOk hf
  obtain ⟨d, h3, hf⟩ := bindOk hf
  obtain ⟨z, h4, hf⟩ := bindOk hf
  obtain ⟨v, h5, hf⟩ := bindOk hf
  have hf := Except.ok.inj hf
  refine ⟨m, d, z, v, h2, item_ok.1 h3, item_ok.1 h4, item_ok.1 h5, ?_⟩
  simp only [CriticalSpeeds.of, List.getElem?_map, hy, Option.map_some]
  rw [← hf]
  simp

theorem residual {a wa b wb x wx L : ℝ} (hc : ChordMeets a wa b wb x) (h1 : |wb - wa| ≤ L * |b - a|)
    (h2 : |wx - wb| ≤ L * |x - b|) : |x - wx| ≤ 2 * L * |x - b| := by
  obtain ⟨hab, -, hx⟩ := hc
  have hd : b - a ≠ 0 := sub_ne_zero.2 (Ne.symm hab)
  have hs : |(wb - wa) / (b - a)| ≤ L := by
    rw [abs_div, div_le_iff₀ (abs_pos.2 hd)]
    exact h1
  have e : x - wx = (wb - wa) / (b - a) * (x - b) - (wx - wb) := by linarith
  rw [e]
  calc |(wb - wa) / (b - a) * (x - b) - (wx - wb)|
      ≤ |(wb - wa) / (b - a) * (x - b)| + |wx - wb| := abs_sub _ _
    _ ≤ L * |x - b| + L * |x - b| := by
      rw [abs_mul]
      exact add_le_add (mul_le_mul_of_nonneg_right hs (abs_nonneg _)) h2
    _ = 2 * L * |x - b| := by ring

theorem tolerance {x b rtol : ℝ} (h0 : 0 ≤ rtol) (h1 : rtol < 1) (h : |x - b| ≤ 1.48e-8 + rtol * |b|) :
    |x - b| ≤ (1.48e-8 + rtol * |x|) / (1 - rtol) := by
  have h2 : |b| ≤ |x| + |x - b| := by
    have e : b = x - (x - b) := by ring
    calc |b| = |x - (x - b)| := by rw [← e]
      _ ≤ |x| + |x - b| := abs_sub _ _
  rw [le_div_iff₀ (by linarith)]
  nlinarith

/-- **C86** if the `i`-th frequency is found at every speed and changes by at most a part `L < 1` of the change of speed,
there is exactly one speed at which it equals the speed, and the result is near it. -/
theorem C86_near (hn : NewtonOk env.newton) (h : r.run_critical_speed env none n rtol = .ok c) (h0 : 0 ≤ rtol)
    (h1 : rtol < 1) {i : ℕ} {x : ℝ} (hx : c.wd[i]? = some x) {w : ℝ → ℝ} (hw : ∀ s, FrequencyAt env r n Modes.wd i s (w s))
    {L : ℝ} (hL0 : 0 ≤ L) (hL : L < 1) (hlip : ∀ s t, |w s - w t| ≤ L * |s - t|) :
    ∃ s, w s = s ∧ (∀ t, w t = t → t = s) ∧ |x - s| ≤ 2 * L / (1 - L) * ((1.48e-8 + rtol * |x|) / (1 - rtol)) := by
  obtain ⟨a, wa, b, wb, ⟨ma, ha, ha'⟩, ⟨mb, hb, hb'⟩, hc, ht⟩ := (C86_speeds hn h).2.1 i x hx
  obtain ⟨ma', e1, e1'⟩ := hw a
  obtain ⟨mb', e2, e2'⟩ := hw b
  rw [ha] at e1
  rw [hb] at e2
  obtain rfl := Except.ok.inj e1
  obtain rfl := Except.ok.inj e2
  rw [ha'] at e1'
  rw [hb'] at e2'
  have ea := Option.some.inj e1'
  have eb := Option.some.inj e2'
  have hK : LipschitzWith ⟨L, hL0⟩ w := LipschitzWith.of_dist_le_mul fun s t => by
    rw [Real.dist_eq, Real.dist_eq]; exact hlip s t
  have hcon : ContractingWith ⟨L, hL0⟩ w := ⟨by exact_mod_cast hL, hK⟩
  have hfix : w (hcon.fixedPoint w) = hcon.fixedPoint w := hcon.fixedPoint_isFixedPt
  refine ⟨hcon.fixedPoint w, hfix, fun t ht => hcon.fixedPoint_unique ht, ?_⟩
  have hres := residual hc (by rw [ea, eb]; exact hlip b a) (wx := w x) (by rw [eb]; exact hlip x b)
  have htol := tolerance h0 h1 ht
  have hLs := hlip x (hcon.fixedPoint w)
  rw [hfix] at hLs
  have htri : |x - hcon.fixedPoint w| ≤ |x - w x| + |w x - hcon.fixedPoint w| := abs_sub_le _ _ _
  have hpos : 0 < 1 - L := by linarith
  rw [div_mul_eq_mul_div, le_div_iff₀ hpos]
  have hb1 : 2 * L * |x - b| ≤ 2 * L * ((1.48e-8 + rtol * |x|) / (1 - rtol)) :=
    mul_le_mul_of_nonneg_left htol (by linarith)
  nlinarith

/-- **C86** if the `i`-th frequency is a linear function of the speed, in particular if it does not depend on it, the
result is the speed at which the frequency equals the speed. -/
theorem C86_linear (hn : NewtonOk env.newton) (h : r.run_critical_speed env none n rtol = .ok c) {i : ℕ} {x : ℝ}
    (hx : c.wd[i]? = some x) {p q : ℝ} (hw : ∀ s, FrequencyAt env r n Modes.wd i s (p + q * s)) :
    q ≠ 1 ∧ x = p + q * x ∧ FrequencyAt env r n Modes.wd i x x := by
  obtain ⟨a, wa, b, wb, ⟨ma, ha, ha'⟩, ⟨mb, hb, hb'⟩, hc, ht⟩ := (C86_speeds hn h).2.1 i x hx
  obtain ⟨ma', e1, e1'⟩ := hw a
  obtain ⟨mb', e2, e2'⟩ := hw b
  rw [ha] at e1
  rw [hb] at e2
  obtain rfl := Except.ok.inj e1
  obtain rfl := Except.ok.inj e2
  rw [ha'] at e1'
  rw [hb'] at e2'
  have ea := Option.some.inj e1'
  have eb := Option.some.inj e2'
  obtain ⟨hab, h1, hx'⟩ := hc
  have hd : b - a ≠ 0 := sub_ne_zero.2 (Ne.symm hab)
  have hq : (wb - wa) / (b - a) = q := by
    rw [ea, eb, div_eq_iff hd]; ring
  rw [hq] at h1 hx'
  have hxx : x = p + q * x := by linarith
  refine ⟨h1, hxx, ?_⟩
  have := hw x
  rwa [← hxx] at this

/-- **C86** with a range of speeds the result lists exactly the entries of the run for `2 (ndof - 4)` modes whose damped
speed lies in the range, in order; the argument `num_modes` is not used. -/
theorem C86_range {vmin vmax : ℝ} :
    r.run_critical_speed env (some (vmin, vmax)) n rtol = .ok c ↔
      ∃ c0, r.run_critical_speed env none ((r.ndof - 4) * 2) rtol = .ok c0 ∧
        ∃ idx : List ℕ, idx.Pairwise (· < ·) ∧
          (∀ i, i ∈ idx ↔ ∃ x, c0.wd[i]? = some x ∧ vmin ≤ x ∧ x ≤ vmax) ∧
          c.wd = idx.filterMap (fun i => c0.wd[i]?) ∧ c.wn = idx.filterMap (fun i => c0.wn[i]?) ∧
          c.log_dec = idx.filterMap (fun i => c0.log_dec[i]?) ∧
          c.damping_ratio = idx.filterMap (fun i => c0.damping_ratio[i]?) ∧
          c.whirl_direction = idx.filterMap (fun i => c0.whirl_direction[i]?) := by
  classical
  have key : ∀ l : List CriticalRow, ∃ idx : List ℕ, idx.Pairwise (· < ·) ∧
      (∀ i, i ∈ idx ↔ ∃ x, l[i]? = some x ∧ vmin ≤ x.wd ∧ x.wd ≤ vmax) ∧
      l.filter (fun x => decide (vmin ≤ x.wd ∧ x.wd ≤ vmax)) = idx.filterMap (fun i => l[i]?) := by
    intro l
    induction l using List.reverseRecOn with
    | nil => exact ⟨[], .nil, by simp, rfl⟩
    | append_singleton t a ih =>
      obtain ⟨idx, p1, p2, p3⟩ := ih
      have hlt : ∀ i ∈ idx, i < t.length := fun i hi => by
        obtain ⟨x, hx, -⟩ := (p2 i).1 hi
        exact (List.getElem?_eq_some_iff.1 hx).1
      have hcongr : idx.filterMap (fun i => (t ++ [a])[i]?) = idx.filterMap (fun i => t[i]?) := by
        refine List.filterMap_congr fun i hi => ?_
        rw [List.getElem?_append_left (hlt i hi)]
      have hmem : ∀ i, (∃ x, (t ++ [a])[i]? = some x ∧ vmin ≤ x.wd ∧ x.wd ≤ vmax) ↔
          i ∈ idx ∨ (i = t.length ∧ vmin ≤ a.wd ∧ a.wd ≤ vmax) := by
        intro i
        rcases lt_trichotomy i t.length with hi | hi | hi
        · rw [List.getElem?_append_left hi, ← p2 i]
          constructor
          · exact .inl
          · rintro (h | ⟨h, -⟩)
            · exact h
            · omega
        · subst hi
          have : t.length ∉ idx := fun h => lt_irrefl _ (hlt _ h)
          simp [this]
        · have h1 : (t ++ [a])[i]? = none := by simp; omega
          have h2 : i ∉ idx := fun h => by have := hlt i h; omega
          simp only [h1, reduceCtorEq, false_and, exists_false, h2, false_or, false_iff]
          omega
      by_cases ha : vmin ≤ a.wd ∧ a.wd ≤ vmax
      · refine ⟨idx ++ [t.length], ?_, fun i => ?_, ?_⟩
        · rw [List.pairwise_append]
          exact ⟨p1, by simp, fun x hx y hy => by simp at hy; rw [hy]; exact hlt x hx⟩
        · rw [hmem i]; simp [ha]
        · rw [List.filter_append, List.filterMap_append, hcongr, ← p3]
          simp [ha]
      · refine ⟨idx, p1, fun i => ?_, ?_⟩
        · rw [hmem i]; simp [ha]
        · rw [List.filter_append, hcongr, ← p3]
          simp [ha]
  have field : ∀ {β : Type} (f : CriticalRow → β) (l : List CriticalRow) (idx : List ℕ),
      (idx.filterMap (fun i => l[i]?)).map f = idx.filterMap (fun i => (l.map f)[i]?) := by
    intro β f l idx
    rw [List.map_filterMap]
    simp [List.getElem?_map]
  constructor
  · intro h
    unfold run_critical_speed at h
    obtain ⟨l, h1, h⟩ := bindOk h
    have h := Except.ok.inj h
    refine ⟨.of l, by simp only [run_critical_speed]; rw [h1]; rfl, ?_⟩
    obtain ⟨idx, p1, p2, p3⟩ := key l
    refine ⟨idx, p1, fun i => ?_, ?_⟩
    · rw [p2 i]
      simp only [CriticalSpeeds.of, List.getElem?_map, Option.map_eq_some_iff]
      constructor
      · rintro ⟨x, hx, hb⟩; exact ⟨x.wd, ⟨x, hx, rfl⟩, hb⟩
      · rintro ⟨_, ⟨x, hx, rfl⟩, hb⟩; exact ⟨x, hx, hb⟩
    · rw [← h, p3]
      simp only [CriticalSpeeds.of]
      exact ⟨field _ l idx, field _ l idx, field _ l idx, field _ l idx, field _ l idx⟩
  · rintro ⟨c0, h0, idx, q1, q2, q3, q4, q5, q6, q7⟩
    obtain ⟨l, h1, rfl⟩ := critical_none h0
    obtain ⟨idx', p1, p2, p3⟩ := key l
    have he : idx = idx' := by
      refine List.Perm.eq_of_pairwise (le := (· < ·)) (fun a b _ _ h1 h2 => by omega) q1 p1 ?_
      rw [List.perm_ext_iff_of_nodup (q1.imp ne_of_lt) (p1.imp ne_of_lt)]
      intro i
      rw [q2 i, p2 i]
      simp only [CriticalSpeeds.of, List.getElem?_map, Option.map_eq_some_iff]
      constructor
      · rintro ⟨_, ⟨x, hx, rfl⟩, hb⟩; exact ⟨x, hx, hb⟩
      · rintro ⟨x, hx, hb⟩; exact ⟨x.wd, ⟨x, hx, rfl⟩, hb⟩
    subst he
    unfold run_critical_speed
    simp only []
    rw [h1]
    show Except.ok _ = Except.ok c
    congr 1
    rw [p3]
    simp only [CriticalSpeeds.of] at q3 q4 q5 q6 q7 ⊢
    rw [field, field, field, field, field, ← q3, ← q4, ← q5, ← q6, ← q7]

/-- **C86** a run with a range never returns more than `ndof - 4` critical speeds, however wide the range. -/
theorem C86_at_most {vmin vmax : ℝ} (h : r.run_critical_speed env (some (vmin, vmax)) n rtol = .ok c) :
    c.wd.length ≤ r.ndof - 4 ∧ c.wn.length = c.wd.length ∧ c.log_dec.length = c.wd.length ∧
      c.damping_ratio.length = c.wd.length ∧ c.whirl_direction.length = c.wd.length := by
  unfold run_critical_speed at h
  obtain ⟨l, h1, h⟩ := bindOk h
  obtain rfl := (Except.ok.inj h).symm
  obtain ⟨m0, h0, hl, -⟩ := criticalRows_ok h1
  have := (modes_lengths h0).2.2.2.2
  have h2 := List.length_filter_le (fun x : CriticalRow => decide (vmin ≤ x.wd ∧ x.wd ≤ vmax)) l
  simp only [CriticalSpeeds.of, List.length_map]
  refine ⟨?_, trivial, trivial, trivial, trivial⟩
  omega

/-- A run on a rotor with one shaft element and two bearings, with a solver that finds the frequency 100 at every speed:
the critical speed is 100, with a range or without. -/
example : ∃ env r c, NewtonOk env.newton ∧ Rotor.init env.pd env.fuel (twoArgs 0 0) = some (.ok r) ∧
    r.run_critical_speed env none 2 0.005 = .ok c ∧ c.wd = [100] ∧ c.wn = [100] ∧
    (∀ s, FrequencyAt env r 2 Modes.wd 0 s (100 + 0 * s)) := by
  obtain ⟨r, h1, h2, h3, h4, h5, h6⟩ := two_small
  let env : RunEnv := ⟨⟨fun _ _ => none, fun _ _ _ => none⟩, onePair, RotorLemmas.exPandas, 10, secant, fun _ => []⟩
  have key : ∀ s, ∃ m, r.modes env s 2 = .ok m ∧ m.wn = [100] ∧ m.wd = [100] := fun s => by
    obtain ⟨m, e1, e2, e3⟩ := modes_onePair (env := env) rfl (n := 2) (h6 s) h2 h3 h4 h5
    exact ⟨m, e1, by simpa using e2, by simpa using e3⟩
  have hsec : ∀ f : ℝ → Res ℝ, (∀ s, f s = .ok (s - 100)) → secant f 100 0.005 = .ok 100 := by
    intro f hf
    unfold secant
    rw [hf, hf]
    simp only [bind, Except.bind]
    unfold secantLoop
    rw [if_neg (by norm_num), if_pos (by norm_num [abs_le])]
    congr 1
    norm_num
  have hwn : r.findSpeed env 2 0.005 Modes.wn 0 100 = .ok 100 := by
    unfold findSpeed
    rw [show env.newton = secant from rfl]
    refine hsec _ fun s => ?_
    obtain ⟨m, e1, e2, e3⟩ := key s
    rw [e1]
    simp only [bind, Except.bind]
    rw [e2]
    rfl
  have hwd : r.findSpeed env 2 0.005 Modes.wd 0 100 = .ok 100 := by
    unfold findSpeed
    rw [show env.newton = secant from rfl]
    refine hsec _ fun s => ?_
    obtain ⟨m, e1, e2, e3⟩ := key s
    rw [e1]
    simp only [bind, Except.bind]
    rw [e3]
    rfl
  obtain ⟨m, e1, e2, e3⟩ := key 100
  obtain ⟨l1, l2, l3, l4, -⟩ := modes_lengths e1
  rw [e2] at l2 l3 l4
  obtain ⟨d, hd⟩ := List.length_eq_one_iff.1 l3
  obtain ⟨z, hz⟩ := List.length_eq_one_iff.1 l2
  obtain ⟨v, hv⟩ := List.length_eq_one_iff.1 l4
  have hrow : r.criticalRow env 2 0 100 100 = .ok ⟨100, 100, d, z, v⟩ := by
    unfold criticalRow
    rw [e1]
    simp only [bind, Except.bind]
    rw [hd, hz, hv]
    rfl
  have hrows : r.criticalRows env 2 0.005 = .ok [⟨100, 100, d, z, v⟩] := by
    obtain ⟨m0, f1, f2, f3⟩ := key 0
    unfold criticalRows
    rw [f1]
    simp only [bind, Except.bind]
    rw [f2, f3]
    simp only [List.zipIdx_cons, List.zipIdx_nil, List.mapM_cons, List.mapM_nil, hwn, hwd]
    simp only [bind, Except.bind, pure, Except.pure, List.zip_cons_cons, List.zip_nil_right, List.zipIdx_cons,
      List.zipIdx_nil, List.mapM_cons, List.mapM_nil, hrow]
  refine ⟨env, r, .of [⟨100, 100, d, z, v⟩], secant_ok, h1, ?_, rfl, rfl, fun s => ?_⟩
  · simp only [run_critical_speed]
    rw [hrows]
    rfl
  · obtain ⟨m, e1, -, e3⟩ := key s
    exact ⟨m, e1, by rw [e3]; simp⟩

end Ross.Props
