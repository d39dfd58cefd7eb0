import Verif.Model.ModePlots
import Verif.Spec.ModePlots
import Verif.Props.Shape

/-!
# C119: figures of mode shapes
-/

namespace Ross.Props

open Spec OrbitLemmas ShapeLemmas Polynomial ModePlots

/-- The points of an element are on the lines it is bent to. -/
theorem element_points {la : Lapack} (hla : LapackOk la) {v : List ℂ} {N : ℕ} {pos L : List ℝ} {nd : ℕ} {norm : Bool}
    {s : Shape} (hnd : nd = 4 ∨ nd = 6)
    (h : Shape.init la v (List.range N) pos L nd norm = .ok s) (hc : Consecutive pos L) (hp : pos.length = N)
    {n : ℕ} (hn : n + 1 < N) {X Y : ℂ[X]} (hs : BentTo nd s.evec pos n X Y) {z l : ℝ} (hz0 : pos[n]? = some z)
    (hl0 : L[n]? = some l) {k : ℕ} (hk : k < 5) :
    s.zn (5 * n + k) = z + l * k / 4 ∧
    s.xn (5 * n + k) = (X.eval ((z + l * k / 4 : ℝ) : ℂ)).re ∧
    s.yn (5 * n + k) = (Y.eval ((z + l * k / 4 : ℝ) : ℂ)).re ∧
    IsGreatest (Set.range (radius (X.eval ((z + l * k / 4 : ℝ) : ℂ)) (Y.eval ((z + l * k / 4 : ℝ) : ℂ))))
      (s.major_axis (5 * n + k)) ∧
    Tip (X.eval ((z + l * k / 4 : ℝ) : ℂ)) (Y.eval ((z + l * k / 4 : ℝ) : ℂ)) (s.major_x (5 * n + k))
      (s.major_y (5 * n + k)) (s.major_angle (5 * n + k)) := by
  obtain ⟨p, h1, h2, h3, h4, h5⟩ := points h (by rw [← hp]; exact hc.1) n hn
  obtain ⟨x0, x1, x2, x3⟩ := pick4_ok h3
  obtain ⟨y0, y1, y2, y3⟩ := pick4_ok h4
  obtain ⟨a1, a2, a3, a4, a5, a6, a7⟩ := h5 k hk
  have hz' : pos[n + 1]? = some (pos[n + 1]'(by omega)) := List.getElem?_eq_getElem _
  have hz := hc.2 n _ _ _ h1 hz' h2
  rw [hz] at hz'
  obtain ⟨hX, hY, hs1, hs2⟩ := hs
  obtain ⟨s0, s1, s2, s3⟩ := hs1 _ h1
  obtain ⟨t0, t1, t2, t3⟩ := hs2 _ hz'
  have e0 : nd * (n + 1) = nd * n + nd := by ring
  have e1 : nd * (n + 1) + nd / 2 = nd * n + 3 * nd / 2 := by
    rcases hnd with rfl | rfl <;> omega
  rw [e1] at t2 t3
  rw [e0] at t0 t1
  rw [x0] at s0
  rw [x1] at s3
  rw [x2] at t0
  rw [x3] at t3
  rw [y0] at s1
  rw [y1] at s2
  rw [y2] at t1
  rw [y3] at t2
  rw [h1] at hz0
  rw [h2] at hl0
  cases hz0
  cases hl0
  have ew : p.pos + p.L * Shape.zeta k = p.pos + p.L * k / 4 := by
    unfold Shape.zeta
    ring
  have ex : (p.amp k).1 = X.eval ((p.pos + p.L * k / 4 : ℝ) : ℂ) := by
    rw [← ew]
    exact interp_cubic X hX _ _ _ _ (Option.some.inj s0) (Option.some.inj s3) (Option.some.inj t0)
      (Option.some.inj t3)
  have ey : (p.amp k).2 = Y.eval ((p.pos + p.L * k / 4 : ℝ) : ℂ) := by
    rw [← ew]
    show Shape.interp (-p.L) _ _ = _
    rw [interp_neg]
    refine interp_cubic Y hY _ _ _ _ (Option.some.inj s1) ?_ (Option.some.inj t1) ?_
    · show -p.y 1 = _
      rw [Option.some.inj s2, neg_neg]
    · show -p.y 3 = _
      rw [Option.some.inj t2, neg_neg]
  rw [a1, a2, a3, a4, a5, a6, a7, ← ex, ← ey, ew]
  obtain ⟨i, m1, -, m3, m4, m5, -, -, m8, -⟩ := C56_major_point hla 0 0 (p.amp k).1 (p.amp k).2
  exact ⟨rfl, rfl, rfl, (C56_axes hla 0 0 _ _).1, i, m1, m3, m4, m5, m8⟩

theorem arr_get {la : Lapack} {v : List ℂ} {N : ℕ} {pos L : List ℝ} {nd : ℕ} {norm : Bool} {s : Shape}
    (h : Shape.init la v (List.range N) pos L nd norm = .ok s) (f : ℕ → ℝ) :
    (arr s f).length = 5 * (N - 1) ∧ ∀ i < 5 * (N - 1), (arr s f)[i]? = some (f i) := by
  have e : s.nodes = List.range N := by
    obtain ⟨evec, orbits, l, -, -, h3, rfl⟩ := init_ok h
    rfl
  unfold arr
  rw [e, List.length_range]
  refine ⟨by simp, fun i hi => ?_⟩
  simp [hi]

theorem nodes_pos_eq {la : Lapack} {v : List ℂ} {N : ℕ} {pos L : List ℝ} {nd : ℕ} {norm : Bool} {s : Shape}
    (h : Shape.init la v (List.range N) pos L nd norm = .ok s) : s.nodes_pos = pos := by
  obtain ⟨evec, orbits, l, -, -, h3, rfl⟩ := init_ok h
  rfl

/-- C119: the figure in two dimensions shows along the rotor, at five points of each element, the largest distance
that the shaft reaches there, or the coordinates of the tip of its orbit; the angles are the directions of the tips.
Any other orientation is refused. -/
theorem C119_2d {la : Lapack} (hla : LapackOk la) {v : List ℂ} {N : ℕ} {pos L : List ℝ} {nd : ℕ} {norm : Bool}
    {s : Shape} (hnd : nd = 4 ∨ nd = 6)
    (h : Shape.init la v (List.range N) pos L nd norm = .ok s) (hc : Consecutive pos L) (hp : pos.length = N)
    (ul up : ℝ) :
    (∀ o, o ≠ "major" → o ≠ "x" → o ≠ "y" → plot2d s o ul up = .error .valueError) ∧
    ∃ (color : String) (z angle m x y : List ℝ) (center : Stochastic.Curve),
      plot2d s "major" ul up = .ok ⟨color, ⟨z, m⟩, angle, center⟩ ∧
      plot2d s "x" ul up = .ok ⟨color, ⟨z, x⟩, angle, center⟩ ∧
      plot2d s "y" ul up = .ok ⟨color, ⟨z, y⟩, angle, center⟩ ∧
      z.length = 5 * (N - 1) ∧ m.length = 5 * (N - 1) ∧ x.length = 5 * (N - 1) ∧ y.length = 5 * (N - 1) ∧
      angle.length = 5 * (N - 1) ∧ center.x = pos.map (fun w => ul * w) ∧ center.y = List.replicate N 0 ∧
      ∀ (n : ℕ) (X Y : ℂ[X]) (w l : ℝ), n + 1 < N → BentTo nd s.evec pos n X Y → pos[n]? = some w → L[n]? = some l →
        ∀ k < 5, ∃ M a b θ : ℝ,
          z[5 * n + k]? = some (ul * (w + l * k / 4)) ∧ m[5 * n + k]? = some M ∧ x[5 * n + k]? = some a ∧
          y[5 * n + k]? = some b ∧ angle[5 * n + k]? = some (up * θ) ∧
          IsGreatest (Set.range (radius (X.eval ((w + l * k / 4 : ℝ) : ℂ)) (Y.eval ((w + l * k / 4 : ℝ) : ℂ)))) M ∧
          Tip (X.eval ((w + l * k / 4 : ℝ) : ℂ)) (Y.eval ((w + l * k / 4 : ℝ) : ℂ)) a b θ := by
  refine ⟨fun o h1 h2 h3 => ?_, colorOf s.whirl, (arr s s.zn).map (ul * ·), (arr s s.major_angle).map (up * ·),
    arr s s.major_axis, arr s s.major_x, arr s s.major_y,
    ⟨s.nodes_pos.map (ul * ·), List.replicate s.nodes_pos.length 0⟩, ?_, ?_, ?_, ?_, ?_, ?_, ?_, ?_, ?_, ?_, ?_⟩
  · unfold plot2d
    rw [if_neg h1, if_neg h2, if_neg h3]
    rfl
  · rfl
  · rfl
  · rfl
  · rw [List.length_map, (arr_get h _).1]
  · rw [(arr_get h _).1]
  · rw [(arr_get h _).1]
  · rw [(arr_get h _).1]
  · rw [List.length_map, (arr_get h _).1]
  · rw [nodes_pos_eq h]
  · rw [nodes_pos_eq h, hp]
  · intro n X Y w l hn hb hw hl k hk
    have hi : 5 * n + k < 5 * (N - 1) := by omega
    obtain ⟨b1, -, -, b4, b5⟩ := element_points hla hnd h hc hp hn hb hw hl hk
    refine ⟨_, _, _, _, ?_, (arr_get h _).2 _ hi, (arr_get h _).2 _ hi, (arr_get h _).2 _ hi, ?_, b4, b5⟩
    · rw [List.getElem?_map, (arr_get h _).2 _ hi, Option.map_some, b1]
    · rw [List.getElem?_map, (arr_get h _).2 _ hi, Option.map_some]

/-- Non-vacuity: a shaft with one element, bent to the lines `z ^ 3` and `i z ^ 2`. -/
example (la : Lapack) :
    (∃ s, Shape.init la [0, 0, 0, 0, 8, 4 * Complex.I, -(4 * Complex.I), 12] (List.range 2) [0, 2] [2] 4 false =
      .ok s ∧ BentTo 4 s.evec [0, 2] 0 (Polynomial.X ^ 3) (C Complex.I * Polynomial.X ^ 2)) ∧
    Consecutive [0, 2] [2] := by
  obtain ⟨s, hs⟩ := C61_accepts la (v := [0, 0, 0, 0, 8, 4 * Complex.I, -(4 * Complex.I), 12]) (N := 2) (pos := [0, 2])
    (L := [2]) (Or.inl rfl) rfl rfl rfl false (fun h => by cases h)
  refine ⟨⟨s, hs, by simp, ?_, ?_, ?_⟩, rfl, ?_⟩
  · exact (natDegree_C_mul_X_pow_le _ _).trans (by norm_num)
  · rw [(C60_raw hs).1]
    intro z hz
    simp at hz
    subst hz
    simp [FitsAt]
  · rw [(C60_raw hs).1]
    intro z hz
    simp at hz
    subst hz
    simp [FitsAt] <;> norm_num <;> ring_nf <;> simp
  · intro n a b l ha hb hl
    obtain ⟨hn, rfl⟩ := List.getElem?_eq_some_iff.1 hl
    simp at hn
    subst hn
    simp at ha hb ⊢
    rw [← ha, ← hb]
    norm_num

/-- C119: the curves are blue when all nodes run forward, red when none does, and else gray. -/
theorem C119_color {la : Lapack} (hla : LapackOk la) {v : List ℂ} {N : ℕ} {pos L : List ℝ} {nd : ℕ} {norm : Bool}
    {s : Shape} (h : Shape.init la v (List.range N) pos L nd norm = .ok s) (hp : pos.length = N) (hN : 0 < N)
    (o : String) (ul up : ℝ) {f : Fig2} (hf : plot2d s o ul up = .ok f) :
    (f.color = "blue" ↔ AllNodes Counterclockwise nd N s.evec) ∧
    (f.color = "red" ↔ AllNodes (fun ru rv => ¬ Counterclockwise ru rv) nd N s.evec) ∧
    (f.color = "blue" ∨ f.color = "red" ∨ f.color = "gray") := by
  obtain ⟨w1, w2, -⟩ := C62_whirl_partial hla h hp hN
  have e : f.color = colorOf s.whirl := by
    unfold plot2d at hf
    split_ifs at hf <;> cases hf <;> rfl
  rw [e, ← w1, ← w2]
  cases s.whirl <;> simp [colorOf]

/-- C119: the figure in three dimensions: at each node its orbit, the point where it starts and its tip; the line of
the shaft at the start, the center line, and the line of the tips.  A shaft without elements has no such figure. -/
theorem C119_3d {la : Lapack} (hla : LapackOk la) {v : List ℂ} {N : ℕ} {pos L : List ℝ} {nd : ℕ} {norm : Bool}
    {s : Shape} (hnd : nd = 4 ∨ nd = 6)
    (h : Shape.init la v (List.range N) pos L nd norm = .ok s) (hc : Consecutive pos L) (hp : pos.length = N)
    (ul up : ℝ) :
    (N ≤ 1 → plot3d s ul up = .error .indexError) ∧ (2 ≤ N → ∃ f, plot3d s ul up = .ok f ∧
      f.orbits.length = N ∧
      (∀ n < N, ∃ (o : Orbit3) (ru rv : ℂ) (w θ a b : ℝ), f.orbits[n]? = some o ∧ pos[n]? = some w ∧
        s.evec[nd * n]? = some ru ∧ s.evec[nd * n + 1]? = some rv ∧ o.name = "node " ++ toString n ∧
        (o.color = "blue" ↔ Counterclockwise ru rv) ∧ (o.color = "blue" ∨ o.color = "red") ∧
        Drawn ru rv o.curve.x o.curve.y ∧ o.curve.pos = List.replicate 350 (ul * w) ∧
        o.start = (ul * w, ru.re, rv.re) ∧ o.tip = (ul * w, a, b) ∧ Tip ru rv a b θ ∧ o.angle = up * θ ∧
        IsGreatest (Set.range (radius ru rv)) o.major) ∧
      f.line.pos.length = 5 * (N - 1) ∧ f.line.x.length = 5 * (N - 1) ∧ f.line.y.length = 5 * (N - 1) ∧
      f.major.pos = f.line.pos ∧ f.major.x.length = 5 * (N - 1) ∧ f.major.y.length = 5 * (N - 1) ∧
      (∀ (n : ℕ) (X Y : ℂ[X]) (w l : ℝ), n + 1 < N → BentTo nd s.evec pos n X Y → pos[n]? = some w → L[n]? = some l →
        ∀ k < 5, ∃ a b θ : ℝ,
          f.line.pos[5 * n + k]? = some (ul * (w + l * k / 4)) ∧
          f.line.x[5 * n + k]? = some (X.eval ((w + l * k / 4 : ℝ) : ℂ)).re ∧
          f.line.y[5 * n + k]? = some (Y.eval ((w + l * k / 4 : ℝ) : ℂ)).re ∧
          f.major.x[5 * n + k]? = some a ∧ f.major.y[5 * n + k]? = some b ∧
          Tip (X.eval ((w + l * k / 4 : ℝ) : ℂ)) (Y.eval ((w + l * k / 4 : ℝ) : ℂ)) a b θ) ∧
      f.center.x = List.replicate 30 0 ∧ f.center.y = List.replicate 30 0 ∧ f.center.pos.length = 30 ∧
      ∀ w, pos[N - 1]? = some w → ∀ i : ℕ, i < 30 → f.center.pos[i]? = some (ul * (w * (-0.1 + 1.2 * i / 29)))) := by
  have hz : ∀ i, (arr s s.zn)[i]? = if i < 5 * (N - 1) then some (s.zn i) else none := by
    intro i
    split_ifs with hi
    · exact (arr_get h _).2 i hi
    · exact List.getElem?_eq_none (by rw [(arr_get h _).1]; omega)
  constructor
  · intro hN
    have e : arr s s.zn = [] := List.length_eq_zero_iff.1 (by rw [(arr_get h _).1]; omega)
    unfold plot3d
    simp only [e, List.getLast?_nil]
  intro hN
  have hl : (arr s s.zn).getLast? = some (s.zn (5 * (N - 1) - 1)) := by
    rw [List.getLast?_eq_getElem?, (arr_get h _).1, hz, if_pos (by omega)]
  have hcl : ∀ z, (linspace (-(z * 0.1)) (z * 1.1) 30).length = 30 := fun z => by
    unfold linspace
    rw [List.length_map, List.length_range]
  unfold plot3d
  simp only [hl]
  obtain ⟨ho1, ho2⟩ := C62_orbits h hp
  refine ⟨_, rfl, ?_, ?_, ?_, ?_, ?_, rfl, ?_, ?_, ?_, ?_, ?_, ?_, ?_⟩
  · rw [List.length_map, ho1]
  · intro n hn
    obtain ⟨ru, rv, w, e1, e2, e3, e4⟩ := ho2 n hn
    obtain ⟨i, m1, -, m3, m4, m5, -, -, m8, -⟩ := C56_major_point hla n w ru rv
    refine ⟨orbit3 ul up (Orbit.init la n w ru rv), ru, rv, w, (Orbit.init la n w ru rv).major_angle,
      (Orbit.init la n w ru rv).major_x, (Orbit.init la n w ru rv).major_y, ?_, e3, e1, e2, rfl, ?_, ?_,
      ⟨?_, ?_, fun i hi => ⟨?_, ?_⟩⟩, rfl, ?_, rfl, ⟨i, m1, m3, m4, m5, m8⟩, rfl, (C56_axes hla n w ru rv).1⟩
    · rw [List.getElem?_map, e4]
      rfl
    · rw [← (C57_whirl_partial hla n w ru rv).1]
      show colorOf (Orbit.init la n w ru rv).whirl = "blue" ↔ _
      cases (Orbit.init la n w ru rv).whirl <;> simp [colorOf]
    · have := (C57_whirl_partial hla n w ru rv).2.2
      show colorOf (Orbit.init la n w ru rv).whirl = "blue" ∨ colorOf (Orbit.init la n w ru rv).whirl = "red"
      cases hw : (Orbit.init la n w ru rv).whirl <;> simp_all [colorOf]
    · simp only [orbit3, List.length_map, List.length_range]
    · simp only [orbit3, List.length_map, List.length_range]
    · simp only [orbit3, List.getElem?_map]
      rw [List.getElem?_range (by omega)]
      exact congrArg some (C56_points la n w ru rv i).2.2.2.2.1
    · simp only [orbit3, List.getElem?_map]
      rw [List.getElem?_range (by omega)]
      exact congrArg some (C56_points la n w ru rv i).2.2.2.2.2.1
    · have a1 := (C56_points la n w ru rv 0).2.2.2.2.1
      have a2 := (C56_points la n w ru rv 0).2.2.2.2.2.1
      simp only [orbit3, a1, a2]
      simp [coord, sample]
      exact Or.inl rfl
  · rw [List.length_map, (arr_get h _).1]
  · exact (arr_get h _).1
  · exact (arr_get h _).1
  · exact (arr_get h _).1
  · exact (arr_get h _).1
  · intro n X Y w l hn hb hw hl k hk
    have hi : 5 * n + k < 5 * (N - 1) := by omega
    obtain ⟨b1, b2, b3, -, b5⟩ := element_points hla hnd h hc hp hn hb hw hl hk
    refine ⟨_, _, _, ?_, ?_, ?_, (arr_get h _).2 _ hi, (arr_get h _).2 _ hi, b5⟩
    · rw [List.getElem?_map, (arr_get h _).2 _ hi, Option.map_some, b1]
    · rw [← b2]
      exact (arr_get h _).2 _ hi
    · rw [← b3]
      exact (arr_get h _).2 _ hi
  · simp only [mul_zero]
    rw [List.map_const', hcl]
  · simp only [mul_zero]
    rw [List.map_const', hcl]
  · rw [List.length_map, hcl]
  · intro w hw i hi
    obtain ⟨-, -, -, -, -, z', -, -, -, -, -, c1, -, -, -, -, -, c2⟩ := C61_nodes hnd h hc hp (N - 2) (by omega)
    rw [show N - 2 + 1 = N - 1 by omega, hw] at c1
    cases c1
    rw [show 5 * (N - 2) + 4 = 5 * (N - 1) - 1 by omega] at c2
    simp only [c2, linspace, List.getElem?_map]
    rw [List.getElem?_range hi]
    simp only [Option.map_some]
    congr 1
    norm_num
    left
    ring

/-- C119: the figure of orbits shows the nodes that were asked for and exist, each once, from the first to the last:
350 of the 360 points of each orbit, and its start.  Nodes that do not exist are passed over. -/
theorem C119_orbits {la : Lapack} (hla : LapackOk la) {v : List ℂ} {N : ℕ} {pos L : List ℝ} {nd : ℕ} {norm : Bool}
    {s : Shape} (h : Shape.init la v (List.range N) pos L nd norm = .ok s) (hp : pos.length = N) (nodes : List ℕ) :
    ∃ sel : List ℕ, sel.Pairwise (· < ·) ∧ (∀ n, n ∈ sel ↔ n < N ∧ n ∈ nodes) ∧
      (plotOrbit s nodes).length = sel.length ∧
      ∀ (i n : ℕ), sel[i]? = some n → ∃ (o : OrbitFig) (ru rv : ℂ), (plotOrbit s nodes)[i]? = some o ∧
        s.evec[nd * n]? = some ru ∧ s.evec[nd * n + 1]? = some rv ∧ Drawn ru rv o.curve.x o.curve.y ∧
        o.start = (ru.re, rv.re) ∧ o.start_name = "node " ++ toString n ∧
        (Counterclockwise ru rv → o.color = "blue" ∧ o.name = "node " ++ toString n ++ "<br>Forward") ∧
        (¬ Counterclockwise ru rv → o.color = "red" ∧ o.name = "node " ++ toString n ++ "<br>Backward") := by
  obtain ⟨ho1, ho2⟩ := C62_orbits h hp
  have hmap : s.orbits.map Orbit.node = List.range N := by
    refine List.ext_getElem? fun n => ?_
    rw [List.getElem?_map]
    by_cases hn : n < N
    · obtain ⟨ru, rv, w, -, -, -, e4⟩ := ho2 n hn
      rw [e4, List.getElem?_range hn]
      rfl
    · rw [List.getElem?_eq_none (by omega), List.getElem?_eq_none (by simpa using hn)]
      rfl
  have hsel : ((s.orbits.filter fun o => decide (o.node ∈ nodes)).map Orbit.node) =
      (List.range N).filter fun n => decide (n ∈ nodes) := by
    rw [← hmap, List.filter_map]
    rfl
  refine ⟨(List.range N).filter fun n => decide (n ∈ nodes), List.pairwise_lt_range.filter _, fun n => by simp, ?_,
    fun i n hi => ?_⟩
  · unfold plotOrbit
    rw [← hsel, List.length_map, List.length_map]
  · rw [← hsel, List.getElem?_map, Option.map_eq_some_iff] at hi
    obtain ⟨o, hi, hon⟩ := hi
    obtain ⟨k, hk⟩ := List.getElem?_of_mem (List.mem_filter.1 (List.mem_of_getElem? hi)).1
    have hkN : k < N := by
      rw [← ho1]
      exact (List.getElem?_eq_some_iff.1 hk).1
    obtain ⟨ru, rv, w, e1, e2, -, e4⟩ := ho2 k hkN
    rw [e4] at hk
    cases hk
    have : k = n := hon
    subst this
    have hw := C57_whirl_partial hla k w ru rv
    refine ⟨orbitFig (Orbit.init la k w ru rv), ru, rv, ?_, e1, e2, ⟨?_, ?_, fun i hi => ⟨?_, ?_⟩⟩, ?_, rfl, fun hcc => ?_,
      fun hcc => ?_⟩
    · unfold plotOrbit
      rw [List.getElem?_map, hi]
      rfl
    · simp only [orbitFig, List.length_map, List.length_range]
    · simp only [orbitFig, List.length_map, List.length_range]
    · simp only [orbitFig, List.getElem?_map]
      rw [List.getElem?_range (by omega)]
      exact congrArg some (C56_points la k w ru rv i).2.2.2.2.1
    · simp only [orbitFig, List.getElem?_map]
      rw [List.getElem?_range (by omega)]
      exact congrArg some (C56_points la k w ru rv i).2.2.2.2.2.1
    · have a1 := (C56_points la k w ru rv 0).2.2.2.2.1
      have a2 := (C56_points la k w ru rv 0).2.2.2.2.2.1
      simp only [orbitFig, a1, a2]
      simp [coord, sample]
    · rw [← hw.1] at hcc
      simp only [orbitFig, hcc]
      exact ⟨rfl, by rw [String.append_assoc]; rfl⟩
    · rw [← hw.1] at hcc
      have h2 : (Orbit.init la k w ru rv).whirl = .backward := by
        have := hw.2.2
        cases hw' : (Orbit.init la k w ru rv).whirl <;> simp_all
      simp only [orbitFig, h2]
      exact ⟨rfl, by rw [String.append_assoc]; rfl⟩

/-- Non-vacuity: a shaft with two nodes; of the nodes 1 and 7, only the first exists. -/
example (la : Lapack) : ∃ s, Shape.init la [0, 0, 0, 0, 8, 4 * Complex.I, -(4 * Complex.I), 12] (List.range 2) [0, 2] [2]
    4 false = .ok s ∧ (plotOrbit s [1, 7]).length = 1 := by
  obtain ⟨s, hs⟩ := C61_accepts la (v := [0, 0, 0, 0, 8, 4 * Complex.I, -(4 * Complex.I), 12]) (N := 2) (pos := [0, 2])
    (L := [2]) (Or.inl rfl) rfl rfl rfl false (fun h => by cases h)
  refine ⟨s, hs, ?_⟩
  obtain ⟨ho1, ho2⟩ := C62_orbits hs rfl
  obtain ⟨_, _, _, -, -, -, e0⟩ := ho2 0 (by norm_num)
  obtain ⟨_, _, _, -, -, -, e1⟩ := ho2 1 (by norm_num)
  obtain ⟨a, b, hab⟩ : ∃ a b, s.orbits = [a, b] := List.length_eq_two.1 ho1
  rw [hab] at e0 e1
  simp only [List.getElem?_cons_zero, List.getElem?_cons_succ, Option.some.injEq] at e0 e1
  unfold plotOrbit
  rw [hab, e0, e1]
  simp [Orbit.init]

/-- C119 fails for the orientations `x` and `y`: the points of the curve need not be the coordinates of the shaft at
one instant. -/
theorem C119_instant_false {la : Lapack} (hla : LapackOk la) :
    ∃ (s : Shape) (f : Fig2) (a b : ℝ), Shape.init la [1, 0, 0, 0, Complex.I, 0, 0, 0] (List.range 2) [0, 1] [1] 4 false
      = .ok s ∧ plot2d s "x" 1 1 = .ok f ∧ f.line.x[0]? = some 0 ∧ f.line.x[4]? = some 1 ∧ f.line.y[0]? = some a ∧
      f.line.y[4]? = some b ∧ ¬ ∃ τ, a = coord 1 τ ∧ b = coord Complex.I τ := by
  obtain ⟨s, hs⟩ := C61_accepts la (v := [1, 0, 0, 0, Complex.I, 0, 0, 0]) (N := 2) (pos := [0, 1])
    (L := [1]) (Or.inl rfl) rfl rfl rfl false (fun h => by cases h)
  obtain ⟨p, h1, h2, h3, h4, h5⟩ := points hs rfl 0 (by norm_num)
  rw [(C60_raw hs).1] at h3 h4
  obtain ⟨x0, x1, x2, x3⟩ := pick4_ok h3
  obtain ⟨y0, y1, y2, y3⟩ := pick4_ok h4
  simp only [List.getElem?_cons_zero, Option.some.injEq] at h1 h2
  simp at x0 x1 x2 x3 y0 y1 y2 y3
  obtain ⟨-, -, c1, -, c2, -⟩ := h5 0 (by norm_num)
  obtain ⟨-, -, d1, -, d2, -⟩ := h5 4 (by norm_num)
  have ea : p.amp 0 = (1, 0) := by
    simp [Shape.Piece.amp, Shape.interp, Shape.zeta, ← x0, ← y0]
  have eb : p.amp 4 = (Complex.I, 0) := by
    simp [Shape.Piece.amp, Shape.interp, Shape.zeta, ← x2, ← y2]
    norm_num
  rw [ea] at c2
  rw [eb] at d2
  rw [← h1, ← h2] at c1 d1
  have hg := fun f => (arr_get hs f).2
  refine ⟨s, _, s.major_x 0, s.major_x 4, hs, rfl, ?_, ?_, hg _ 0 (by norm_num), hg _ 4 (by norm_num), ?_⟩
  · simp only [List.getElem?_map, hg s.zn 0 (by norm_num), Option.map_some]
    rw [show s.zn 0 = 0 by simpa [Shape.zeta] using c1]
    simp
  · simp only [List.getElem?_map, hg s.zn 4 (by norm_num), Option.map_some]
    rw [show s.zn 4 = 1 by simpa [Shape.zeta] using d1]
    simp
  · rintro ⟨τ, hτ1, hτ2⟩
    rw [show s.major_x 0 = _ from c2] at hτ1
    rw [show s.major_x 4 = _ from d2] at hτ2
    obtain ⟨i, -, -, m3, -, m5, -⟩ := C56_major_point hla 0 0 1 0
    obtain ⟨j, -, -, n3, -, n5, -⟩ := C56_major_point hla 0 0 Complex.I 0
    have r1 : ∀ σ, radius 1 0 σ = |Real.cos σ| := fun σ => by
      simp [radius, coord, Real.sqrt_sq_eq_abs, Complex.exp_re]
    have r2 : ∀ σ, radius Complex.I 0 σ = |Real.sin σ| := fun σ => by
      simp [radius, coord, Real.sqrt_sq_eq_abs, Complex.exp_im]
    have k1 : coord 1 τ = Real.cos τ := by simp [coord, Complex.exp_re]
    have k2 : coord Complex.I τ = -Real.sin τ := by simp [coord, Complex.exp_im]
    have k3 : coord 1 (sample i) = Real.cos (sample i) := by simp [coord, Complex.exp_re]
    have k4 : coord Complex.I (sample j) = -Real.sin (sample j) := by simp [coord, Complex.exp_im]
    rw [m3, k3, k1] at hτ1
    rw [n3, k4, k2] at hτ2
    have m5 := m5 0 (by norm_num)
    have n5 := n5 1 (by norm_num)
    rw [r1, r1, hτ1] at m5
    rw [r2, r2] at n5
    have e0 : sample 0 = 0 := by simp [sample]
    rw [e0, Real.cos_zero, abs_one] at m5
    have hsin : Real.sin τ = 0 := by
      have := Real.sin_sq_add_cos_sq τ
      have h1 : 1 ≤ Real.cos τ ^ 2 := by
        rw [← sq_abs]
        nlinarith [abs_nonneg (Real.cos τ)]
      nlinarith [sq_nonneg (Real.sin τ)]
    have hj : Real.sin (sample j) = 0 := by linarith
    rw [hj, abs_zero] at n5
    have : 0 < Real.sin (sample 1) := by
      refine Real.sin_pos_of_pos_of_lt_pi ?_ ?_ <;> unfold sample
      · have := Real.pi_pos
        positivity
      · have := Real.pi_pos
        push_cast
        linarith
    have := abs_nonpos_iff.1 n5
    linarith

theorem pyAt_ok {α : Type} {l : List α} {M : ℕ} (hl : l.length = M) {i : ℤ} {j : ℕ} (h : ModeNumber M i j) {a : α}
    (ha : l[j]? = some a) : pyAt l i = .ok a := by
  obtain ⟨hj, h⟩ := h
  unfold pyAt
  rcases h with rfl | rfl
  · rw [if_pos (by omega), Int.toNat_natCast, ha]
  · rw [if_neg (by omega), if_pos (by omega), hl, show ((M : ℤ) + (j - M)).toNat = j by omega, ha]

theorem pyAt_error {α : Type} {l : List α} {M : ℕ} (hl : l.length = M) {i : ℤ} (h : ¬ ∃ j, ModeNumber M i j) :
    pyAt l i = .error .indexError := by
  unfold pyAt
  split_ifs with h1 h2
  · rw [List.getElem?_eq_none]
    by_contra hc
    exact h ⟨i.toNat, by omega, by omega⟩
  · exact absurd ⟨(M + i).toNat, by omega, by omega⟩ h
  · rfl

/-- The lists of modal results have one entry for each of the `M` modes. -/
def Modes (R : ModalRes) (M : ℕ) : Prop :=
  R.wn.length = M ∧ R.wd.length = M ∧ R.damping_ratio.length = M ∧ R.log_dec.length = M ∧ R.shapes.length = M

/-- C119: all that the figures of a mode show belongs to this mode: the shape, the frequency that was asked for, the
speed, and the damping. -/
theorem C119_mode {R : ModalRes} {M : ℕ} (hR : Modes R M) {i : ℤ} {j : ℕ} (hj : ModeNumber M i j) {s : Shape}
    {wn wd ratio dec : ℝ} (h1 : R.shapes[j]? = some s) (h2 : R.wn[j]? = some wn) (h3 : R.wd[j]? = some wd)
    (h4 : R.damping_ratio[j]? = some ratio) (h5 : R.log_dec[j]? = some dec) (u : LengthUnit) (uf up : ℝ)
    {kind dkind name dname : String} {w d : ℝ}
    (hw : AskedFrequency kind (uf * wd) (uf * wn) (uf * R.speed) name w) (hd : AskedDamping dkind ratio dec dname d) :
    ∃ t : ModeTitle, t.mode = i ∧ t.speed = uf * R.speed ∧ t.frequency_name = name ∧ t.frequency = w ∧
      t.damping_name = dname ∧ t.damping = d ∧ t.whirl = whirlName (ModalResults.whirl (ModalResults.kappa_mode s)) ∧
      (∀ f, plot3d s u.factor up = .ok f →
        plotMode3d R i kind u up uf dkind = .ok (f, t, "Rotor Length (" ++ u.name ++ ")")) ∧
      (∀ e, plot3d s u.factor up = .error e → plotMode3d R i kind u up uf dkind = .error e) ∧
      (∀ o f, plot2d s o 1 1 = .ok f →
        plotMode2d R i o kind u uf dkind = .ok (f, t, "Rotor Length (" ++ u.name ++ ")")) ∧
      (∀ o e, plot2d s o 1 1 = .error e → plotMode2d R i o kind u uf dkind = .error e) ∧
      ∀ nodes, plotModeOrbit R i nodes = .ok (plotOrbit s nodes) := by
  obtain ⟨l1, l2, l3, l4, l5⟩ := hR
  have g1 := pyAt_ok l5 hj h1
  have g2 := pyAt_ok l1 hj h2
  have g3 := pyAt_ok l2 hj h3
  have g4 := pyAt_ok l3 hj h4
  have g5 := pyAt_ok l4 hj h5
  have g6 : pyAt (ModalResults.whirl_direction R.shapes) i = .ok (ModalResults.whirl (ModalResults.kappa_mode s)) := by
    refine pyAt_ok (M := M) ?_ hj ?_
    · unfold ModalResults.whirl_direction
      rw [List.length_map, l5]
    · unfold ModalResults.whirl_direction
      rw [List.getElem?_map, h1]
      rfl
  have hdf : dataMode R i uf dkind = .ok ⟨dname, d, uf * wd, uf * wn, uf * R.speed⟩ := by
    unfold dataMode
    rcases hd with ⟨rfl, rfl, rfl⟩ | ⟨hne, rfl, rfl⟩
    · simp only [g5, g4, g3, g2, g1, ok_bind, if_true]
      rfl
    · simp only [g5, g3, g2, g1, ok_bind, if_neg hne]
      rfl
  have ht : titleOf R i kind ⟨dname, d, uf * wd, uf * wn, uf * R.speed⟩ =
      .ok ⟨i, uf * R.speed, whirlName (ModalResults.whirl (ModalResults.kappa_mode s)), name, w, dname, d⟩ := by
    unfold titleOf
    rcases hw with ⟨rfl, rfl, rfl⟩ | ⟨rfl, rfl, rfl⟩ | ⟨rfl, rfl, rfl⟩ <;> rw [g6] <;> rfl
  refine ⟨⟨i, uf * R.speed, whirlName (ModalResults.whirl (ModalResults.kappa_mode s)), name, w, dname, d⟩,
    rfl, rfl, rfl, rfl, rfl, rfl, rfl, fun f hf => ?_, fun e he => ?_, fun o f hf => ?_, fun o e he => ?_,
    fun nodes => ?_⟩
  · unfold plotMode3d
    rw [hdf, ok_bind, g1, ok_bind, hf, ok_bind, ht, ok_bind]
    rfl
  · unfold plotMode3d
    rw [hdf, ok_bind, g1, ok_bind, he]
    rfl
  · unfold plotMode2d
    rw [hdf, ok_bind, g1, ok_bind, hf, ok_bind, ht, ok_bind]
    rfl
  · unfold plotMode2d
    rw [hdf, ok_bind, g1, ok_bind, he]
    rfl
  · unfold plotModeOrbit
    rw [g1]
    rfl

/-- C119: modes that do not exist, and kinds of frequencies that do not exist, are refused. -/
theorem C119_refused {R : ModalRes} {M : ℕ} (hR : Modes R M) (i : ℤ) (u : LengthUnit) (uf up : ℝ)
    (o kind dkind : String) :
    ((¬ ∃ j, ModeNumber M i j) → plotMode3d R i kind u up uf dkind = .error .indexError ∧
      plotMode2d R i o kind u uf dkind = .error .indexError ∧
      ∀ nodes, plotModeOrbit R i nodes = .error .indexError) ∧
    (kind ≠ "wd" → kind ≠ "wn" → kind ≠ "speed" →
      (∀ f, plotMode3d R i kind u up uf dkind ≠ .ok f) ∧ ∀ f, plotMode2d R i o kind u uf dkind ≠ .ok f) := by
  obtain ⟨l1, l2, l3, l4, l5⟩ := hR
  constructor
  · intro h
    have e : dataMode R i uf dkind = .error .indexError := by
      unfold dataMode
      rw [pyAt_error l4 h]
      rfl
    refine ⟨?_, ?_, fun nodes => ?_⟩
    · unfold plotMode3d
      rw [e]
      rfl
    · unfold plotMode2d
      rw [e]
      rfl
    · unfold plotModeOrbit
      rw [pyAt_error l5 h]
      rfl
  · intro k1 k2 k3
    have e : ∀ df t, titleOf R i kind df ≠ .ok t := by
      intro df t ht
      unfold titleOf at ht
      obtain ⟨a, -, ht⟩ := BearingLemmas.bind_ok.1 ht
      simp only [if_neg k1, if_neg k2, if_neg k3] at ht
      cases ht
    constructor
    · intro f hf
      unfold plotMode3d at hf
      obtain ⟨a, -, hf⟩ := BearingLemmas.bind_ok.1 hf
      obtain ⟨b, -, hf⟩ := BearingLemmas.bind_ok.1 hf
      obtain ⟨c, -, hf⟩ := BearingLemmas.bind_ok.1 hf
      obtain ⟨d, hd, -⟩ := BearingLemmas.bind_ok.1 hf
      exact e _ _ hd
    · intro f hf
      unfold plotMode2d at hf
      obtain ⟨a, -, hf⟩ := BearingLemmas.bind_ok.1 hf
      obtain ⟨b, -, hf⟩ := BearingLemmas.bind_ok.1 hf
      obtain ⟨c, -, hf⟩ := BearingLemmas.bind_ok.1 hf
      obtain ⟨d, hd, -⟩ := BearingLemmas.bind_ok.1 hf
      exact e _ _ hd

/-- C119 fails for the figure in two dimensions: its axis is labelled with the unit of length that was asked for, and
the nodes are drawn at their positions in metres.  The figure in three dimensions uses the unit. -/
theorem C119_units_false {la : Lapack} {v : List ℂ} {N : ℕ} {pos L : List ℝ} {nd : ℕ} {norm : Bool} {s : Shape}
    (hnd : nd = 4 ∨ nd = 6)
    (h : Shape.init la v (List.range N) pos L nd norm = .ok s) (hc : Consecutive pos L) (hp : pos.length = N)
    {R : ModalRes} {M : ℕ} (hR : Modes R M) {i : ℤ} {j : ℕ} (hj : ModeNumber M i j) (hs : R.shapes[j]? = some s)
    (u : LengthUnit) (uf : ℝ) (hu : u.factor ≠ 1) {n : ℕ} (hn : n + 1 < N) {z : ℝ} (hz : pos[n]? = some z) (hz0 : z ≠ 0) :
    ∃ f g t, plotMode2d R i "major" "wd" u uf "log_dec" = .ok (f, t, "Rotor Length (" ++ u.name ++ ")") ∧
      plotMode3d R i "wd" u 1 uf "log_dec" = .ok (g, t, "Rotor Length (" ++ u.name ++ ")") ∧
      f.line.x[5 * n]? = some z ∧ f.line.x[5 * n]? ≠ some (u.factor * z) ∧ f.center.x[n]? = some z ∧
      g.line.pos[5 * n]? = some (u.factor * z) := by
  obtain ⟨l1, l2, l3, l4, l5⟩ := hR
  have hjM := hj.1
  obtain ⟨t, -, -, -, -, -, -, -, h3, -, h2, -⟩ := C119_mode ⟨l1, l2, l3, l4, l5⟩ hj hs
    (List.getElem?_eq_getElem (by omega)) (List.getElem?_eq_getElem (by omega)) (List.getElem?_eq_getElem (by omega))
    (List.getElem?_eq_getElem (by omega)) u uf 1 (kind := "wd") (dkind := "log_dec")
    (Or.inl ⟨rfl, rfl, rfl⟩) (Or.inr ⟨by decide, rfl, rfl⟩)
  have hzn : s.zn (5 * n) = z := by
    obtain ⟨-, -, z', -, -, -, -, -, c1, -, -, -, -, -, c2, -⟩ := C61_nodes hnd h hc hp n hn
    rw [hz] at c1
    cases c1
    exact c2
  have hl : (arr s s.zn).getLast? = some (s.zn (5 * (N - 1) - 1)) := by
    rw [List.getLast?_eq_getElem?, (arr_get h _).1, (arr_get h _).2 _ (by omega)]
  obtain ⟨g, hg⟩ : ∃ g, plot3d s u.factor 1 = .ok g := by
    unfold plot3d
    simp only [hl]
    exact ⟨_, rfl⟩
  refine ⟨_, g, t, h2 "major" _ rfl, h3 g hg, ?_, ?_, ?_, ?_⟩
  · simp only [List.getElem?_map, (arr_get h s.zn).2 (5 * n) (by omega), Option.map_some, hzn, one_mul]
  · simp only [List.getElem?_map, (arr_get h s.zn).2 (5 * n) (by omega), Option.map_some, hzn, one_mul]
    intro e
    have e := Option.some.inj e
    exact hu (mul_right_cancel₀ hz0 (by linarith))
  · simp only [nodes_pos_eq h, List.getElem?_map, hz, Option.map_some, one_mul]
  · unfold plot3d at hg
    simp only [hl] at hg
    cases hg
    simp only [List.getElem?_map, (arr_get h s.zn).2 (5 * n) (by omega), Option.map_some, hzn]

/-- C119 fails for shafts that vibrate on lines, as without rotation and damping: the title calls the mode Forward,
and its curve is drawn in the color of Backward. -/
theorem C119_title_false {la : Lapack} (hla : LapackOk la) {v : List ℂ} {N : ℕ} {pos L : List ℝ} {nd : ℕ} {norm : Bool}
    {s : Shape} (h : Shape.init la v (List.range N) pos L nd norm = .ok s) (hp : pos.length = N) (hN : 0 < N)
    (hline : AllNodes Line nd N s.evec) (o : String) (ul up : ℝ) {f : Fig2} (hf : plot2d s o ul up = .ok f) :
    whirlName (ModalResults.whirl (ModalResults.kappa_mode s)) = "Forward" ∧ f.color = "red" := by
  constructor
  · have hk := (allNodes_iff h hp (fun o => o.kappa = 0) Line fun n z ru rv => (C57_kappa hla n z ru rv).2.2).2 hline
    have : ModalResults.whirl (ModalResults.kappa_mode s) = .forward := by
      unfold ModalResults.whirl
      rw [if_pos]
      unfold ModalResults.kappa_mode
      rw [List.forall_mem_map]
      intro o ho
      rw [hk o ho]
      norm_num
    rw [this]
    rfl
  · rw [(C119_color hla h hp hN o ul up hf).2.1]
    intro n ru rv hn a b hcc
    have := hcc 0
    rw [hline n ru rv hn a b 0] at this
    exact lt_irrefl _ this

/-- C119: the word in the title, when no orbit is nearly a line. -/
theorem C119_title_partial {la : Lapack} (hla : LapackOk la) {v : List ℂ} {N : ℕ} {pos L : List ℝ} {nd : ℕ}
    {norm : Bool} {s : Shape} (h : Shape.init la v (List.range N) pos L nd norm = .ok s) (hp : pos.length = N)
    (hN : 0 < N) (hk : ∀ o ∈ s.orbits, 1e-3 < |o.kappa|) :
    (whirlName (ModalResults.whirl (ModalResults.kappa_mode s)) = "Forward" ↔ AllNodes Counterclockwise nd N s.evec) ∧
    (whirlName (ModalResults.whirl (ModalResults.kappa_mode s)) = "Backward" ↔ AllNodes Clockwise nd N s.evec) ∧
    (whirlName (ModalResults.whirl (ModalResults.kappa_mode s)) = "Mixed" ↔
      ¬ AllNodes Counterclockwise nd N s.evec ∧ ¬ AllNodes Clockwise nd N s.evec) := by
  obtain ⟨h1, h2, -⟩ := C62_direction_partial hla h hp hN hk
  rw [← h1, ← h2]
  cases ModalResults.whirl (ModalResults.kappa_mode s) <;> simp [whirlName]

/-- C119: the mode shown for a critical speed of the map is a forward mode, and no forward mode has a frequency nearer
to this speed; when no mode runs forward there is no figure. -/
theorem C119_critical_partial {R : ModalRes} {M : ℕ} (hR : Modes R M) (hd : R.wd.Nodup) :
    ((∀ s ∈ R.shapes, ModalResults.whirl (ModalResults.kappa_mode s) ≠ .forward) →
      nearestForward R = .error .valueError) ∧
    ((∃ s ∈ R.shapes, ModalResults.whirl (ModalResults.kappa_mode s) = .forward) →
      ∃ (i : ℕ) (s : Shape) (w : ℝ), nearestForward R = .ok i ∧ R.shapes[i]? = some s ∧ R.wd[i]? = some w ∧
        ModalResults.whirl (ModalResults.kappa_mode s) = .forward ∧
        ∀ (j : ℕ) (s' : Shape) (w' : ℝ), R.shapes[j]? = some s' → R.wd[j]? = some w' →
          ModalResults.whirl (ModalResults.kappa_mode s') = .forward → |w - R.speed| ≤ |w' - R.speed|) := by
  obtain ⟨-, l2, -, -, l5⟩ := hR
  set fwd := ((R.wd.zip (ModalResults.whirl_direction R.shapes)).filter
    fun p => decide (p.2 = .forward)).map Prod.fst with hfwd
  have hmem : ∀ w, w ∈ fwd ↔ ∃ (j : ℕ) (s : Shape), R.shapes[j]? = some s ∧ R.wd[j]? = some w ∧
      ModalResults.whirl (ModalResults.kappa_mode s) = .forward := by
    intro w
    rw [hfwd, List.mem_map]
    constructor
    · rintro ⟨p, hp, rfl⟩
      obtain ⟨hp, hf⟩ := List.mem_filter.1 hp
      obtain ⟨j, hj⟩ := List.getElem?_of_mem hp
      rw [List.getElem?_zip_eq_some] at hj
      obtain ⟨a, b⟩ := hj
      unfold ModalResults.whirl_direction at b
      rw [List.getElem?_map, Option.map_eq_some_iff] at b
      obtain ⟨s, b, c⟩ := b
      refine ⟨j, s, b, a, ?_⟩
      rw [c]
      simpa using hf
    · rintro ⟨j, s, a, b, c⟩
      refine ⟨(w, .forward), List.mem_filter.2 ⟨?_, by simp⟩, rfl⟩
      refine List.mem_of_getElem? (i := j) ?_
      rw [List.getElem?_zip_eq_some]
      refine ⟨b, ?_⟩
      unfold ModalResults.whirl_direction
      rw [List.getElem?_map, a, Option.map_some, c]
  constructor
  · intro hno
    have : fwd = [] := by
      refine List.eq_nil_iff_forall_not_mem.2 fun w hw => ?_
      obtain ⟨j, s, a, -, c⟩ := (hmem w).1 hw
      exact hno s (List.mem_of_getElem? a) c
    unfold nearestForward
    simp only [← hfwd, this, if_true]
  · rintro ⟨s, hs, hf⟩
    obtain ⟨j, hj⟩ := List.getElem?_of_mem hs
    have hjM : j < R.wd.length := by
      rw [l2, ← l5]
      exact (List.getElem?_eq_some_iff.1 hj).1
    have hne : fwd ≠ [] := by
      have := (hmem _).2 ⟨j, s, hj, List.getElem?_eq_getElem hjM, hf⟩
      exact List.ne_nil_of_mem this
    have hpos : 0 < fwd.length := List.length_pos_iff.2 hne
    obtain ⟨k1, k2, -⟩ := argmin_of_pos (fun i => |fwd.getD i 0 - R.speed|) fwd.length hpos
    set k := argmin (fun i => |fwd.getD i 0 - R.speed|) fwd.length with hk
    set f := fwd.getD k 0 with hfd
    have hfm : fwd[k]? = some f := by
      rw [hfd, List.getD_eq_getElem?_getD, List.getElem?_eq_getElem k1]
      rfl
    obtain ⟨j0, s0, a0, b0, c0⟩ := (hmem f).1 (List.mem_of_getElem? hfm)
    have hj0 : j0 < R.wd.length := (List.getElem?_eq_some_iff.1 b0).1
    obtain ⟨i1, i2, -⟩ := argmin_of_pos (fun i => |R.wd.getD i 0 - f|) R.wd.length (by omega)
    set i := argmin (fun i => |R.wd.getD i 0 - f|) R.wd.length with hi
    have e0 : R.wd.getD j0 0 = f := by
      rw [List.getD_eq_getElem?_getD, b0]
      rfl
    have hi0 : i = j0 := by
      have := i2 j0 hj0
      simp only [e0, sub_self, abs_zero] at this
      have hf' : R.wd.getD i 0 = f := by
        have := abs_nonpos_iff.1 this
        linarith
      rw [← e0] at hf'
      rw [List.getD_eq_getElem?_getD, List.getD_eq_getElem?_getD, List.getElem?_eq_getElem i1,
        List.getElem?_eq_getElem hj0] at hf'
      exact (List.Nodup.getElem_inj_iff hd).1 hf'
    refine ⟨i, s0, f, ?_, hi0 ▸ a0, hi0 ▸ b0, c0, fun j' s' w' a' b' c' => ?_⟩
    · unfold nearestForward
      simp only [← hfwd, if_neg hne]
      rfl
    · obtain ⟨m, hm⟩ := List.getElem?_of_mem ((hmem w').2 ⟨j', s', a', b', c'⟩)
      have := k2 m (List.getElem?_eq_some_iff.1 hm).1
      simp only [List.getD_eq_getElem?_getD, hm, hfm, Option.getD_some] at this
      exact this

/-- C119 fails for modes with equal frequencies: the first of them is shown, whether or not it runs forward. -/
theorem C119_critical_false {s s' : Shape} (h : ModalResults.whirl (ModalResults.kappa_mode s) = .backward)
    (h' : ModalResults.whirl (ModalResults.kappa_mode s') = .forward) (w speed : ℝ) (wn ratio dec : List ℝ) :
    nearestForward ⟨speed, wn, [w, w], ratio, dec, [s, s']⟩ = .ok 0 := by
  unfold nearestForward
  simp [ModalResults.whirl_direction, h, h', argmin, argmax, List.range_succ]

/-- C119: the figures of the map show that mode. -/
theorem C119_map {l : List ModalRes} {i : ℤ} {j : ℕ} {R : ModalRes} (hj : ModeNumber l.length i j)
    (hR : l[j]? = some R) (kind : String) (u : LengthUnit) (uf : ℝ) :
    (∀ k, nearestForward R = .ok k → ucsMode2d l i kind u uf = plotMode2d R k "major" kind u uf "log_dec" ∧
      ucsMode3d l i kind u uf = plotMode3d R k kind u 1 uf "log_dec") ∧
    ∀ e, nearestForward R = .error e → ucsMode2d l i kind u uf = .error e ∧ ucsMode3d l i kind u uf = .error e := by
  have g := pyAt_ok rfl hj hR
  constructor
  · intro k hk
    unfold ucsMode2d ucsMode3d
    rw [g, ok_bind, ok_bind, hk]
    exact ⟨rfl, rfl⟩
  · intro e he
    unfold ucsMode2d ucsMode3d
    rw [g, ok_bind, ok_bind, he]
    exact ⟨rfl, rfl⟩

theorem one_node {la : Lapack} (hla : LapackOk la) (ru rv : ℂ) : ∃ s,
    Shape.init la [ru, rv, 0, 0] (List.range 1) [0] [] 4 false = .ok s ∧ s.evec = [ru, rv, 0, 0] ∧
      ModalResults.kappa_mode s = [turn ru rv / big ru rv] := by
  obtain ⟨s, hs⟩ := C61_accepts la (v := [ru, rv, 0, 0]) (N := 1) (pos := [0]) (L := []) (nd := 4)
    (Or.inl rfl) rfl rfl rfl false (fun h => by cases h)
  refine ⟨s, hs, (C60_raw hs).1, ?_⟩
  obtain ⟨hl, ho⟩ := C62_orbits hs rfl
  obtain ⟨ru', rv', z, h1, h2, -, h3⟩ := ho 0 (by norm_num)
  rw [(C60_raw hs).1] at h1 h2
  obtain rfl : ru = ru' := Option.some.inj h1
  obtain rfl : rv = rv' := Option.some.inj h2
  obtain ⟨o, hso⟩ := List.length_eq_one_iff.1 hl
  rw [hso] at h3
  obtain rfl : o = _ := Option.some.inj h3
  unfold ModalResults.kappa_mode
  rw [hso]
  simp [kappa_eq hla]

/-- Non-vacuity: results with a forward and a backward mode, of different or of equal frequencies, and a mode on a
line. -/
example : ∃ (la : Lapack) (s s' s'' : Shape), LapackOk la ∧
    ModalResults.whirl (ModalResults.kappa_mode s) = .backward ∧
    ModalResults.whirl (ModalResults.kappa_mode s') = .forward ∧
    Modes ⟨2, [1, 3], [1, 3], [0, 0], [0, 0], [s, s']⟩ 2 ∧ ModeNumber 2 (-1) 1 ∧
    Shape.init la [1, 1, 0, 0] (List.range 1) [0] [] 4 false = .ok s'' ∧ AllNodes Line 4 1 s''.evec := by
  obtain ⟨la, hla⟩ := lapack_exists
  obtain ⟨s, -, -, hs⟩ := one_node hla 1 Complex.I
  obtain ⟨s', -, -, hs'⟩ := one_node hla 1 (-Complex.I)
  obtain ⟨s'', hi, he, -⟩ := one_node hla 1 1
  refine ⟨la, s, s', s'', hla, ?_, ?_, ⟨rfl, rfl, rfl, rfl, rfl⟩, ⟨by norm_num, by norm_num⟩, hi, ?_⟩
  · rw [hs]
    have : turn 1 Complex.I / big 1 Complex.I = -1 := by simp [turn, big, power, skew]
    rw [this]
    unfold ModalResults.whirl
    rw [if_neg, if_pos] <;> simp <;> norm_num
  · rw [hs']
    have : turn 1 (-Complex.I) / big 1 (-Complex.I) = 1 := by simp [turn, big, power, skew]
    rw [this]
    unfold ModalResults.whirl
    rw [if_pos]
    simp
    norm_num
  · rw [he]
    intro n ru rv hn a b τ
    obtain rfl : n = 0 := by omega
    simp at a b
    rw [← a, ← b, areaRate_eq]
    simp

end Ross.Props
