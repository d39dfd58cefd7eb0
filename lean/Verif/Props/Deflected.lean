import Verif.Lemmas.Deflected
import Verif.Props.Readout
import Verif.Props.Shape

/-!
# C106: deflected shapes and bending moments at a speed
-/

namespace Ross.Props

open Ross Ross.Spec Ross.Rotor Ross.RotorLemmas Ross.ReadoutLemmas Ross.DeflectedLemmas Polynomial

variable {pd : Pandas} {fuel : ℕ} {a : RotorArgs} {r : Rotor} {six : Bool} {N : ℕ}

/-- C106: a shape is drawn when some computed speed is near to the requested one; otherwise, and for units that
measure no motion, the request is a `ValueError`. -/
theorem C106_accepts (la : Lapack) (hw : WellFormed six N a) (h : init pd fuel a = some (.ok r))
    {resp : List (ForcedResp r.ndof)} {speeds : List ℝ} (hl : resp.length = speeds.length) (speed f : ℝ) :
    (∀ k, (∃ s, r.deflected la resp speeds speed ⟨some k, f⟩ = .ok s) ↔ ∃ w ∈ speeds, Near w speed) ∧
    (∀ k, (¬ ∃ w ∈ speeds, Near w speed) → r.deflected la resp speeds speed ⟨k, f⟩ = .error .valueError) ∧
    r.deflected la resp speeds speed ⟨none, f⟩ = .error .valueError := by
  have hno : ∀ k, (¬ ∃ w ∈ speeds, Near w speed) → r.deflected la resp speeds speed ⟨k, f⟩ = .error .valueError := by
    intro k hn
    unfold deflected responseAt
    rw [index_none fun w hw hn' => hn ⟨w, hw, hn'⟩]
    rfl
  refine ⟨fun k => ⟨fun ⟨s, hs⟩ => ?_, fun hex => ?_⟩, hno, ?_⟩
  · by_contra hn
    rw [hno _ hn] at hs
    cases hs
  · obtain ⟨i, hi, hf⟩ := first_exists hex
    obtain ⟨s, hs, -⟩ := deflected_ok la hw h (k := k) (f := f) hf (List.getElem?_eq_getElem (hl ▸ hi))
    exact ⟨s, hs⟩
  · by_cases hex : ∃ w ∈ speeds, Near w speed
    · obtain ⟨i, -, hf⟩ := first_exists hex
      unfold deflected responseAt
      rw [index_of hf]
      rfl
    · exact hno _ hex

/-- C106: when the requested speed was computed and no earlier speed is near to it, the shape is the response at that
speed in the requested units: node by node, the orbit is the motion of the node, and its major axis is the largest
distance that the node reaches.  The condition on earlier speeds is what is missing, see `C106_speed_false`. -/
theorem C106_shape_partial {la : Lapack} (hla : LapackOk la) (hw : WellFormed six N a)
    (h : init pd fuel a = some (.ok r)) {resp : List (ForcedResp r.ndof)} {speeds : List ℝ} {speed : ℝ} {i : ℕ}
    {x : ForcedResp r.ndof} (hi : speeds[i]? = some speed)
    (hj : ∀ j < i, ∀ w, speeds[j]? = some w → ¬ Near w speed) (hx : resp[i]? = some x) (k : RespKind) (f : ℝ) :
    ∃ s, r.deflected la resp speeds speed ⟨some k, f⟩ = .ok s ∧ s.orbits.length = N + 1 ∧
      s.evec = List.ofFn (fun j => (f : ℂ) * asked x k j) ∧ s.nodes_pos = r.nodes_pos ∧
      ∀ n ≤ N, ∃ (z : ℝ) (o : Orbit), r.nodes_pos[n]? = some z ∧ s.orbits[n]? = some o ∧
        o = Orbit.init la n z (f * motion r.number_dof N (asked x k) ("x", n))
          (f * motion r.number_dof N (asked x k) ("y", n)) ∧
        IsGreatest (Set.range (radius (f * motion r.number_dof N (asked x k) ("x", n))
          (f * motion r.number_dof N (asked x k) ("y", n)))) o.major_axis := by
  have hk : x.get k = asked x k := by cases k <;> rfl
  obtain ⟨s, hs, hS⟩ := deflected_ok la hw h (k := k) (f := f)
    ⟨⟨speed, hi, by unfold Near; rw [sub_self, abs_zero]; positivity⟩, hj⟩ hx
  obtain ⟨e1, e2⟩ := C60_raw hS
  obtain ⟨ol, ho⟩ := C62_orbits hS (pos_length hw h)
  refine ⟨s, hs, ol, by rw [e1, hk], ?_, fun n hn => ?_⟩
  · obtain ⟨evec, orbits, l, -, -, -, rfl⟩ := ShapeLemmas.init_ok hS
    rfl
  · obtain ⟨ru, rv, z, h1, h2, h3, h4⟩ := ho n (by omega)
    obtain ⟨s1, s2, -⟩ := slot_shaft (N := N) (node := n) (ndof_eq' hw h).1 hn
    have key : ∀ (key : String × ℕ) (ru : ℂ), s.evec[slot r.number_dof N key]? = some ru →
        ru = f * motion r.number_dof N (asked x k) key := by
      intro key ru hr
      rw [e1] at hr
      obtain ⟨hlt, hr⟩ := List.getElem?_eq_some_iff.1 hr
      rw [List.length_ofFn] at hlt
      unfold motion
      rw [dif_pos hlt, ← hr, ← hk]
      simp
    rw [← s1] at h1
    rw [← s2] at h2
    have k1 := key _ _ h1
    have k2 := key _ _ h2
    refine ⟨z, _, h3, h4, by rw [k1, k2], ?_⟩
    rw [k1, k2]
    exact (C56_axes hla n z _ _).1

/-- C106: between the nodes the drawn line is the motion, too, when the motion of the shaft is a polynomial of degree
three: the major axes are the largest distances that the points reach. -/
theorem C106_line_partial {la : Lapack} (hla : LapackOk la) (hw : WellFormed six N a)
    (h : init pd fuel a = some (.ok r)) (hL : ∀ e ∈ r.shaft, ∀ f ∈ r.shaft, e.s.n = f.s.n → e.s.L = f.s.L)
    {resp : List (ForcedResp r.ndof)} {speeds : List ℝ} {speed : ℝ} {i : ℕ} {x : ForcedResp r.ndof}
    (hi : FirstNear speeds speed i) (hx : resp[i]? = some x) (k : RespKind) (f : ℝ) {X Y : ℂ[X]}
    (hX : X.natDegree ≤ 3) (hY : Y.natDegree ≤ 3)
    (hv : Sampled r.number_dof (List.ofFn (asked x k)) r.nodes_pos X Y) :
    ∃ s, r.deflected la resp speeds speed ⟨some k, f⟩ = .ok s ∧ ∀ j < 5 * N,
      s.xn j = f * (X.eval (s.zn j : ℂ)).re ∧ s.yn j = f * (Y.eval (s.zn j : ℂ)).re ∧
      IsGreatest (Set.range (radius (f * X.eval (s.zn j : ℂ)) (f * Y.eval (s.zn j : ℂ)))) (s.major_axis j) := by
  have hk : x.get k = asked x k := by cases k <;> rfl
  obtain ⟨s, hs, hS⟩ := deflected_ok la hw h (k := k) (f := f) hi hx
  rw [hk] at hS
  refine ⟨s, hs, fun j hj => ?_⟩
  have hv' : Sampled r.number_dof (List.ofFn fun j => (f : ℂ) * asked x k j) r.nodes_pos
      (C (f : ℂ) * X) (C (f : ℂ) * Y) := by
    have e : List.ofFn (fun j => (f : ℂ) * asked x k j) = (List.ofFn (asked x k)).map ((f : ℂ) * ·) := by
      rw [List.map_ofFn]
      rfl
    rw [e]
    intro n z hz
    obtain ⟨h1, h2, h3, h4⟩ := hv n z hz
    simp only [List.getElem?_map, h1, h2, h3, h4, Option.map_some, eval_mul, eval_C, derivative_mul, derivative_C,
      zero_mul, zero_add, mul_neg, and_self]
  have := C61_cubic hla (ndof_eq' hw h).1 hS (consecutive hw h hL) (pos_length hw h) _ _
    ((natDegree_C_mul_le _ _).trans hX) ((natDegree_C_mul_le _ _).trans hY) hv' j (by simpa using hj)
  simpa [eval_mul, eval_C] using this

/-- C106 fails for speeds that are near to each other: the shape of the first one is drawn for both. -/
theorem C106_speed_false (la : Lapack) (hw : WellFormed six N a) (h : init pd fuel a = some (.ok r))
    (x y : ForcedResp r.ndof) (k : RespKind) (f : ℝ) :
    ∃ s, r.deflected la [x, y] [1000, 1000.005] 1000.005 ⟨some k, f⟩ = .ok s ∧
      r.deflected la [x, y] [1000, 1000.005] 1000 ⟨some k, f⟩ = .ok s ∧
      s.evec = List.ofFn (fun j => (f : ℂ) * asked x k j) := by
  have hk : x.get k = asked x k := by cases k <;> rfl
  obtain ⟨s, hs, hS⟩ := deflected_ok la hw h (k := k) (f := f) (resp := [x, y]) (speeds := [1000, 1000.005])
    (speed := 1000.005) (i := 0) (x := x)
    ⟨⟨1000, rfl, by unfold Near; norm_num [abs_le]⟩, fun j hj => absurd hj (by omega)⟩ rfl
  obtain ⟨t, ht, hT⟩ := deflected_ok la hw h (k := k) (f := f) (resp := [x, y]) (speeds := [1000, 1000.005])
    (speed := 1000) (i := 0) (x := x)
    ⟨⟨1000, rfl, by unfold Near; norm_num⟩, fun j hj => absurd hj (by omega)⟩ rfl
  obtain rfl : s = t := Except.ok.inj (hS.symm.trans hT)
  exact ⟨s, hs, ht, by rw [(C60_raw hS).1, hk]⟩

/-! ### Markers -/

/-- What is drawn for the unbalances: at the position of the node, in the direction of the phase, with the factor of
the units times half of the largest major axis. -/
theorem C106_marker_scale (la : Lapack) (hw : WellFormed six N a) (h : init pd fuel a = some (.ok r))
    {resp : List (ForcedResp r.ndof)} {speeds : List ℝ} {speed f : ℝ} {s : Shape}
    (hs : r.deflected la resp speeds speed ⟨some .displacement, f⟩ = .ok s)
    (hl : resp.length = speeds.length) (lf : ℝ) (unb : List (ℕ × ℝ × ℝ)) (hu : ∀ x ∈ unb, x.1 ≤ N) :
    ∃ (M : List (ℝ × ℝ × ℝ)) (m : ℝ),
      r.deflected3d la resp speeds speed ⟨some .displacement, f⟩ lf (some unb) = .ok (s, M) ∧
      M.length = unb.length ∧ IsGreatest {x | ∃ i < 5 * N, s.major_axis i = x} m ∧
      ∀ (j n : ℕ) (amp φ : ℝ), unb[j]? = some (n, amp, φ) → ∃ z, r.nodes_pos[n]? = some z ∧
        M[j]? = some (lf * z, f * (m / 2 * Real.cos φ), f * (m / 2 * Real.sin φ)) := by
  have hex := ((C106_accepts la hw h hl speed f).1 .displacement).1 ⟨s, hs⟩
  obtain ⟨i, hi, hf⟩ := first_exists hex
  obtain ⟨s', hs', hS⟩ := deflected_ok la hw h (k := .displacement) (f := f) hf (List.getElem?_eq_getElem (hl ▸ hi))
  obtain rfl : s = s' := Except.ok.inj (hs.symm.trans hs')
  have hn : s.nodes = List.range (N + 1) ∧ s.nodes_pos = r.nodes_pos := by
    obtain ⟨evec, orbits, l, -, -, -, rfl⟩ := ShapeLemmas.init_ok hS
    exact ⟨rfl, rfl⟩
  obtain ⟨m, hm, hg⟩ := max_exists hn.1 hw.pos
  have hp := pos_length hw h
  have hmk : ∀ (n : ℕ) (φ z : ℝ), r.nodes_pos[n]? = some z →
      marker ⟨some .displacement, f⟩ lf s n φ = .ok (lf * z, f * (m / 2 * Real.cos φ), f * (m / 2 * Real.sin φ)) := by
    intro n φ z hz
    unfold marker
    rw [hm, hn.2, hz]
    rfl
  obtain ⟨M, hM⟩ : ∃ M, unb.mapM (fun x => marker ⟨some .displacement, f⟩ lf s x.1 x.2.2) = .ok M := by
    apply RotorLemmas.mapM_ok_of
    intro x hx
    exact ⟨_, hmk _ _ _ (List.getElem?_eq_getElem (by have := hu x hx; omega))⟩
  refine ⟨M, m, ?_, (ShapeLemmas.mapM_length hM).symm, hg, fun j n amp φ hj => ?_⟩
  · unfold deflected3d
    rw [hs]
    simp only [ShapeLemmas.ok_bind, hM]
    rfl
  · have hb := hu _ (List.mem_of_getElem? hj)
    have hz : r.nodes_pos[n]? = some (r.nodes_pos[n]'(by simp only at hb; omega)) := List.getElem?_eq_getElem _
    refine ⟨_, hz, ?_⟩
    have := ShapeLemmas.mapM_get hM j
    rw [hj] at this
    cases hx : M[j]? with
    | none => rw [hx] at this; exact absurd this (by simp)
    | some y =>
      rw [hx] at this
      simp only [Option.map_some, Option.some.injEq] at this
      rw [hmk _ _ _ hz] at this
      simpa using this.symm

/-- C106: in metres the marker of an unbalance has half of the length of the largest major axis. -/
theorem C106_marker_partial (la : Lapack) (hw : WellFormed six N a) (h : init pd fuel a = some (.ok r))
    {resp : List (ForcedResp r.ndof)} {speeds : List ℝ} {speed : ℝ} {s : Shape}
    (hs : r.deflected la resp speeds speed ⟨some .displacement, 1⟩ = .ok s)
    (hl : resp.length = speeds.length) (lf : ℝ) (unb : List (ℕ × ℝ × ℝ)) (hu : ∀ x ∈ unb, x.1 ≤ N) :
    ∃ (M : List (ℝ × ℝ × ℝ)) (m : ℝ),
      r.deflected3d la resp speeds speed ⟨some .displacement, 1⟩ lf (some unb) = .ok (s, M) ∧
      M.length = unb.length ∧ IsGreatest {x | ∃ i < 5 * N, s.major_axis i = x} m ∧
      ∀ (j n : ℕ) (amp φ : ℝ), unb[j]? = some (n, amp, φ) → ∃ z, r.nodes_pos[n]? = some z ∧
        M[j]? = some (lf * z, m / 2 * Real.cos φ, m / 2 * Real.sin φ) := by
  obtain ⟨M, m, h1, h2, h3, h4⟩ := C106_marker_scale la hw h hs hl lf unb hu
  refine ⟨M, m, h1, h2, h3, fun j n amp φ hj => ?_⟩
  simpa using h4 j n amp φ hj

/-- C106 fails in other units: the shape is already in these units, and the marker is converted once more, so that
its length is not half of the largest major axis. -/
theorem C106_marker_false (la : Lapack) (hw : WellFormed six N a) (h : init pd fuel a = some (.ok r))
    {resp : List (ForcedResp r.ndof)} {speeds : List ℝ} {speed f : ℝ} {s : Shape} (hf : f ≠ 1) (hf0 : 0 ≤ f)
    (hs : r.deflected la resp speeds speed ⟨some .displacement, f⟩ = .ok s)
    (hl : resp.length = speeds.length) (lf : ℝ) {n : ℕ} (hn : n ≤ N) (amp φ : ℝ)
    (hm : ∃ i < 5 * N, s.major_axis i > 0) :
    ∃ z x y m, r.deflected3d la resp speeds speed ⟨some .displacement, f⟩ lf (some [(n, amp, φ)]) =
        .ok (s, [(z, x, y)]) ∧
      IsGreatest {x | ∃ i < 5 * N, s.major_axis i = x} m ∧ Real.sqrt (x ^ 2 + y ^ 2) ≠ m / 2 := by
  obtain ⟨M, m, h1, h2, h3, h4⟩ := C106_marker_scale la hw h hs hl lf [(n, amp, φ)] (by simpa using hn)
  obtain ⟨z, -, h5⟩ := h4 0 n amp φ rfl
  obtain ⟨y, rfl⟩ := List.length_eq_one_iff.1 h2
  simp only [List.getElem?_cons_zero, Option.some.injEq] at h5
  subst h5
  refine ⟨_, _, _, m, h1, h3, ?_⟩
  have hp : 0 < m := by
    obtain ⟨i, hi, hgt⟩ := hm
    exact lt_of_lt_of_le hgt (h3.2 ⟨i, hi, rfl⟩)
  have e : (f * (m / 2 * Real.cos φ)) ^ 2 + (f * (m / 2 * Real.sin φ)) ^ 2 = (f * (m / 2)) ^ 2 := by
    linear_combination (f * (m / 2)) ^ 2 * Real.cos_sq_add_sin_sq φ
  rw [e, Real.sqrt_sq (by positivity)]
  intro hh
  apply hf
  have : (f - 1) * (m / 2) = 0 := by linarith
  rcases mul_eq_zero.1 this with h | h <;> linarith

/-- C106 fails for velocities and accelerations: the shape exists and can be drawn in two dimensions, but the request in
three dimensions raises as soon as there is an unbalance on the shaft. -/
theorem C106_velocity_false (la : Lapack) (hw : WellFormed six N a) (h : init pd fuel a = some (.ok r))
    {resp : List (ForcedResp r.ndof)} {speeds : List ℝ} {speed f : ℝ} {k : RespKind} (hk : k ≠ .displacement)
    (hl : resp.length = speeds.length) (hex : ∃ w ∈ speeds, Near w speed) (lf : ℝ) {n : ℕ} (hn : n ≤ N)
    (amp φ : ℝ) (l : List (ℕ × ℝ × ℝ)) :
    (∃ s, r.deflected la resp speeds speed ⟨some k, f⟩ = .ok s) ∧
    r.deflected3d la resp speeds speed ⟨some k, f⟩ lf (some ((n, amp, φ) :: l)) = .error .exception := by
  obtain ⟨i, hi, hf⟩ := first_exists hex
  obtain ⟨s, hs, hS⟩ := deflected_ok la hw h (k := k) (f := f) hf (List.getElem?_eq_getElem (hl ▸ hi))
  have hn' : s.nodes = List.range (N + 1) ∧ s.nodes_pos = r.nodes_pos := by
    obtain ⟨evec, orbits, l, -, -, -, rfl⟩ := ShapeLemmas.init_ok hS
    exact ⟨rfl, rfl⟩
  obtain ⟨m, hm, -⟩ := max_exists hn'.1 hw.pos
  have hp := pos_length hw h
  have hz : r.nodes_pos[n]? = some (r.nodes_pos[n]'(by omega)) := List.getElem?_eq_getElem _
  have hmk : marker ⟨some k, f⟩ lf s n φ = .error .exception := by
    unfold marker
    rw [hm, hn'.2, hz]
    cases k with
    | displacement => exact absurd rfl hk
    | velocity => rfl
    | acceleration => rfl
  refine ⟨⟨s, hs⟩, ?_⟩
  unfold deflected3d
  rw [hs]
  simp only [ShapeLemmas.ok_bind, List.mapM_cons, hmk]
  rfl

/-- C106 fails for a forced response that was run with a general force: it has no unbalance, and its shape cannot be
drawn in three dimensions. -/
theorem C106_none_false (la : Lapack) (hw : WellFormed six N a) (h : init pd fuel a = some (.ok r))
    {resp : List (ForcedResp r.ndof)} {speeds : List ℝ} {speed f : ℝ} (k : RespKind)
    (hl : resp.length = speeds.length) (hex : ∃ w ∈ speeds, Near w speed) (lf : ℝ) :
    (∃ s, r.deflected la resp speeds speed ⟨some k, f⟩ = .ok s) ∧
    r.deflected3d la resp speeds speed ⟨some k, f⟩ lf none = .error .attributeError := by
  obtain ⟨s, hs⟩ := ((C106_accepts la hw h hl speed f).1 k).2 hex
  refine ⟨⟨s, hs⟩, ?_⟩
  unfold deflected3d
  rw [hs]
  rfl

/-- C106: the bending moments that are plotted are those of the response at the first near speed, in the requested
units, and the resultant is the length of the two components. -/
theorem C106_moment {resp : List (ForcedResp r.ndof)} {speeds : List ℝ} {speed f : ℝ} {i : ℕ} {x : ForcedResp r.ndof}
    {Mx My : List ℝ} (hi : FirstNear speeds speed i) (hx : resp[i]? = some x)
    (hM : r.bendingMoment x.forced_resp = .ok (Mx, My)) :
    ∃ X Y R, r.bendingAt resp speeds speed f = .ok (X, Y, R) ∧
      (∀ n : ℕ, X[n]? = Mx[n]?.map (f * ·)) ∧ (∀ n : ℕ, Y[n]? = My[n]?.map (f * ·)) ∧
      ∀ (n : ℕ) (u v : ℝ), Mx[n]? = some u → My[n]? = some v → R[n]? = some (|f| * Real.sqrt (u ^ 2 + v ^ 2)) := by
  unfold bendingAt
  rw [index_of hi]
  simp only [ShapeLemmas.ok_bind, hx, hM]
  refine ⟨_, _, _, rfl, fun n => by simp, fun n => by simp, fun n u v hu hv => ?_⟩
  rw [List.getElem?_zipWith]
  simp only [List.getElem?_map, hu, hv, Option.map_some]
  congr 1
  rw [show (f * u) ^ 2 + (f * v) ^ 2 = f ^ 2 * (u ^ 2 + v ^ 2) by ring, Real.sqrt_mul (sq_nonneg f), Real.sqrt_sq_eq_abs]

/-- C106: a speed that is not near to a computed one has no bending moments. -/
theorem C106_moment_error {resp : List (ForcedResp r.ndof)} {speeds : List ℝ} {speed f : ℝ}
    (h : ¬ ∃ w ∈ speeds, Near w speed) : r.bendingAt resp speeds speed f = .error .valueError := by
  unfold bendingAt
  rw [index_none fun w hw hn' => h ⟨w, hw, hn'⟩]
  rfl

/-- Non-vacuity of C106: the example rotor with two computed speeds, of which the second is requested. -/
example (la : Lapack) (hla : LapackOk la) : ∃ r, init exPandas 10 exArgs = some (.ok r) ∧ WellFormed false 2 exArgs ∧
    ∃ s, r.deflected la [⟨0, 0, 0⟩, ⟨fun _ => 1, 0, 0⟩] [100, 200] 200 ⟨some .displacement, 1000⟩ = .ok s ∧
      s.orbits.length = 3 := by
  obtain ⟨r, hr, -⟩ := exRotor_exists
  refine ⟨r, hr, exArgs_wf, ?_⟩
  obtain ⟨s, hs, hl, -⟩ := C106_shape_partial hla exArgs_wf hr (resp := [⟨0, 0, 0⟩, ⟨fun _ => 1, 0, 0⟩])
    (speeds := [100, 200]) (speed := 200) (i := 1) (x := ⟨fun _ => 1, 0, 0⟩) rfl (by
      intro j hj w hw
      obtain rfl : j = 0 := by omega
      obtain rfl : 100 = w := by simpa using hw
      unfold Near
      norm_num [abs_le]) rfl .displacement 1000
  exact ⟨s, hs, hl⟩

/-- Non-vacuity of the markers: a shaft that moves by one millimetre, in millimetres. -/
example (la : Lapack) (hla : LapackOk la) : ∃ r, init exPandas 10 exArgs = some (.ok r) ∧
    ∃ (x : ForcedResp r.ndof) (s : Shape), r.deflected la [x] [100] 100 ⟨some .displacement, 1000⟩ = .ok s ∧
      ∃ i < 5 * 2, s.major_axis i > 0 := by
  obtain ⟨r, h1, -⟩ := exRotor_exists
  have hs : r.shaft = [⟨false, { exShaft with n := some 0, tag := defTag "ShaftElement " 0 exShaft.tag }⟩,
      ⟨false, { exShaft with n := some 1, tag := defTag "ShaftElement " 1 exShaft.tag }⟩] := by
    rw [(init_ok h1).shaft]
    show sortShaft _ = _
    unfold sortShaft
    exact List.mergeSort_of_pairwise (by
      simp [nodeOf, exArgs, numberShaft, Nest.flattenAll, Nest.flatten, exEl, exShaft])
  obtain ⟨v, hv⟩ := bent exArgs_wf h1 (C (1e-3 : ℂ)) 0
  obtain ⟨s, h2, h3⟩ := C106_line_partial hla exArgs_wf h1 (by
      rw [hs]
      intro e he f hf _
      simp only [List.mem_cons, List.not_mem_nil, or_false] at he hf
      rcases he with rfl | rfl <;> rcases hf with rfl | rfl <;> rfl) (resp := [⟨v, 0, 0⟩]) (speeds := [100])
    (speed := 100) (i := 0) (x := ⟨v, 0, 0⟩)
    ⟨⟨100, rfl, by unfold Near; norm_num⟩, fun j hj => absurd hj (by omega)⟩ rfl .displacement 1000
    (by simp) (by simp) hv
  refine ⟨r, h1, ⟨v, 0, 0⟩, s, h2, 0, by norm_num, ?_⟩
  obtain ⟨-, -, hg⟩ := h3 0 (by norm_num)
  refine lt_of_lt_of_le ?_ (hg.2 ⟨0, rfl⟩)
  unfold radius
  norm_num [coord]

end Ross.Props
