import Verif.Lemmas.Shape
import Verif.Lemmas.Accept
import Verif.Props.Orbit

/-!
# C60-C62: mode shapes and deflected shapes
-/

namespace Ross.Props

open Spec OrbitLemmas ShapeLemmas Polynomial

/-! ### C60: normalization and classification -/

/-- C60: a normalized shape is the vector divided by its largest displacement in `x` or `y`. -/
theorem C60_normalized {la : Lapack} {v : List ℂ} {nodes : List ℕ} {pos L : List ℝ} {nd : ℕ} {s : Shape}
    (h : Shape.init la v nodes pos L nd true = .ok s) :
    ∃ k p, IsLateral nd k ∧ v[k]? = some p ∧ p ≠ 0 ∧
      (∀ j q, IsLateral nd j → v[j]? = some q → ‖q‖ ≤ ‖p‖) ∧ s.evec = v.map (· / p) := by
  obtain ⟨evec, orbits, l, h1, -, -, rfl⟩ := init_ok h
  exact normalized_ok h1

/-- C60: so one displacement in `x` or `y` of a normalized shape is one, and none is larger. -/
theorem C60_unit {la : Lapack} {v : List ℂ} {nodes : List ℕ} {pos L : List ℝ} {nd : ℕ} {s : Shape}
    (h : Shape.init la v nodes pos L nd true = .ok s) :
    (∃ k, IsLateral nd k ∧ s.evec[k]? = some 1) ∧
    ∀ (k : ℕ) (z : ℂ), IsLateral nd k → s.evec[k]? = some z → ‖z‖ ≤ 1 := by
  obtain ⟨k, p, h1, h2, h3, h4, h5⟩ := C60_normalized h
  rw [h5]
  refine ⟨⟨k, h1, by rw [List.getElem?_map, h2, Option.map_some, div_self h3]⟩, fun j z hj hz => ?_⟩
  rw [List.getElem?_map] at hz
  obtain ⟨q, hq, rfl⟩ := Option.map_eq_some_iff.1 hz
  rw [norm_div, div_le_one (norm_pos_iff.2 h3)]
  exact h4 j q hj hq

/-- C60: the modal results hold one shape per natural frequency, in the same order, and each is that of the
displacement half of the eigenvector. -/
theorem C60_modes {la : Lapack} {N : ℕ} {m : Rotor.Modal N} {nodes : List ℕ} {pos L : List ℝ} {nd : ℕ}
    {l : List Shape} (h : ModalResults.shapes la m nodes pos L nd = .ok l) :
    l.length = m.wn.length ∧
    ∀ (i : ℕ) (s : Shape), l[i]? = some s → ∃ v p, m.evectors[i]? = some v ∧
      s.vector = List.ofFn (fun k => v (.inl k)) ∧ p ≠ 0 ∧
      s.evec = List.ofFn (fun k => v (.inl k) / p) ∧ s.nodes_pos = pos := by
  unfold ModalResults.shapes at h
  have hl := mapM_length h
  rw [List.length_range] at hl
  refine ⟨hl.symm, fun i s hs => ?_⟩
  have hi : i < m.wn.length := by
    rw [hl]
    exact (List.getElem?_eq_some_iff.1 hs).1
  have hf := mapM_get h i
  rw [hs, List.getElem?_range hi] at hf
  have hf := Option.some.inj hf
  dsimp only at hf
  cases hv : m.evectors[i]? with
  | none => rw [hv] at hf; cases hf
  | some v =>
    rw [hv] at hf
    obtain ⟨k, p, -, -, hp, -, he⟩ := C60_normalized hf
    obtain ⟨evec, orbits, l', -, -, -, rfl⟩ := init_ok hf
    refine ⟨v, p, rfl, rfl, hp, ?_, rfl⟩
    rw [he, List.map_ofFn]
    rfl

/-- C60: without `normalize` the vector is drawn as it is. -/
theorem C60_raw {la : Lapack} {v : List ℂ} {nodes : List ℕ} {pos L : List ℝ} {nd : ℕ} {s : Shape}
    (h : Shape.init la v nodes pos L nd false = .ok s) : s.evec = v ∧ s.vector = v := by
  obtain ⟨evec, orbits, l, h1, -, -, rfl⟩ := init_ok h
  exact ⟨(Except.ok.inj h1).symm, rfl⟩

/-- C60: eigenvectors are determined up to a factor; what is drawn of a normalized shape does not depend
on it. -/
theorem C60_scale {la : Lapack} {v : List ℂ} {nodes : List ℕ} {pos L : List ℝ} {nd : ℕ} {s : Shape} {c : ℂ}
    (hc : c ≠ 0) (h : Shape.init la v nodes pos L nd true = .ok s) :
    ∃ t, Shape.init la (v.map (c * ·)) nodes pos L nd true =
      .ok { s with vector := v.map (c * ·), mode_type := t } := by
  obtain ⟨evec, orbits, l, h1, h2, h3, rfl⟩ := init_ok h
  refine ⟨Shape.classify nd (v.map (c * ·)), ?_⟩
  have h1' : Shape.drawn true nd (v.map (c * ·)) = .ok evec := by
    rw [← h1]
    exact normalized_scale hc nd v
  unfold Shape.init
  rw [h1']
  simp only [ok_bind, h2, h3]
  rfl

/-- C60: a vector without displacement in `x` and `y` (a purely axial or torsional mode) cannot be
normalized. -/
theorem C60_axial {la : Lapack} {v : List ℂ} {nodes : List ℕ} {pos L : List ℝ} {nd : ℕ}
    (h : ∀ k z, IsLateral nd k → v[k]? = some z → z = 0) :
    Shape.init la v nodes pos L nd true = .error .valueError := by
  unfold Shape.init Shape.drawn
  rw [if_pos rfl, normalized_zero h]
  rfl

example : ∀ (k : ℕ) (z : ℂ), IsLateral 6 k → ([0, 0, 1, 0, 0, 0] : List ℂ)[k]? = some z → z = 0 := by
  intro k z hk hz
  obtain ⟨hlt, hz⟩ := List.getElem?_eq_some_iff.1 hz
  simp at hlt
  unfold IsLateral at hk
  interval_cases k <;> simp_all

/-- C60: with six degrees of freedom per node, a mode is called axial when only the axial displacements
are larger than `5e-7`, torsional when only the twists are (and it is not axial), else lateral.  With four
it is always lateral. -/
theorem C60_type {la : Lapack} {v : List ℂ} {nodes : List ℕ} {pos L : List ℝ} {nd : ℕ} {norm : Bool} {s : Shape}
    (h : Shape.init la v nodes pos L nd norm = .ok s) :
    (s.mode_type = .axial ↔ nd = 6 ∧ ∀ (k : ℕ) (z : ℂ), v[k]? = some z → 5e-7 < ‖z‖ → k % 6 = 2) ∧
    (s.mode_type = .torsional ↔ nd = 6 ∧ (∀ (k : ℕ) (z : ℂ), v[k]? = some z → 5e-7 < ‖z‖ → k % 6 = 5) ∧
      ∃ (k : ℕ) (z : ℂ), v[k]? = some z ∧ 5e-7 < ‖z‖) := by
  obtain ⟨evec, orbits, l, h1, h2, h3, rfl⟩ := init_ok h
  have key : ∀ m, (∀ k ∈ Shape.nonzeroDofs v, k % 6 = m) ↔
      ∀ (k : ℕ) (z : ℂ), v[k]? = some z → 5e-7 < ‖z‖ → k % 6 = m := by
    intro m
    constructor
    · intro H k z hz hk
      exact H k (nonzero_iff.2 ⟨z, hz, fun e => not_le.2 hk ((round_zero z).1 e)⟩)
    · intro H k hk
      obtain ⟨z, hz, hr⟩ := nonzero_iff.1 hk
      exact H k z hz (not_le.1 fun e => hr ((round_zero z).2 e))
  simp only [Shape.classify]
  by_cases hnd : nd = 6
  · rw [if_pos hnd]
    by_cases ha : ∀ (k : ℕ) (z : ℂ), v[k]? = some z → 5e-7 < ‖z‖ → k % 6 = 2
    · rw [if_pos ((key 2).2 ha)]
      refine ⟨⟨fun _ => ⟨hnd, ha⟩, fun _ => rfl⟩, ⟨fun e => (by cases e), ?_⟩⟩
      rintro ⟨-, ht, k, z, hz, hk⟩
      have := ha k z hz hk
      have := ht k z hz hk
      omega
    · rw [if_neg (fun e => ha ((key 2).1 e))]
      by_cases ht : ∀ (k : ℕ) (z : ℂ), v[k]? = some z → 5e-7 < ‖z‖ → k % 6 = 5
      · rw [if_pos ((key 5).2 ht)]
        refine ⟨⟨fun e => (by cases e), fun e => absurd e.2 ha⟩, ⟨fun _ => ⟨hnd, ht, ?_⟩, fun _ => rfl⟩⟩
        push Not at ha
        obtain ⟨k, z, hz, hk, -⟩ := ha
        exact ⟨k, z, hz, hk⟩
      · rw [if_neg (fun e => ht ((key 5).1 e))]
        exact ⟨⟨fun e => (by cases e), fun e => absurd e.2 ha⟩, ⟨fun e => (by cases e), fun e => absurd e.2.1 ht⟩⟩
  · rw [if_neg hnd]
    exact ⟨⟨fun e => (by cases e), fun e => absurd e.1 hnd⟩, ⟨fun e => (by cases e), fun e => absurd e.1 hnd⟩⟩

/-- C61: a shape can be drawn for every vector with `nd` components per node; a normalized one when some
displacement in `x` or `y` is not zero. -/
theorem C61_accepts (la : Lapack) {v : List ℂ} {N : ℕ} {pos L : List ℝ} {nd : ℕ} (hnd : nd = 4 ∨ nd = 6)
    (hv : v.length = nd * N) (hp : pos.length = N) (hL : L.length + 1 = N) (norm : Bool)
    (h0 : norm = true → ∃ (k : ℕ) (z : ℂ), IsLateral nd k ∧ v[k]? = some z ∧ z ≠ 0) :
    ∃ s, Shape.init la v (List.range N) pos L nd norm = .ok s := by
  cases norm with
  | false => exact init_exists la hnd hp hL (e := v) rfl hv.ge
  | true =>
    obtain ⟨e, he, hl⟩ := normalized_exists (nd := nd) (by omega) (v := v)
      (by rcases hnd with rfl | rfl <;> omega) (h0 rfl)
    exact init_exists la hnd hp hL he (hl.trans hv).ge

/-- The label depends on the scale of the vector, which is arbitrary: a mode with both lateral and axial
motion is axial or lateral. -/
theorem C60_type_false (la : Lapack) :
    ∃ s t, Shape.init la [1e-7, 0, 1, 0, 0, 0] [0] [0] [] 6 true = .ok s ∧
      Shape.init la ([1e-7, 0, 1, 0, 0, 0].map ((10 ^ 7 : ℂ) * ·)) [0] [0] [] 6 true = .ok t ∧
      s.evec = t.evec ∧ s.mode_type = .axial ∧ t.mode_type = .lateral := by
  obtain ⟨s, hs⟩ := C61_accepts la (v := [1e-7, 0, 1, 0, 0, 0]) (N := 1) (pos := [0]) (L := []) (nd := 6)
    (Or.inr rfl) rfl rfl rfl true fun _ => ⟨0, 1e-7, Or.inl rfl, rfl, by norm_num⟩
  obtain ⟨t, ht⟩ := C60_scale (c := 10 ^ 7) (by norm_num) hs
  refine ⟨s, _, hs, ht, rfl, (C60_type hs).1.2 ⟨rfl, ?_⟩, ?_⟩
  · intro k z hz hk
    obtain ⟨hlt, rfl⟩ := List.getElem?_eq_some_iff.1 hz
    simp at hlt
    interval_cases k <;> first | rfl | (exfalso; norm_num at hk)
  · obtain ⟨h1, h2⟩ := C60_type ht
    have hm : ([1e-7, 0, 1, 0, 0, 0].map ((10 ^ 7 : ℂ) * ·))[0]? = some 1 := by
      norm_num
    cases hx : t with
    | lateral => rfl
    | axial =>
      have := (h1.1 hx).2 0 1 hm (by norm_num)
      omega
    | torsional =>
      have := (h2.1 hx).2.1 0 1 hm (by norm_num)
      omega

/-! ### C61: the line between the nodes -/

/-- C61: the line passes through the nodes. -/
theorem C61_nodes {la : Lapack} {v : List ℂ} {N : ℕ} {pos L : List ℝ} {nd : ℕ} {norm : Bool} {s : Shape}
    (hnd : nd = 4 ∨ nd = 6)
    (h : Shape.init la v (List.range N) pos L nd norm = .ok s) (hc : Consecutive pos L) (hp : pos.length = N)
    (n : ℕ) (hn : n + 1 < N) :
    ∃ x y z x' y' z', s.evec[nd * n]? = some x ∧ s.evec[nd * n + 1]? = some y ∧ pos[n]? = some z ∧
      s.evec[nd * (n + 1)]? = some x' ∧ s.evec[nd * (n + 1) + 1]? = some y' ∧ pos[n + 1]? = some z' ∧
      s.xn (5 * n) = x.re ∧ s.yn (5 * n) = y.re ∧ s.zn (5 * n) = z ∧
      s.xn (5 * n + 4) = x'.re ∧ s.yn (5 * n + 4) = y'.re ∧ s.zn (5 * n + 4) = z' := by
  obtain ⟨p, h1, h2, h3, h4, h5⟩ := points h (by rw [← hp]; exact hc.1) n hn
  obtain ⟨x0, -, x2, -⟩ := pick4_ok h3
  obtain ⟨y0, -, y2, -⟩ := pick4_ok h4
  obtain ⟨a1, a2, a3, -⟩ := h5 0 (by norm_num)
  obtain ⟨b1, b2, b3, -⟩ := h5 4 (by norm_num)
  obtain ⟨c1, c2, c3, c4⟩ := amp_ends p
  rw [c1] at a1
  rw [c2] at a2
  rw [c3] at b1
  rw [c4] at b2
  have hz' : pos[n + 1]? = some (pos[n + 1]'(by omega)) := List.getElem?_eq_getElem _
  have hz := hc.2 n _ _ _ h1 hz' h2
  rw [hz] at hz'
  refine ⟨p.x 0, p.y 0, p.pos, p.x 2, p.y 2, p.pos + p.L, x0, y0, h1, ?_, ?_, hz', a1, a2, ?_, b1, b2, ?_⟩
  · rw [Nat.mul_add, Nat.mul_one]
    exact x2
  · rw [Nat.mul_add, Nat.mul_one]
    exact y2
  · rw [← add_zero (5 * n), a3, Shape.zeta]
    simp
  · rw [b3, Shape.zeta]
    norm_num

/-- C61: so it has no gaps. -/
theorem C61_continuous {la : Lapack} {v : List ℂ} {N : ℕ} {pos L : List ℝ} {nd : ℕ} {norm : Bool} {s : Shape}
    (hnd : nd = 4 ∨ nd = 6)
    (h : Shape.init la v (List.range N) pos L nd norm = .ok s) (hc : Consecutive pos L) (hp : pos.length = N)
    (n : ℕ) (hn : n + 2 < N) :
    s.xn (5 * n + 4) = s.xn (5 * (n + 1)) ∧ s.yn (5 * n + 4) = s.yn (5 * (n + 1)) ∧
      s.zn (5 * n + 4) = s.zn (5 * (n + 1)) := by
  obtain ⟨-, -, -, x, y, z, -, -, -, a1, a2, a3, -, -, -, a4, a5, a6⟩ :=
    C61_nodes hnd h hc hp n (by omega)
  obtain ⟨x', y', z', -, -, -, b1, b2, b3, -, -, -, b4, b5, b6, -⟩ := C61_nodes hnd h hc hp (n + 1) hn
  rw [a1] at b1
  rw [a2] at b2
  rw [a3] at b3
  rw [a4, a5, a6, b4, b5, b6, Option.some.inj b1, Option.some.inj b2, Option.some.inj b3]
  exact ⟨rfl, rfl, rfl⟩

/-- C61: a shaft bent to lines of degree three (so also a rigid motion) is drawn as it is, and the major
axis is right at every point of the line. -/
theorem C61_cubic {la : Lapack} (hla : LapackOk la) {v : List ℂ} {N : ℕ} {pos L : List ℝ} {nd : ℕ} {s : Shape}
    (hnd : nd = 4 ∨ nd = 6)
    (h : Shape.init la v (List.range N) pos L nd false = .ok s) (hc : Consecutive pos L) (hp : pos.length = N)
    (X Y : ℂ[X]) (hX : X.natDegree ≤ 3) (hY : Y.natDegree ≤ 3) (hs : Sampled nd v pos X Y)
    (i : ℕ) (hi : i < 5 * (N - 1)) :
    s.xn i = (X.eval (s.zn i : ℂ)).re ∧ s.yn i = (Y.eval (s.zn i : ℂ)).re ∧
    IsGreatest (Set.range (radius (X.eval (s.zn i : ℂ)) (Y.eval (s.zn i : ℂ)))) (s.major_axis i) := by
  obtain ⟨n, k, hk, rfl⟩ : ∃ n k, k < 5 ∧ i = 5 * n + k := ⟨i / 5, i % 5, by omega, by omega⟩
  have hn : n + 1 < N := by omega
  obtain ⟨p, h1, h2, h3, h4, h5⟩ := points h (by rw [← hp]; exact hc.1) n hn
  rw [(C60_raw h).1] at h3 h4
  obtain ⟨x0, x1, x2, x3⟩ := pick4_ok h3
  obtain ⟨y0, y1, y2, y3⟩ := pick4_ok h4
  obtain ⟨a1, a2, a3, a4, -⟩ := h5 k hk
  have hz' : pos[n + 1]? = some (pos[n + 1]'(by omega)) := List.getElem?_eq_getElem _
  have hz := hc.2 n _ _ _ h1 hz' h2
  rw [hz] at hz'
  obtain ⟨s0, s1, s2, s3⟩ := hs n _ h1
  obtain ⟨t0, t1, t2, t3⟩ := hs (n + 1) _ hz'
  have e0 : nd * (n + 1) = nd * n + nd := by ring
  have e1 : nd * (n + 1) + nd / 2 = nd * n + 3 * nd / 2 := by
    rcases hnd with rfl | rfl <;> omega
  rw [e1] at t2 t3
  rw [e0] at t0 t1
  rw [x0] at s0
  rw [x1] at s3
  rw [x2] at t0
  rw [x3] at t3
  rw [y0] at s1
  rw [y1] at s2
  rw [y2] at t1
  rw [y3] at t2
  have ex : (p.amp k).1 = X.eval (s.zn (5 * n + k) : ℂ) := by
    rw [a3]
    exact interp_cubic X hX _ _ _ _ (Option.some.inj s0) (Option.some.inj s3) (Option.some.inj t0)
      (Option.some.inj t3)
  have ey : (p.amp k).2 = Y.eval (s.zn (5 * n + k) : ℂ) := by
    rw [a3]
    show Shape.interp (-p.L) _ _ = _
    rw [interp_neg]
    refine interp_cubic Y hY _ _ _ _ (Option.some.inj s1) ?_ (Option.some.inj t1) ?_
    · show -p.y 1 = _
      rw [Option.some.inj s2, neg_neg]
    · show -p.y 3 = _
      rw [Option.some.inj t2, neg_neg]
  rw [a1, a2, a4, ← ex, ← ey]
  exact ⟨rfl, rfl, (C56_axes hla 0 0 _ _).1⟩

/-- Non-vacuity: a vector taken from the lines `z ^ 3` and `i z ^ 2`. -/
example (la : Lapack) :
    (∃ s, Shape.init la [0, 0, 0, 0, 8, 4 * Complex.I, -(4 * Complex.I), 12] (List.range 2) [0, 2] [2] 4 false =
      .ok s) ∧
    Consecutive [0, 2] [2] ∧
    Sampled 4 [0, 0, 0, 0, 8, 4 * Complex.I, -(4 * Complex.I), 12] [0, 2] (Polynomial.X ^ 3)
      (C Complex.I * Polynomial.X ^ 2) := by
  refine ⟨C61_accepts la (N := 2) (pos := [0, 2]) (Or.inl rfl) rfl rfl rfl false (fun h => by cases h),
    ⟨rfl, ?_⟩, ?_⟩
  · intro n a b l ha hb hl
    obtain ⟨hn, rfl⟩ := List.getElem?_eq_some_iff.1 hl
    simp at hn
    subst hn
    simp at ha hb ⊢
    rw [← ha, ← hb]
    norm_num
  · intro n z hz
    obtain ⟨hn, rfl⟩ := List.getElem?_eq_some_iff.1 hz
    simp at hn
    interval_cases n <;> simp <;> norm_num <;> ring_nf <;> simp

/-! ### C62: forward, backward and mixed modes -/

/-- C62: the orbits of a shape are those of its nodes, in their order. -/
theorem C62_orbits {la : Lapack} {v : List ℂ} {N : ℕ} {pos L : List ℝ} {nd : ℕ} {norm : Bool} {s : Shape}
    (h : Shape.init la v (List.range N) pos L nd norm = .ok s) (hp : pos.length = N) :
    s.orbits.length = N ∧ ∀ n, n < N → ∃ ru rv z, s.evec[nd * n]? = some ru ∧ s.evec[nd * n + 1]? = some rv ∧
      pos[n]? = some z ∧ s.orbits[n]? = some (Orbit.init la n z ru rv) :=
  orbits_get h hp


/-- C62: a shape is called Forward when all nodes run counterclockwise, Backward when none does, else
Mixed. -/
theorem C62_whirl_partial {la : Lapack} (hla : LapackOk la) {v : List ℂ} {N : ℕ} {pos L : List ℝ} {nd : ℕ}
    {norm : Bool} {s : Shape} (h : Shape.init la v (List.range N) pos L nd norm = .ok s) (hp : pos.length = N)
    (hN : 0 < N) :
    (s.whirl = .forward ↔ AllNodes Counterclockwise nd N s.evec) ∧
    (s.whirl = .backward ↔ AllNodes (fun ru rv => ¬ Counterclockwise ru rv) nd N s.evec) ∧
    (AllNodes Clockwise nd N s.evec → s.whirl = .backward) := by
  obtain ⟨h1, h2, h3⟩ := shape_whirl h hp
  have e1 := allNodes_iff h hp (fun o => o.whirl = .forward) Counterclockwise
    fun n z ru rv => (C57_whirl_partial hla n z ru rv).1
  have e2 := allNodes_iff h hp (fun o => o.whirl = .backward) (fun ru rv => ¬ Counterclockwise ru rv)
    fun n z ru rv => by
      rw [← (C57_whirl_partial hla n z ru rv).1]
      have := (C57_whirl_partial hla n z ru rv).2.2
      cases hw : (Orbit.init la n z ru rv).whirl <;> simp_all
  rw [e1] at h1 h2
  rw [e2] at h2
  have key : s.whirl = .backward ↔ AllNodes (fun ru rv => ¬ Counterclockwise ru rv) nd N s.evec := by
    rw [h2]
    refine and_iff_right_of_imp fun hb hf => ?_
    obtain ⟨-, ho⟩ := orbits_get h hp
    obtain ⟨ru, rv, z, a, b, -⟩ := ho 0 hN
    exact hb 0 ru rv hN a b (hf 0 ru rv hN a b)
  refine ⟨h1, key, fun hc => key.2 fun n ru rv hn a b hcc => ?_⟩
  have := hc n ru rv hn a b 0
  have := hcc 0
  linarith

/-- C62: the direction of a mode: when no orbit is nearly a line, it is Forward when all nodes run
counterclockwise, Backward when all run clockwise, else Mixed; and it is the one of the shape. -/
theorem C62_direction_partial {la : Lapack} (hla : LapackOk la) {v : List ℂ} {N : ℕ} {pos L : List ℝ} {nd : ℕ}
    {norm : Bool} {s : Shape} (h : Shape.init la v (List.range N) pos L nd norm = .ok s) (hp : pos.length = N)
    (hN : 0 < N) (hk : ∀ o ∈ s.orbits, 1e-3 < |o.kappa|) :
    (ModalResults.whirl (ModalResults.kappa_mode s) = .forward ↔ AllNodes Counterclockwise nd N s.evec) ∧
    (ModalResults.whirl (ModalResults.kappa_mode s) = .backward ↔ AllNodes Clockwise nd N s.evec) ∧
    ModalResults.whirl (ModalResults.kappa_mode s) = s.whirl := by
  have e1 := allNodes_iff h hp (fun o => 0 < o.kappa) Counterclockwise
    fun n z ru rv => (C57_kappa hla n z ru rv).1
  have e2 := allNodes_iff h hp (fun o => o.kappa < 0) Clockwise
    fun n z ru rv => (C57_kappa hla n z ru rv).2.1
  have f1 : (∀ k ∈ ModalResults.kappa_mode s, k ≥ -1e-3) ↔ ∀ o ∈ s.orbits, 0 < o.kappa := by
    unfold ModalResults.kappa_mode
    rw [List.forall_mem_map]
    refine forall₂_congr fun o ho => ?_
    have := hk o ho
    rw [lt_abs] at this
    constructor
    · intro e
      rcases this with t | t <;> norm_num at e t ⊢ <;> linarith
    · intro e
      norm_num
      linarith
  have f2 : (∀ k ∈ ModalResults.kappa_mode s, k ≤ 1e-3) ↔ ∀ o ∈ s.orbits, o.kappa < 0 := by
    unfold ModalResults.kappa_mode
    rw [List.forall_mem_map]
    refine forall₂_congr fun o ho => ?_
    have := hk o ho
    rw [lt_abs] at this
    constructor
    · intro e
      rcases this with t | t <;> norm_num at e t ⊢ <;> linarith
    · intro e
      norm_num
      linarith
  have hex : ¬ ((∀ o ∈ s.orbits, 0 < o.kappa) ∧ ∀ o ∈ s.orbits, o.kappa < 0) := by
    rintro ⟨a, b⟩
    obtain ⟨-, ho⟩ := orbits_get h hp
    obtain ⟨ru, rv, z, -, -, -, hm⟩ := ho 0 hN
    have hm := List.mem_of_getElem? hm
    have := a _ hm
    have := b _ hm
    linarith
  have g1 : ModalResults.whirl (ModalResults.kappa_mode s) = .forward ↔ ∀ o ∈ s.orbits, 0 < o.kappa := by
    unfold ModalResults.whirl
    rw [if_congr f1 rfl (if_congr f2 rfl rfl)]
    split_ifs <;> simp_all
  have g2 : ModalResults.whirl (ModalResults.kappa_mode s) = .backward ↔ ∀ o ∈ s.orbits, o.kappa < 0 := by
    unfold ModalResults.whirl
    rw [if_congr f1 rfl (if_congr f2 rfl rfl)]
    split_ifs with a b
    · exact ⟨fun e => (by cases e), fun e => absurd ⟨a, e⟩ hex⟩
    · simp_all
    · simp_all
  refine ⟨g1.trans e1, g2.trans e2, ?_⟩
  obtain ⟨w1, w2, -⟩ := C62_whirl_partial hla h hp hN
  have w3 : s.whirl = .backward ↔ ∀ o ∈ s.orbits, o.kappa < 0 := by
    rw [w2, ← allNodes_iff h hp (fun o => ¬ 0 < o.kappa) (fun ru rv => ¬ Counterclockwise ru rv)
      fun n z ru rv => (C57_kappa hla n z ru rv).1.not]
    refine forall₂_congr fun o ho => ?_
    have := hk o ho
    constructor
    · intro e
      refine lt_of_le_of_ne (not_lt.1 e) fun e0 => ?_
      rw [e0, abs_zero] at this
      norm_num at this
    · exact fun e => not_lt.2 e.le
  have w4 : s.whirl = .forward ↔ ∀ o ∈ s.orbits, 0 < o.kappa := w1.trans e1.symm
  cases hm : ModalResults.whirl (ModalResults.kappa_mode s) with
  | forward => exact (w4.2 (g1.1 hm)).symm
  | backward => exact (w3.2 (g2.1 hm)).symm
  | mixed =>
    cases hs : s.whirl with
    | forward => rw [g1.2 (w4.1 hs)] at hm; cases hm
    | backward => rw [g2.2 (w3.1 hs)] at hm; cases hm
    | mixed => rfl

/-- C62 fails for thin orbits: a mode whose nodes all run clockwise, but on orbits whose minor axis is at
most a thousandth of the major axis, has the direction Forward; its shape is called Backward. -/
theorem C62_thin_false {la : Lapack} (hla : LapackOk la) {v : List ℂ} {N : ℕ} {pos L : List ℝ} {nd : ℕ}
    {norm : Bool} {s : Shape} (h : Shape.init la v (List.range N) pos L nd norm = .ok s) (hp : pos.length = N)
    (hN : 0 < N) (hk : ∀ o ∈ s.orbits, -1e-3 ≤ o.kappa ∧ o.kappa < 0) :
    AllNodes Clockwise nd N s.evec ∧ s.whirl = .backward ∧
    ModalResults.whirl_direction [s] = [.forward] ∧ ModalResults.whirl_values [s] = [0] := by
  have e2 := allNodes_iff h hp (fun o => o.kappa < 0) Clockwise
    fun n z ru rv => (C57_kappa hla n z ru rv).2.1
  have hc := e2.1 fun o ho => (hk o ho).2
  have hw : ModalResults.whirl (ModalResults.kappa_mode s) = .forward := by
    unfold ModalResults.whirl
    rw [if_pos]
    unfold ModalResults.kappa_mode
    rw [List.forall_mem_map]
    exact fun o ho => (hk o ho).1
  refine ⟨hc, (C62_whirl_partial hla h hp hN).2.2 hc, ?_, ?_⟩
  · simp [ModalResults.whirl_direction, hw]
  · simp [ModalResults.whirl_values, ModalResults.whirl_direction, hw, ModalResults.whirl_to_cmap]

/-- Non-vacuity: a thin orbit run clockwise. -/
example : ∃ la s, LapackOk la ∧
    Shape.init la [1, Complex.I / 2000, 0, 0] (List.range 1) [0] [] 4 true = .ok s ∧
    s.orbits ≠ [] ∧ ∀ o ∈ s.orbits, -1e-3 ≤ o.kappa ∧ o.kappa < 0 := by
  obtain ⟨la, hla⟩ := lapack_exists
  obtain ⟨s, hs⟩ := C61_accepts la (v := [1, Complex.I / 2000, 0, 0]) (N := 1) (pos := [0]) (L := []) (nd := 4)
    (Or.inl rfl) rfl rfl rfl true fun _ => ⟨0, 1, Or.inl rfl, rfl, one_ne_zero⟩
  refine ⟨la, s, hla, hs, ?_⟩
  obtain ⟨hl, ho⟩ := C62_orbits hs rfl
  obtain ⟨k, p, hk, hp, -, hmax, he⟩ := C60_normalized hs
  have hp1 : p = 1 := by
    have h1 := hmax 0 1 (Or.inl rfl) rfl
    obtain ⟨hlt, rfl⟩ := List.getElem?_eq_some_iff.1 hp
    simp at hlt
    unfold IsLateral at hk
    interval_cases k
    · rfl
    · exfalso
      norm_num at h1
    · omega
    · omega
  have he' : s.evec = [1, Complex.I / 2000, 0, 0] := by
    rw [he, hp1]
    simp
  obtain ⟨ru, rv, z, h1, h2, -, h3⟩ := ho 0 (by norm_num)
  rw [he'] at h1 h2
  obtain rfl : 1 = ru := Option.some.inj h1
  obtain rfl : Complex.I / 2000 = rv := Option.some.inj h2
  obtain ⟨o, hso⟩ := List.length_eq_one_iff.1 hl
  rw [hso] at h3 ⊢
  obtain rfl : o = _ := Option.some.inj h3
  refine ⟨by simp, fun o ho => ?_⟩
  rw [List.mem_singleton.1 ho, kappa_eq hla]
  have htn : turn 1 (Complex.I / 2000) = -(1 / 2000) := by
    have : Complex.I / 2000 = ((1 / 2000 : ℝ) : ℂ) * Complex.I := by
      push_cast
      ring
    rw [this]
    simp [turn]
  have hbg : big 1 (Complex.I / 2000) = 1 := by
    have e : Complex.I / 2000 = ((1 / 2000 : ℝ) : ℂ) * Complex.I := by
      push_cast
      ring
    have hsk : skew 1 (Complex.I / 2000) = ((1 - 1 / 2000 ^ 2 : ℝ) : ℂ) := by
      rw [e, skew, mul_pow, Complex.I_sq]
      push_cast
      ring
    have hpw : power 1 (Complex.I / 2000) = 1 + 1 / 2000 ^ 2 := by
      rw [e]
      simp [power]
    rw [big, hsk, hpw, Complex.norm_real, Real.norm_of_nonneg (by norm_num)]
    norm_num
  rw [htn, hbg]
  norm_num

/-- C62: the values of the directions. -/
theorem C62_values (l : List Shape) (i : ℕ) (s : Shape) (hs : l[i]? = some s) :
    (ModalResults.whirl_values l)[i]? = some
      (match (ModalResults.whirl_direction l)[i]? with
      | some .forward => 0
      | some .backward => 1
      | _ => 1 / 2) := by
  unfold ModalResults.whirl_values
  rw [List.getElem?_map]
  have : (ModalResults.whirl_direction l)[i]? = some (ModalResults.whirl (ModalResults.kappa_mode s)) := by
    unfold ModalResults.whirl_direction
    rw [List.getElem?_map, hs]
    rfl
  rw [this]
  cases ModalResults.whirl (ModalResults.kappa_mode s) <;> rfl

end Ross.Props
