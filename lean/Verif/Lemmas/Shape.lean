import Verif.Model.Shape
import Verif.Spec.Shape
import Verif.Lemmas.Orbit
import Verif.Lemmas.Bearing
import Verif.Lemmas.ListRes
import Verif.Lemmas.Accept
import Mathlib.Tactic.FieldSimp

/-!
# Shapes
-/

namespace Ross.ShapeLemmas

open Spec OrbitLemmas BearingLemmas Shape Polynomial

theorem ok_bind {α β : Type} (a : α) (f : α → Res β) : ((Except.ok a : Res α) >>= f) = f a := rfl

theorem mapM_get {α β : Type} {f : α → Res β} {l : List α} {r : List β} (h : l.mapM f = .ok r) (i : ℕ) :
    (l[i]?).map f = (r[i]?).map .ok := by
  have := congrArg (fun x => x[i]?) ((mapM_ok_iff f l r).1 h)
  simpa using this

theorem mapM_length {α β : Type} {f : α → Res β} {l : List α} {r : List β} (h : l.mapM f = .ok r) :
    l.length = r.length := by
  have := congrArg List.length ((mapM_ok_iff f l r).1 h)
  simpa using this

/-- What a built shape consists of. -/
theorem init_ok {la : Lapack} {v : List ℂ} {nodes : List ℕ} {pos L : List ℝ} {nd : ℕ} {norm : Bool} {s : Shape}
    (h : Shape.init la v nodes pos L nd norm = .ok s) :
    ∃ evec orbits l, drawn norm nd v = .ok evec ∧
      (nodes.zip pos).mapM (fun p => nodeOrbit la nd evec p.1 p.2) = .ok orbits ∧
      (L.zip nodes).mapM (fun p => piece nd nodes.length evec pos p.1 p.2) = .ok l ∧
      s = { vector := v, nodes := nodes, nodes_pos := pos
            shaft_elements_length := L, normalize := norm, number_dof := nd
            evec := evec, mode_type := classify nd v
            orbits := orbits, whirl := whirlOf (orbits.map Orbit.whirl)
            xn := filled l fun p k => (p.amp k).1.re
            yn := filled l fun p k => (p.amp k).2.re
            zn := filled l fun p k => p.pos + p.L * zeta k
            major_axis := filled l fun p k => (Orbit.init la 0 0 (p.amp k).1 (p.amp k).2).major_axis
            major_x := filled l fun p k => (Orbit.init la 0 0 (p.amp k).1 (p.amp k).2).major_x
            major_y := filled l fun p k => (Orbit.init la 0 0 (p.amp k).1 (p.amp k).2).major_y
            major_angle := filled l fun p k => (Orbit.init la 0 0 (p.amp k).1 (p.amp k).2).major_angle } := by
  unfold Shape.init at h
  rw [bind_ok] at h
  obtain ⟨evec, h1, h⟩ := h
  rw [bind_ok] at h
  obtain ⟨orbits, h2, h⟩ := h
  rw [bind_ok] at h
  obtain ⟨l, h3, h⟩ := h
  exact ⟨evec, orbits, l, h1, h2, h3, (Except.ok.inj h).symm⟩

/-! ### Normalization -/

theorem mem_every {n i : ℕ} {v : List ℂ} {z : ℂ} :
    z ∈ every n i v ↔ ∃ k, i ≤ k ∧ (k - i) % n = 0 ∧ v[k]? = some z := by
  unfold every
  constructor
  · intro h
    obtain ⟨⟨w, k⟩, hp, rfl⟩ := List.mem_map.1 h
    obtain ⟨h1, h2⟩ := List.mem_filter.1 hp
    have h2 := of_decide_eq_true h2
    exact ⟨k, h2.1, h2.2, List.mem_zipIdx_iff_getElem?.1 h1⟩
  · rintro ⟨k, h1, h2, h3⟩
    exact List.mem_map.2 ⟨(z, k), List.mem_filter.2 ⟨List.mem_zipIdx_iff_getElem?.2 h3,
      decide_eq_true ⟨h1, h2⟩⟩, rfl⟩

theorem getD_lt {v : List ℂ} {i : ℕ} (h : i < v.length) : v.getD i 0 = v[i] := by
  rw [List.getD_eq_getElem?_getD, List.getElem?_eq_getElem h]
  rfl

theorem largest_ok {v : List ℂ} {z : ℂ} (h : largest v = .ok z) : z ∈ v ∧ ∀ w ∈ v, ‖w‖ ≤ ‖z‖ := by
  unfold largest at h
  split_ifs at h with hv
  have h := Except.ok.inj h
  have hl : 0 < v.length := List.length_pos_iff.2 hv
  obtain ⟨h1, h2, -⟩ := argmax_of_pos (fun i => ‖v.getD i 0‖) v.length hl
  rw [getD_lt h1] at h
  subst h
  refine ⟨List.getElem_mem h1, fun w hw => ?_⟩
  obtain ⟨i, hi, rfl⟩ := List.getElem_of_mem hw
  have := h2 i hi
  rwa [getD_lt hi, getD_lt h1] at this

theorem argmax_congr {f g : ℕ → ℝ} {n : ℕ} (hn : 0 < n) (h : ∀ i j, f i ≤ f j ↔ g i ≤ g j) :
    argmax f n = argmax g n := by
  obtain ⟨p1, p2, p3⟩ := argmax_of_pos f n hn
  obtain ⟨q1, q2, q3⟩ := argmax_of_pos g n hn
  rcases lt_trichotomy (argmax f n) (argmax g n) with e | e | e
  · exact absurd ((h _ _).1 (p2 _ q1)) (not_le.2 (q3 _ e))
  · exact e
  · exact absurd ((h _ _).2 (q2 _ p1)) (not_le.2 (p3 _ e))

theorem largest_scale {c : ℂ} (hc : c ≠ 0) (v : List ℂ) :
    largest (v.map (c * ·)) = (largest v).map (c * ·) := by
  unfold largest
  by_cases hv : v = []
  · subst hv
    rfl
  · rw [if_neg hv, if_neg (by simpa using hv)]
    have hl : 0 < v.length := List.length_pos_iff.2 hv
    have hg : ∀ i, (v.map (c * ·)).getD i 0 = c * v.getD i 0 := by
      intro i
      rw [List.getD_eq_getElem?_getD, List.getD_eq_getElem?_getD, List.getElem?_map]
      cases v[i]? <;> simp
    have he : argmax (fun i => ‖(v.map (c * ·)).getD i 0‖) (v.map (c * ·)).length =
        argmax (fun i => ‖v.getD i 0‖) v.length := by
      rw [List.length_map]
      apply argmax_congr hl
      intro i j
      rw [hg, hg, norm_mul, norm_mul]
      exact mul_le_mul_iff_right₀ (norm_pos_iff.2 hc)
    rw [he, hg]
    rfl

theorem every_map {n i : ℕ} {v : List ℂ} (f : ℂ → ℂ) : every n i (v.map f) = (every n i v).map f := by
  unfold every
  rw [List.zipIdx_map, List.filter_map, List.map_map, List.map_map]
  rfl

theorem normalized_scale {c : ℂ} (hc : c ≠ 0) (nd : ℕ) (v : List ℂ) :
    normalized nd (v.map (c * ·)) = normalized nd v := by
  unfold normalized
  rw [every_map, every_map, largest_scale hc, largest_scale hc]
  split_ifs
  · rfl
  · cases hx : largest (every nd 0 v) with
    | error e => rfl
    | ok x =>
      cases hy : largest (every nd 1 v) with
      | error e => rfl
      | ok y =>
        have hlt : ‖c * x‖ < ‖c * y‖ ↔ ‖x‖ < ‖y‖ := by
          rw [norm_mul, norm_mul]
          exact mul_lt_mul_iff_right₀ (norm_pos_iff.2 hc)
        have hp : (if ‖c * x‖ < ‖c * y‖ then c * y else c * x) = c * (if ‖x‖ < ‖y‖ then y else x) := by
          simp only [hlt]
          split_ifs <;> rfl
        show (if (if ‖c * x‖ < ‖c * y‖ then c * y else c * x) = 0 then _ else _) =
          (if (if ‖x‖ < ‖y‖ then y else x) = 0 then _ else _)
        rw [hp]
        by_cases h0 : (if ‖x‖ < ‖y‖ then y else x) = 0
        · rw [if_pos h0, if_pos (by rw [h0, mul_zero])]
        · rw [if_neg h0, if_neg (mul_ne_zero hc h0), List.map_map]
          congr 2
          funext z
          exact mul_div_mul_left _ _ hc

theorem mem_lateral {nd k i : ℕ} (hi : i ≤ k) (h : (k - i) % nd = 0) (hi2 : i = 0 ∨ i = 1) : IsLateral nd k := by
  unfold IsLateral
  rcases hi2 with rfl | rfl
  · left
    simpa using h
  · obtain ⟨m, hm⟩ := Nat.dvd_of_mod_eq_zero h
    have hk : k = nd * m + 1 := by omega
    subst hk
    rcases Nat.lt_or_ge 1 nd with h1 | h1
    · right
      rw [Nat.mul_add_mod, Nat.mod_eq_of_lt h1]
    · rcases Nat.eq_or_lt_of_le h1 with rfl | h1
      · left
        exact Nat.mod_one _
      · have : nd = 0 := by omega
        subst this
        simp

theorem lateral_mem {nd k : ℕ} (h : IsLateral nd k) : k % nd = 0 ∨ 1 ≤ k ∧ (k - 1) % nd = 0 := by
  rcases h with h | h
  · exact Or.inl h
  · right
    have h1 : 1 ≤ k := by
      rcases Nat.eq_zero_or_pos k with rfl | h'
      · simp at h
      · exact h'
    refine ⟨h1, ?_⟩
    have := Nat.div_add_mod k nd
    rw [h] at this
    have e : k - 1 = nd * (k / nd) := by omega
    rw [e, Nat.mul_mod_right]

theorem normalized_ok {nd : ℕ} {v e : List ℂ} (h : normalized nd v = .ok e) :
    ∃ k p, IsLateral nd k ∧ v[k]? = some p ∧ p ≠ 0 ∧
      (∀ j q, IsLateral nd j → v[j]? = some q → ‖q‖ ≤ ‖p‖) ∧ e = v.map (· / p) := by
  unfold normalized at h
  split_ifs at h with h0
  rw [bind_ok] at h
  obtain ⟨x, hx, h⟩ := h
  rw [bind_ok] at h
  obtain ⟨y, hy, h⟩ := h
  obtain ⟨x1, x2⟩ := largest_ok hx
  obtain ⟨y1, y2⟩ := largest_ok hy
  simp only at h
  split_ifs at h with hp h1 h1
  · have h := Except.ok.inj h
    obtain ⟨k, k1, k2, k3⟩ := mem_every.1 y1
    refine ⟨k, y, mem_lateral k1 k2 (Or.inr rfl), k3, h1, fun j q hj hq => ?_, h.symm⟩
    rcases lateral_mem hj with hj | hj
    · exact (x2 q (mem_every.2 ⟨j, Nat.zero_le _, by simpa using hj, hq⟩)).trans hp.le
    · exact y2 q (mem_every.2 ⟨j, hj.1, hj.2, hq⟩)
  · have h := Except.ok.inj h
    obtain ⟨k, k1, k2, k3⟩ := mem_every.1 x1
    refine ⟨k, x, mem_lateral k1 k2 (Or.inl rfl), k3, h1, fun j q hj hq => ?_, h.symm⟩
    rcases lateral_mem hj with hj | hj
    · exact x2 q (mem_every.2 ⟨j, Nat.zero_le _, by simpa using hj, hq⟩)
    · exact (y2 q (mem_every.2 ⟨j, hj.1, hj.2, hq⟩)).trans (not_lt.1 hp)

theorem normalized_zero {nd : ℕ} {v : List ℂ} (h : ∀ k z, IsLateral nd k → v[k]? = some z → z = 0) :
    normalized nd v = .error .valueError := by
  cases hn : normalized nd v with
  | ok e =>
    obtain ⟨k, p, h1, h2, h3, -⟩ := normalized_ok hn
    exact absurd (h k p h1 h2) h3
  | error e =>
    have hl : ∀ (l : List ℂ) e, largest l = .error e → e = .valueError := by
      intro l e h
      unfold largest at h
      split_ifs at h
      exact (Except.error.inj h).symm
    unfold normalized at hn
    split_ifs at hn
    · exact hn.symm ▸ rfl
    · rw [bind_error] at hn
      rcases hn with hn | ⟨x, -, hn⟩
      · rw [hl _ _ hn]
      · rw [bind_error] at hn
        rcases hn with hn | ⟨y, -, hn⟩
        · rw [hl _ _ hn]
        · simp only at hn
          split_ifs at hn <;> exact hn.symm ▸ rfl

/-! ### Rounding -/

theorem nonzero_iff {v : List ℂ} {k : ℕ} : k ∈ nonzeroDofs v ↔ ∃ z, v[k]? = some z ∧ rint (‖z‖ * 10 ^ 6) ≠ 0 := by
  unfold nonzeroDofs
  constructor
  · intro h
    obtain ⟨⟨z, j⟩, hp, rfl⟩ := List.mem_map.1 h
    obtain ⟨h1, h2⟩ := List.mem_filter.1 hp
    exact ⟨z, List.mem_zipIdx_iff_getElem?.1 h1, of_decide_eq_true h2⟩
  · rintro ⟨z, h1, h2⟩
    exact List.mem_map.2 ⟨(z, k), List.mem_filter.2 ⟨List.mem_zipIdx_iff_getElem?.2 h1, decide_eq_true h2⟩, rfl⟩

theorem rint_zero {x : ℝ} (h : 0 ≤ x) : rint x = 0 ↔ x ≤ 1 / 2 := by
  have f1 := Int.floor_le x
  have f2 := Int.lt_floor_add_one x
  have f0 : 0 ≤ ⌊x⌋ := Int.floor_nonneg.2 h
  unfold rint
  split_ifs with h1 h2 h3
  · constructor
    · intro e
      rw [e] at h1
      push_cast at h1
      linarith
    · intro e
      have : ⌊x⌋ < 1 := by
        rw [Int.floor_lt]
        push_cast
        linarith
      omega
  · constructor
    · intro e
      omega
    · intro e
      have : (0 : ℝ) ≤ ⌊x⌋ := by exact_mod_cast f0
      linarith
  · constructor
    · intro e
      rw [e] at h1 h2
      push_cast at h1 h2
      linarith
    · intro e
      have : ⌊x⌋ < 1 := by
        rw [Int.floor_lt]
        push_cast
        linarith
      omega
  · constructor
    · intro e
      omega
    · intro e
      have : ⌊x⌋ < 1 := by
        rw [Int.floor_lt]
        push_cast
        linarith
      have : ⌊x⌋ = 0 := by omega
      rw [this] at h3
      exact absurd (by decide) h3

theorem round_zero (z : ℂ) : rint (‖z‖ * 10 ^ 6) = 0 ↔ ‖z‖ ≤ 5e-7 := by
  rw [rint_zero (by positivity)]
  constructor <;> intro h <;> norm_num at h ⊢ <;> linarith

/-! ### Interpolation -/

theorem filled_at {l : List Piece} (hn : ∀ (j : ℕ) (p : Piece), l[j]? = some p → p.n = j) {n k : ℕ} {p : Piece}
    (hp : l[n]? = some p) (hk : k < 5) (f : Piece → ℕ → ℝ) : filled l f (5 * n + k) = f p k := by
  have e1 : (5 * n + k) / 5 = n := by omega
  have e2 : (5 * n + k) % 5 = k := by omega
  unfold filled
  rw [e1, e2]
  cases hf : l.reverse.find? (fun p => decide (p.n = n)) with
  | none =>
    have := List.find?_eq_none.1 hf p (List.mem_reverse.2 (List.mem_of_getElem? hp))
    exact absurd (decide_eq_true (p := p.n = n) (hn n p hp)) this
  | some q =>
    have h1 : q.n = n := by simpa using List.find?_some hf
    obtain ⟨j, hj⟩ := List.getElem?_of_mem (List.mem_reverse.1 (List.mem_of_find?_eq_some hf))
    have h2 := hn j q hj
    rw [h1] at h2
    subst h2
    rw [hp] at hj
    rw [Option.some.inj hj]

theorem piece_ok {nd len : ℕ} {evec : List ℂ} {pos : List ℝ} {Le : ℝ} {n : ℕ} {p : Piece}
    (h : piece nd len evec pos Le n = .ok p) :
    p.n = n ∧ p.L = Le ∧ pos[n]? = some p.pos ∧
    pick4 evec (nd * n) (nd * n + nd / 2 + 1) (nd * n + nd) (nd * n + 3 * nd / 2 + 1) = .ok p.x ∧
    pick4 evec (nd * n + 1) (nd * n + nd / 2) (nd * n + nd + 1) (nd * n + 3 * nd / 2) = .ok p.y := by
  unfold piece at h
  cases hp : pos[n]? with
  | none =>
    simp [hp] at h
  | some a =>
    rw [hp] at h
    simp only at h
    rw [bind_ok] at h
    obtain ⟨x, hx, h⟩ := h
    rw [bind_ok] at h
    obtain ⟨y, hy, h⟩ := h
    split_ifs at h
    obtain rfl := Except.ok.inj h
    exact ⟨rfl, rfl, rfl, hx, hy⟩

theorem pick4_ok {evec : List ℂ} {i j k l : ℕ} {v : Fin 4 → ℂ} (h : pick4 evec i j k l = .ok v) :
    evec[i]? = some (v 0) ∧ evec[j]? = some (v 1) ∧ evec[k]? = some (v 2) ∧ evec[l]? = some (v 3) := by
  unfold pick4 at h
  cases hi : evec[i]? with
  | none => simp [hi] at h
  | some a =>
    cases hj : evec[j]? with
    | none => simp [hi, hj] at h
    | some b =>
      cases hk : evec[k]? with
      | none => simp [hi, hj, hk] at h
      | some c =>
        cases hl : evec[l]? with
        | none => simp [hi, hj, hk, hl] at h
        | some d =>
          rw [hi, hj, hk, hl] at h
          obtain rfl := Except.ok.inj h
          exact ⟨rfl, rfl, rfl, rfl⟩

/-- The points of the element after node `n`. -/
theorem points {la : Lapack} {v : List ℂ} {N : ℕ} {pos L : List ℝ} {nd : ℕ} {norm : Bool} {s : Shape}
    (h : Shape.init la v (List.range N) pos L nd norm = .ok s) (hL : L.length + 1 = N) (n : ℕ)
    (hn : n + 1 < N) :
    ∃ p : Piece, pos[n]? = some p.pos ∧ L[n]? = some p.L ∧
      pick4 s.evec (nd * n) (nd * n + nd / 2 + 1) (nd * n + nd) (nd * n + 3 * nd / 2 + 1) = .ok p.x ∧
      pick4 s.evec (nd * n + 1) (nd * n + nd / 2) (nd * n + nd + 1) (nd * n + 3 * nd / 2) = .ok p.y ∧
      ∀ k, k < 5 →
        s.xn (5 * n + k) = (p.amp k).1.re ∧ s.yn (5 * n + k) = (p.amp k).2.re ∧
        s.zn (5 * n + k) = p.pos + p.L * zeta k ∧
        s.major_axis (5 * n + k) = (Orbit.init la 0 0 (p.amp k).1 (p.amp k).2).major_axis ∧
        s.major_x (5 * n + k) = (Orbit.init la 0 0 (p.amp k).1 (p.amp k).2).major_x ∧
        s.major_y (5 * n + k) = (Orbit.init la 0 0 (p.amp k).1 (p.amp k).2).major_y ∧
        s.major_angle (5 * n + k) = (Orbit.init la 0 0 (p.amp k).1 (p.amp k).2).major_angle := by
  obtain ⟨evec, orbits, l, -, -, h3, rfl⟩ := init_ok h
  have hz : ∀ (j : ℕ) (a : ℝ) (m : ℕ), (L.zip (List.range N))[j]? = some (a, m) → m = j ∧ L[j]? = some a := by
    intro j a m hj
    rw [List.getElem?_zip_eq_some] at hj
    obtain ⟨hl, hm⟩ := hj
    obtain ⟨_, hm⟩ := List.getElem?_eq_some_iff.1 hm
    exact ⟨by simpa using hm.symm, hl⟩
  have hl : ∀ (j : ℕ) (p : Piece), l[j]? = some p → piece nd N evec pos p.L j = .ok p ∧ L[j]? = some p.L ∧ p.n = j := by
    intro j p hp
    have hg := mapM_get h3 j
    rw [hp] at hg
    cases hzj : (L.zip (List.range N))[j]? with
    | none => rw [hzj] at hg; simp at hg
    | some q =>
      obtain ⟨a, m⟩ := q
      rw [hzj] at hg
      obtain ⟨rfl, ha⟩ := hz j a m hzj
      have hpc : piece nd (List.range N).length evec pos a m = .ok p := Option.some.inj hg
      rw [List.length_range] at hpc
      obtain ⟨e1, e2, -⟩ := piece_ok hpc
      rw [e2]
      exact ⟨hpc, ha, e1⟩
  have hlen : l.length = L.length := by
    have := mapM_length h3
    rw [List.length_zip, List.length_range] at this
    omega
  have hn' : n < l.length := by omega
  have hp : l[n]? = some l[n] := List.getElem?_eq_getElem hn'
  obtain ⟨a1, a2, -⟩ := hl n _ hp
  obtain ⟨-, -, b1, b2, b3⟩ := piece_ok a1
  have hnn : ∀ (j : ℕ) (p : Piece), l[j]? = some p → p.n = j := fun j p h => (hl j p h).2.2
  refine ⟨l[n], b1, a2, b2, b3, fun k hk => ?_⟩
  exact ⟨filled_at hnn hp hk fun p k => (p.amp k).1.re,
    filled_at hnn hp hk fun p k => (p.amp k).2.re,
    filled_at hnn hp hk fun p k => p.pos + p.L * zeta k,
    filled_at hnn hp hk fun p k => (Orbit.init la 0 0 (p.amp k).1 (p.amp k).2).major_axis,
    filled_at hnn hp hk fun p k => (Orbit.init la 0 0 (p.amp k).1 (p.amp k).2).major_x,
    filled_at hnn hp hk fun p k => (Orbit.init la 0 0 (p.amp k).1 (p.amp k).2).major_y,
    filled_at hnn hp hk fun p k => (Orbit.init la 0 0 (p.amp k).1 (p.amp k).2).major_angle⟩

/-- The interpolation is exact for polynomials of degree three. -/
theorem interp_cubic (X : ℂ[X]) (hX : X.natDegree ≤ 3) (a L ζ : ℝ) (v : Fin 4 → ℂ)
    (h0 : v 0 = X.eval (a : ℂ)) (h1 : v 1 = X.derivative.eval (a : ℂ))
    (h2 : v 2 = X.eval ((a + L : ℝ) : ℂ)) (h3 : v 3 = X.derivative.eval ((a + L : ℝ) : ℂ)) :
    interp L ζ v = X.eval ((a + L * ζ : ℝ) : ℂ) := by
  have hx : X = C (X.coeff 0) + C (X.coeff 1) * Polynomial.X + C (X.coeff 2) * Polynomial.X ^ 2 +
      C (X.coeff 3) * Polynomial.X ^ 3 := by
    conv_lhs => rw [X.as_sum_range_C_mul_X_pow' (by omega : X.natDegree < 4)]
    simp [Finset.sum_range_succ]
  generalize X.coeff 0 = c0 at hx
  generalize X.coeff 1 = c1 at hx
  generalize X.coeff 2 = c2 at hx
  generalize X.coeff 3 = c3 at hx
  subst hx
  unfold interp
  rw [h0, h1, h2, h3]
  simp only [derivative_add, derivative_mul, derivative_C, derivative_X, derivative_X_pow, eval_add, eval_mul,
    eval_C, eval_X, eval_pow, zero_mul, zero_add, mul_one, eval_natCast, map_natCast, eval_zero]
  push_cast
  simp
  ring

theorem interp_neg (L ζ : ℝ) (v : Fin 4 → ℂ) :
    interp (-L) ζ v = interp L ζ ![v 0, -v 1, v 2, -v 3] := by
  unfold interp
  simp

theorem interp_start (L : ℝ) (v : Fin 4 → ℂ) : interp L (zeta 0) v = v 0 := by
  simp [interp, zeta]

theorem interp_end (L : ℝ) (v : Fin 4 → ℂ) : interp L (zeta 4) v = v 2 := by
  simp [interp, zeta]
  ring

theorem amp_ends (p : Piece) : (p.amp 0).1 = p.x 0 ∧ (p.amp 0).2 = p.y 0 ∧ (p.amp 4).1 = p.x 2 ∧
    (p.amp 4).2 = p.y 2 :=
  ⟨interp_start _ _, interp_start _ _, interp_end _ _, interp_end _ _⟩

/-! ### Acceptance -/

theorem largest_some {v : List ℂ} (h : v ≠ []) : ∃ z, largest v = .ok z := by
  unfold largest
  rw [if_neg h]
  exact ⟨_, rfl⟩

theorem normalized_exists {nd : ℕ} (hnd : 2 ≤ nd) {v : List ℂ} (hv : 2 ≤ v.length)
    (h : ∃ (k : ℕ) (z : ℂ), IsLateral nd k ∧ v[k]? = some z ∧ z ≠ 0) :
    ∃ e, normalized nd v = .ok e ∧ e.length = v.length := by
  have h0 : every nd 0 v ≠ [] :=
    List.ne_nil_of_mem (mem_every.2 ⟨0, le_rfl, by simp, List.getElem?_eq_getElem (by omega : 0 < v.length)⟩)
  have h1 : every nd 1 v ≠ [] :=
    List.ne_nil_of_mem (mem_every.2 ⟨1, le_rfl, by simp, List.getElem?_eq_getElem (by omega : 1 < v.length)⟩)
  obtain ⟨x, hx⟩ := largest_some h0
  obtain ⟨y, hy⟩ := largest_some h1
  obtain ⟨-, x2⟩ := largest_ok hx
  obtain ⟨-, y2⟩ := largest_ok hy
  have hp : (if ‖x‖ < ‖y‖ then y else x) ≠ 0 := by
    obtain ⟨k, z, hk, hz, hz0⟩ := h
    have hpos := norm_pos_iff.2 hz0
    have hle : ‖z‖ ≤ ‖x‖ ∨ ‖z‖ ≤ ‖y‖ := by
      rcases lateral_mem hk with hk | hk
      · exact Or.inl (x2 z (mem_every.2 ⟨k, Nat.zero_le _, by simpa using hk, hz⟩))
      · exact Or.inr (y2 z (mem_every.2 ⟨k, hk.1, hk.2, hz⟩))
    split_ifs with hlt
    · exact norm_pos_iff.1 ((norm_nonneg x).trans_lt hlt)
    · rw [not_lt] at hlt
      apply norm_pos_iff.1
      rcases hle with hle | hle <;> linarith
  unfold normalized
  rw [if_neg (by omega), hx, ok_bind, hy, ok_bind]
  simp only
  rw [if_neg hp]
  exact ⟨_, rfl, by simp⟩

theorem pick4_of {e : List ℂ} {i j k l : ℕ} (hi : i < e.length) (hj : j < e.length) (hk : k < e.length)
    (hl : l < e.length) : ∃ v, pick4 e i j k l = .ok v := by
  unfold pick4
  rw [List.getElem?_eq_getElem hi, List.getElem?_eq_getElem hj, List.getElem?_eq_getElem hk,
    List.getElem?_eq_getElem hl]
  exact ⟨_, rfl⟩

theorem init_exists (la : Lapack) {v e : List ℂ} {N : ℕ} {pos L : List ℝ} {nd : ℕ} {norm : Bool}
    (hnd : nd = 4 ∨ nd = 6) (hp : pos.length = N) (hL : L.length + 1 = N)
    (he : drawn norm nd v = .ok e) (hl : nd * N ≤ e.length) :
    ∃ s, Shape.init la v (List.range N) pos L nd norm = .ok s := by
  obtain ⟨o, ho⟩ : ∃ o, ((List.range N).zip pos).mapM (fun p => nodeOrbit la nd e p.1 p.2) = .ok o := by
    apply RotorLemmas.mapM_ok_of
    rintro ⟨n, z⟩ hm
    have hn : n < N := by simpa using (List.of_mem_zip hm).1
    have hb : nd * n + nd ≤ nd * N := by
      rw [← Nat.mul_succ]
      exact Nat.mul_le_mul_left nd hn
    have a : nd * n < e.length := by rcases hnd with rfl | rfl <;> omega
    have b : nd * n + 1 < e.length := by rcases hnd with rfl | rfl <;> omega
    simp only [nodeOrbit]
    rw [List.getElem?_eq_getElem a, List.getElem?_eq_getElem b]
    exact ⟨_, rfl⟩
  obtain ⟨l, hl'⟩ : ∃ l, (L.zip (List.range N)).mapM
      (fun p => piece nd (List.range N).length e pos p.1 p.2) = .ok l := by
    apply RotorLemmas.mapM_ok_of
    rintro ⟨a, n⟩ hm
    obtain ⟨i, hi⟩ := List.getElem?_of_mem hm
    rw [List.getElem?_zip_eq_some] at hi
    obtain ⟨h1, h2⟩ := hi
    obtain ⟨hiL, -⟩ := List.getElem?_eq_some_iff.1 h1
    obtain ⟨hiN, h2⟩ := List.getElem?_eq_some_iff.1 h2
    have hin : i = n := by simpa using h2
    subst hin
    have hb : nd * i + 2 * nd ≤ nd * N := by
      have := Nat.mul_le_mul_left nd (by omega : i + 2 ≤ N)
      rw [Nat.mul_add] at this
      omega
    have hpi : i < pos.length := by omega
    obtain ⟨x, hx⟩ := pick4_of (e := e) (i := nd * i) (j := nd * i + nd / 2 + 1) (k := nd * i + nd)
      (l := nd * i + 3 * nd / 2 + 1) (by rcases hnd with rfl | rfl <;> omega)
      (by rcases hnd with rfl | rfl <;> omega) (by rcases hnd with rfl | rfl <;> omega)
      (by rcases hnd with rfl | rfl <;> omega)
    obtain ⟨y, hy⟩ := pick4_of (e := e) (i := nd * i + 1) (j := nd * i + nd / 2) (k := nd * i + nd + 1)
      (l := nd * i + 3 * nd / 2) (by rcases hnd with rfl | rfl <;> omega)
      (by rcases hnd with rfl | rfl <;> omega) (by rcases hnd with rfl | rfl <;> omega)
      (by rcases hnd with rfl | rfl <;> omega)
    simp only [piece]
    rw [List.getElem?_eq_getElem hpi, List.length_range]
    simp only
    rw [hx, ok_bind, hy, ok_bind, if_neg (by omega)]
    exact ⟨_, rfl⟩
  unfold Shape.init
  rw [he, ok_bind, ho, ok_bind, hl', ok_bind]
  exact ⟨_, rfl⟩

/-! ### Orbits -/

theorem nodeOrbit_ok {la : Lapack} {nd : ℕ} {evec : List ℂ} {n : ℕ} {z : ℝ} {o : Orbit}
    (h : nodeOrbit la nd evec n z = .ok o) :
    ∃ ru rv, evec[nd * n]? = some ru ∧ evec[nd * n + 1]? = some rv ∧ o = Orbit.init la n z ru rv := by
  unfold nodeOrbit at h
  cases h1 : evec[nd * n]? with
  | none => simp [h1] at h
  | some ru =>
    cases h2 : evec[nd * n + 1]? with
    | none => simp [h1, h2] at h
    | some rv =>
      rw [h1, h2] at h
      exact ⟨ru, rv, rfl, rfl, (Except.ok.inj h).symm⟩

theorem orbits_get {la : Lapack} {v : List ℂ} {N : ℕ} {pos L : List ℝ} {nd : ℕ} {norm : Bool} {s : Shape}
    (h : Shape.init la v (List.range N) pos L nd norm = .ok s) (hp : pos.length = N) :
    s.orbits.length = N ∧ ∀ n, n < N → ∃ ru rv z, s.evec[nd * n]? = some ru ∧ s.evec[nd * n + 1]? = some rv ∧
      pos[n]? = some z ∧ s.orbits[n]? = some (Orbit.init la n z ru rv) := by
  obtain ⟨evec, orbits, l, -, h2, -, rfl⟩ := init_ok h
  have hl := mapM_length h2
  rw [List.length_zip, List.length_range, hp, Nat.min_self] at hl
  refine ⟨hl.symm, fun n hn => ?_⟩
  have hg := mapM_get h2 n
  have hz : ((List.range N).zip pos)[n]? = some (n, pos[n]'(by omega)) := by
    rw [List.getElem?_zip_eq_some]
    exact ⟨by simp [hn], List.getElem?_eq_getElem _⟩
  have ho : orbits[n]? = some (orbits[n]'(by omega)) := List.getElem?_eq_getElem _
  rw [hz, ho] at hg
  obtain ⟨ru, rv, e1, e2, e3⟩ := nodeOrbit_ok (Option.some.inj hg)
  exact ⟨ru, rv, _, e1, e2, List.getElem?_eq_getElem _, by rw [← e3]; exact ho⟩

theorem allNodes_iff {la : Lapack} {v : List ℂ} {N : ℕ} {pos L : List ℝ} {nd : ℕ} {norm : Bool} {s : Shape}
    (h : Shape.init la v (List.range N) pos L nd norm = .ok s) (hp : pos.length = N)
    (Q : Orbit → Prop) (P : ℂ → ℂ → Prop) (hPQ : ∀ n z ru rv, Q (Orbit.init la n z ru rv) ↔ P ru rv) :
    (∀ o ∈ s.orbits, Q o) ↔ AllNodes P nd N s.evec := by
  obtain ⟨hl, ho⟩ := orbits_get h hp
  constructor
  · intro H n ru rv hn hu hv
    obtain ⟨a, b, z, h1, h2, -, h3⟩ := ho n hn
    rw [hu] at h1
    rw [hv] at h2
    obtain rfl := Option.some.inj h1
    obtain rfl := Option.some.inj h2
    exact (hPQ _ _ _ _).1 (H _ (List.mem_of_getElem? h3))
  · intro H o hm
    obtain ⟨n, hn⟩ := List.getElem?_of_mem hm
    have hlt : n < N := by
      rw [← hl]
      exact (List.getElem?_eq_some_iff.1 hn).1
    obtain ⟨a, b, z, h1, h2, -, h3⟩ := ho n hlt
    rw [hn] at h3
    rw [Option.some.inj h3]
    exact (hPQ _ _ _ _).2 (H n a b hlt h1 h2)

theorem shape_whirl {la : Lapack} {v : List ℂ} {N : ℕ} {pos L : List ℝ} {nd : ℕ} {norm : Bool} {s : Shape}
    (h : Shape.init la v (List.range N) pos L nd norm = .ok s) (_hp : pos.length = N) :
    (s.whirl = .forward ↔ ∀ o ∈ s.orbits, o.whirl = .forward) ∧
    (s.whirl = .backward ↔ (¬ ∀ o ∈ s.orbits, o.whirl = .forward) ∧ ∀ o ∈ s.orbits, o.whirl = .backward) ∧
    (s.whirl = .mixed ↔ (¬ ∀ o ∈ s.orbits, o.whirl = .forward) ∧ ¬ ∀ o ∈ s.orbits, o.whirl = .backward) := by
  obtain ⟨evec, orbits, l, -, h2, -, rfl⟩ := init_ok h
  simp only [whirlOf, List.forall_mem_map]
  split_ifs with a b
  · exact ⟨⟨fun _ => a, fun _ => rfl⟩, ⟨fun e => (by cases e), fun e => absurd a e.1⟩,
      ⟨fun e => (by cases e), fun e => absurd a e.1⟩⟩
  · exact ⟨⟨fun e => (by cases e), fun e => absurd e a⟩, ⟨fun _ => ⟨a, b⟩, fun _ => rfl⟩,
      ⟨fun e => (by cases e), fun e => absurd b e.2⟩⟩
  · exact ⟨⟨fun e => (by cases e), fun e => absurd e a⟩, ⟨fun e => (by cases e), fun e => absurd e.2 b⟩,
      ⟨fun _ => ⟨a, b⟩, fun _ => rfl⟩⟩

end Ross.ShapeLemmas
