import Mathlib.Algebra.BigOperators.Ring.Finset
import Mathlib.Tactic.Ring
import Verif.Model.FluidFlow

/-!
# What the loops of `mounting_matrix` write
-/

namespace Ross.FluidLemmas

open Fluid Fluid.FluidFlow Function

/-- A loop that writes the rows from `count` on, one after the other. -/
theorem fold_rows {step : Loop → ℕ → Loop} {g : ℕ → ℕ → (ℕ → ℝ) → ℕ → ℝ} {u : ℕ → ℕ → ℝ → ℝ}
    (hstep : ∀ s i, step s i = ⟨update s.M s.count (g i s.count (s.M s.count)),
      update s.f s.count (u i s.count (s.f s.count)), s.count + 1⟩) (a len : ℕ) (s : Loop) :
    ((List.range' a len).foldl step s).count = s.count + len ∧
    (∀ t < len, ((List.range' a len).foldl step s).M (s.count + t) = g (a + t) (s.count + t) (s.M (s.count + t)) ∧
      ((List.range' a len).foldl step s).f (s.count + t) = u (a + t) (s.count + t) (s.f (s.count + t))) ∧
    ∀ k, k < s.count ∨ s.count + len ≤ k → ((List.range' a len).foldl step s).M k = s.M k ∧
      ((List.range' a len).foldl step s).f k = s.f k := by
  induction len with
  | zero => exact ⟨rfl, fun t ht => absurd ht (by omega), fun k _ => ⟨rfl, rfl⟩⟩
  | succ len ih =>
    obtain ⟨h1, h2, h3⟩ := ih
    rw [List.range'_concat, List.foldl_append]
    simp only [List.foldl_cons, List.foldl_nil, hstep, h1, one_mul]
    have hlast := h3 (s.count + len) (.inr le_rfl)
    refine ⟨by omega, fun t ht => ?_, fun k hk => ?_⟩
    · by_cases htl : t = len
      · subst htl
        rw [update_self, update_self, hlast.1, hlast.2]
        exact ⟨rfl, rfl⟩
      · rw [update_of_ne (by omega), update_of_ne (by omega)]
        exact h2 t (by omega)
    · rw [update_of_ne (by omega), update_of_ne (by omega)]
      exact h3 k (by omega)

/-- A loop over columns of such loops, in which two rows are left out after each column. -/
theorem fold_blocks {step : ℕ → Loop → ℕ → Loop} {g : ℕ → ℕ → ℕ → (ℕ → ℝ) → ℕ → ℝ} {u : ℕ → ℕ → ℕ → ℝ → ℝ}
    (hstep : ∀ j s i, step j s i = ⟨update s.M s.count (g j i s.count (s.M s.count)),
      update s.f s.count (u j i s.count (s.f s.count)), s.count + 1⟩) (a len b L : ℕ) (s : Loop) (s' : Loop)
    (hs' : s' = (List.range' b L).foldl
      (fun s j => ((List.range' a len).foldl (step j) s).setCount (((List.range' a len).foldl (step j) s).count + 2)) s) :
    s'.count = s.count + L * (len + 2) ∧
    (∀ x < L, ∀ t < len,
      s'.M (s.count + x * (len + 2) + t) =
        g (b + x) (a + t) (s.count + x * (len + 2) + t) (s.M (s.count + x * (len + 2) + t)) ∧
      s'.f (s.count + x * (len + 2) + t) =
        u (b + x) (a + t) (s.count + x * (len + 2) + t) (s.f (s.count + x * (len + 2) + t))) ∧
    ∀ k, (∀ x < L, ∀ t < len, k ≠ s.count + x * (len + 2) + t) → s'.M k = s.M k ∧ s'.f k = s.f k := by
  induction L generalizing s' with
  | zero => subst hs'; exact ⟨by simp, fun x hx => absurd hx (by omega), fun k _ => ⟨rfl, rfl⟩⟩
  | succ L ih =>
    obtain ⟨h1, h2, h3⟩ := ih _ rfl
    rw [List.range'_concat, List.foldl_append] at hs'
    simp only [List.foldl_cons, List.foldl_nil, one_mul] at hs'
    set p := (List.range' b L).foldl
      (fun s j => ((List.range' a len).foldl (step j) s).setCount (((List.range' a len).foldl (step j) s).count + 2)) s
      with hp
    obtain ⟨e1, e2, e3⟩ := fold_rows (hstep (b + L)) a len p
    have hM : s'.M = ((List.range' a len).foldl (step (b + L)) p).M := by rw [hs']; rfl
    have hf : s'.f = ((List.range' a len).foldl (step (b + L)) p).f := by rw [hs']; rfl
    have hc : s'.count = p.count + len + 2 := by rw [hs', ← e1]; rfl
    have hL : (L + 1) * (len + 2) = L * (len + 2) + len + 2 := by ring
    refine ⟨by rw [hc, h1, hL]; ring, fun x hx t ht => ?_, fun k hk => ?_⟩
    · by_cases hxl : x = L
      · subst hxl
        have hd : ∀ y < x, ∀ t' < len, s.count + x * (len + 2) + t ≠ s.count + y * (len + 2) + t' := by
          intro y hy t' ht'
          have : (y + 1) * (len + 2) ≤ x * (len + 2) := Nat.mul_le_mul_right _ hy
          have : (y + 1) * (len + 2) = y * (len + 2) + len + 2 := by ring
          omega
        have o := h3 _ hd
        have := e2 t ht
        rw [h1] at this
        rw [hM, hf, this.1, this.2, o.1, o.2]
        exact ⟨rfl, rfl⟩
      · have hlt : x < L := by omega
        have : (x + 1) * (len + 2) ≤ L * (len + 2) := Nat.mul_le_mul_right _ hlt
        have : (x + 1) * (len + 2) = x * (len + 2) + len + 2 := by ring
        have o := e3 (s.count + x * (len + 2) + t) (.inl (by omega))
        have q := h2 x hlt t ht
        rw [hM, hf, o.1, o.2]
        exact q
    · have h4 : k < p.count ∨ p.count + len ≤ k := by
        by_contra hcon
        push Not at hcon
        exact hk L (by omega) (k - p.count) (by omega) (by omega)
      have o := e3 k h4
      have q := h3 k (fun x hx t ht => hk x (by omega) t ht)
      rw [hM, hf, o.1, o.2]
      exact q

/-! ### The five loops -/

/-- A row with the entry 1 in its diagonal. -/
theorem boundary_fold (F : FluidFlow) (hn : 2 ≤ F.nz) (T : ℕ) (s : Loop) (hs : s.count = 0) (s' : Loop)
    (hs' : s' = (List.range T).foldl (fun s _ => F.boundary_step s) s) :
    s'.count = T * F.nz ∧
    (∀ j < T, s'.M (j * F.nz) = update (s.M (j * F.nz)) (j * F.nz) 1 ∧ s'.f (j * F.nz) = F.p_in ∧
      s'.M (j * F.nz + F.nz - 1) = update (s.M (j * F.nz + F.nz - 1)) (j * F.nz + F.nz - 1) 1 ∧
      s'.f (j * F.nz + F.nz - 1) = F.p_out) ∧
    ∀ k, (∀ j < T, k ≠ j * F.nz ∧ k ≠ j * F.nz + F.nz - 1) → s'.M k = s.M k ∧ s'.f k = s.f k := by
  induction T generalizing s' with
  | zero => subst hs'; exact ⟨by simp [hs], fun x hx => absurd hx (by omega), fun k _ => ⟨rfl, rfl⟩⟩
  | succ T ih =>
    obtain ⟨h1, h2, h3⟩ := ih _ rfl
    rw [List.range_succ, List.foldl_append] at hs'
    simp only [List.foldl_cons, List.foldl_nil] at hs'
    set p := (List.range T).foldl (fun s _ => F.boundary_step s) s with hp
    have hM : s'.M = update (update p.M p.count (update (p.M p.count) p.count 1)) (p.count + F.nz - 1)
        (update (p.M (p.count + F.nz - 1)) (p.count + F.nz - 1) 1) := by
      rw [hs']
      simp only [boundary_step, Loop.setM, Loop.setF, Loop.setCount]
      rw [update_of_ne (by omega : p.count + F.nz - 1 ≠ p.count)]
    have hf : s'.f = update (update p.f p.count F.p_in) (p.count + F.nz - 1) F.p_out := by rw [hs']; rfl
    have hc : s'.count = p.count + F.nz - 1 + 1 := by rw [hs']; rfl
    have hT : (T + 1) * F.nz = T * F.nz + F.nz := by ring
    have hfar : ∀ j < T, j * F.nz + F.nz ≤ T * F.nz := by
      intro j hj
      have : (j + 1) * F.nz ≤ T * F.nz := Nat.mul_le_mul_right _ hj
      have : (j + 1) * F.nz = j * F.nz + F.nz := by ring
      omega
    rw [h1] at hM hf hc
    refine ⟨by omega, fun j hj => ?_, fun k hk => ?_⟩
    · by_cases hjT : j = T
      · subst hjT
        have o1 := h3 (j * F.nz) (fun y hy => by have := hfar y hy; omega)
        have o2 := h3 (j * F.nz + F.nz - 1) (fun y hy => by have := hfar y hy; omega)
        rw [hM, hf]
        rw [update_of_ne (by omega : j * F.nz ≠ j * F.nz + F.nz - 1), update_self,
          update_of_ne (by omega : j * F.nz ≠ j * F.nz + F.nz - 1), update_self, update_self, update_self, o1.1, o2.1]
        exact ⟨rfl, rfl, rfl, rfl⟩
      · have := hfar j (by omega)
        have q := h2 j (by omega)
        rw [hM, hf, update_of_ne (by omega), update_of_ne (by omega), update_of_ne (by omega),
          update_of_ne (by omega), update_of_ne (by omega), update_of_ne (by omega), update_of_ne (by omega),
          update_of_ne (by omega)]
        exact q
    · have := hk T (by omega)
      rw [hM, hf, update_of_ne this.2, update_of_ne this.1, update_of_ne this.2, update_of_ne this.1]
      exact h3 k fun j hj => hk j (by omega)

theorem periodic_fold (F : FluidFlow) (T : ℕ) (s : Loop) (hs : s.count = 0) (s' : Loop)
    (hs' : s' = (List.range T).foldl (fun s _ => F.periodic_step s) s) :
    s'.count = T ∧ s'.f = s.f ∧
    (∀ t < T, s'.M (F.ntotal - F.nz + 1 + t) = update (update (s.M (F.ntotal - F.nz + 1 + t)) (1 + t) 1)
      (F.ntotal - F.nz + 1 + t) (-1)) ∧
    ∀ k, k < F.ntotal - F.nz + 1 ∨ F.ntotal - F.nz + 1 + T ≤ k → s'.M k = s.M k := by
  induction T generalizing s' with
  | zero => subst hs'; exact ⟨by simp [hs], rfl, fun x hx => absurd hx (by omega), fun k _ => rfl⟩
  | succ T ih =>
    obtain ⟨h1, h2, h3, h4⟩ := ih _ rfl
    rw [List.range_succ, List.foldl_append] at hs'
    simp only [List.foldl_cons, List.foldl_nil] at hs'
    set p := (List.range T).foldl (fun s _ => F.periodic_step s) s with hp
    have hM : s'.M = update p.M (F.ntotal - F.nz + 1 + p.count)
        (update (update (p.M (F.ntotal - F.nz + 1 + p.count)) (1 + p.count) 1) (F.ntotal - F.nz + 1 + p.count) (-1)) := by
      rw [hs']
      simp [periodic_step, Loop.setM, Loop.setCount]
    have hf : s'.f = p.f := by rw [hs']; rfl
    have hc : s'.count = p.count + 1 := by rw [hs']; rfl
    rw [h1] at hM hc
    refine ⟨hc, hf.trans h2, fun t ht => ?_, fun k hk => ?_⟩
    · by_cases htT : t = T
      · subst htT
        rw [hM, update_self, h4 _ (.inr le_rfl)]
      · rw [hM, update_of_ne (by omega)]
        exact h3 t (by omega)
    · rw [hM, update_of_ne (by omega)]
      exact h4 k (by omega)

/-- Five entries of a row. -/
def five (ka kb kc kd ke : ℕ) (a b c d e : ℝ) (row : ℕ → ℝ) : ℕ → ℝ :=
  update (update (update (update (update row ka a) kb b) kc c) kd d) ke e

theorem seam_step_eq (F : FluidFlow) (c1 c2 : ℕ → ℕ → ℝ) (s : Loop) (i : ℕ) :
    F.seam_step c1 c2 s i = ⟨update s.M s.count (five (F.ntotal - 2 * F.nz + s.count) (s.count - 1) s.count (s.count + 1)
      (s.count + F.nz) ((1 / F.dtheta ^ 2) * c1 i (F.ntheta - 1)) ((1 / F.dz ^ 2) * c2 (i - 1) 0)
      (-((1 / F.dtheta ^ 2) * (c1 i 0 + c1 i (F.ntheta - 1)) + (1 / F.dz ^ 2) * (c2 i 0 + c2 (i - 1) 0)))
      ((1 / F.dz ^ 2) * c2 i 0) ((1 / F.dtheta ^ 2) * c1 i 0) (s.M s.count)),
      update s.f s.count (s.f s.count), s.count + 1⟩ := by
  simp [seam_step, Loop.setM, Loop.setCount, five]

theorem interior_step_eq (F : FluidFlow) (c1 c2 : ℕ → ℕ → ℝ) (j : ℕ) (s : Loop) (i : ℕ) :
    F.interior_step c1 c2 j s i = ⟨update s.M s.count (five (s.count - F.nz) (s.count - 1) s.count (s.count + 1)
      (s.count + F.nz) ((1 / F.dtheta ^ 2) * c1 i (j - 1)) ((1 / F.dz ^ 2) * c2 (i - 1) j)
      (-((1 / F.dtheta ^ 2) * (c1 i j + c1 i (j - 1)) + (1 / F.dz ^ 2) * (c2 i j + c2 (i - 1) j)))
      ((1 / F.dz ^ 2) * c2 i j) ((1 / F.dtheta ^ 2) * c1 i j) (s.M s.count)),
      update s.f s.count (s.f s.count), s.count + 1⟩ := by
  simp [interior_step, Loop.setM, Loop.setCount, five]

theorem source_step_eq (F : FluidFlow) (c0w : ℕ → ℕ → ℝ) (j : ℕ) (s : Loop) (i : ℕ) :
    F.source_step c0w j s i = ⟨update s.M s.count (s.M s.count), update s.f s.count
      (if j = 0 then (c0w i j - c0w i (F.ntheta - 1)) / F.dtheta else (c0w i j - c0w i (j - 1)) / F.dtheta),
      s.count + 1⟩ := by
  unfold source_step
  split_ifs <;> simp [Loop.setF, Loop.setCount]

/-! ### The rows of the matrix -/

/-- The rows that `mounting_matrix` gives, for at least two points in each direction. -/
theorem mounted (F : FluidFlow) (c1 c2 c0w : ℕ → ℕ → ℝ) (hn : 2 ≤ F.nz) (hm : 2 ≤ F.ntheta) :
    (∀ j < F.ntheta,
      (F.mounting_matrix c1 c2 c0w).1 (j * F.nz) = update (fun _ => 0) (j * F.nz) 1 ∧
      (F.mounting_matrix c1 c2 c0w).2 (j * F.nz) = F.p_in ∧
      (F.mounting_matrix c1 c2 c0w).1 (j * F.nz + F.nz - 1) = update (fun _ => 0) (j * F.nz + F.nz - 1) 1 ∧
      (F.mounting_matrix c1 c2 c0w).2 (j * F.nz + F.nz - 1) = F.p_out) ∧
    (∀ i, 0 < i → i < F.nz - 1 →
      (F.mounting_matrix c1 c2 c0w).1 ((F.ntheta - 1) * F.nz + i) =
        update (update (fun _ => 0) i 1) ((F.ntheta - 1) * F.nz + i) (-1) ∧
      (F.mounting_matrix c1 c2 c0w).2 ((F.ntheta - 1) * F.nz + i) = 0) ∧
    (∀ i, 0 < i → i < F.nz - 1 →
      (F.mounting_matrix c1 c2 c0w).1 i = five (F.ntotal - 2 * F.nz + i) (i - 1) i (i + 1)
        (i + F.nz) ((1 / F.dtheta ^ 2) * c1 i (F.ntheta - 1)) ((1 / F.dz ^ 2) * c2 (i - 1) 0)
        (-((1 / F.dtheta ^ 2) * (c1 i 0 + c1 i (F.ntheta - 1)) + (1 / F.dz ^ 2) * (c2 i 0 + c2 (i - 1) 0)))
        ((1 / F.dz ^ 2) * c2 i 0) ((1 / F.dtheta ^ 2) * c1 i 0) (fun _ => 0) ∧
      (F.mounting_matrix c1 c2 c0w).2 i = (c0w i 0 - c0w i (F.ntheta - 1)) / F.dtheta) ∧
    (∀ i, 0 < i → i < F.nz - 1 → ∀ j, 0 < j → j < F.ntheta - 1 →
      (F.mounting_matrix c1 c2 c0w).1 (j * F.nz + i) = five (j * F.nz + i - F.nz) (j * F.nz + i - 1) (j * F.nz + i)
        (j * F.nz + i + 1) (j * F.nz + i + F.nz) ((1 / F.dtheta ^ 2) * c1 i (j - 1)) ((1 / F.dz ^ 2) * c2 (i - 1) j)
        (-((1 / F.dtheta ^ 2) * (c1 i j + c1 i (j - 1)) + (1 / F.dz ^ 2) * (c2 i j + c2 (i - 1) j)))
        ((1 / F.dz ^ 2) * c2 i j) ((1 / F.dtheta ^ 2) * c1 i j) (fun _ => 0) ∧
      (F.mounting_matrix c1 c2 c0w).2 (j * F.nz + i) = (c0w i j - c0w i (j - 1)) / F.dtheta) := by
  obtain ⟨n, hn'⟩ : ∃ n, F.nz = n + 2 := ⟨F.nz - 2, by omega⟩
  obtain ⟨m, hm'⟩ : ∃ m, F.ntheta = m + 2 := ⟨F.ntheta - 2, by omega⟩
  have hin : F.inner = List.range' 1 n := by rw [inner, hn']; rfl
  have htot : F.ntotal = (m + 2) * (n + 2) := by rw [ntotal, hn', hm']; ring
  -- names for the states
  obtain ⟨s0, hs0⟩ : ∃ s0 : Loop, s0 = ⟨fun _ _ => 0, fun _ => 0, 0⟩ := ⟨_, rfl⟩
  obtain ⟨s1, hs1⟩ : ∃ s1, s1 = (List.range F.ntheta).foldl (fun s _ => F.boundary_step s) s0 := ⟨_, rfl⟩
  obtain ⟨s2, hs2⟩ : ∃ s2, s2 = (List.range (F.nz - 2)).foldl (fun s _ => F.periodic_step s) (s1.setCount 0) := ⟨_, rfl⟩
  obtain ⟨s3, hs3⟩ : ∃ s3, s3 = F.inner.foldl (F.seam_step c1 c2) (s2.setCount 1) := ⟨_, rfl⟩
  obtain ⟨s4, hs4⟩ : ∃ s4, s4 = (List.range' 1 (F.ntheta - 2)).foldl
    (fun s j => (F.inner.foldl (F.interior_step c1 c2 j) s).setCount
      ((F.inner.foldl (F.interior_step c1 c2 j) s).count + 2)) (s3.setCount (F.nz + 1)) := ⟨_, rfl⟩
  obtain ⟨s5, hs5⟩ : ∃ s5, s5 = (List.range (F.ntheta - 1)).foldl
    (fun s j => (F.inner.foldl (F.source_step c0w j) s).setCount
      ((F.inner.foldl (F.source_step c0w j) s).count + 2)) (s4.setCount 1) := ⟨_, rfl⟩
  have hmat : F.mounting_matrix c1 c2 c0w = (s5.M, s5.f) := by
    rw [hs5, hs4, hs3, hs2, hs1, hs0]; rfl
  rw [hmat]
  obtain ⟨-, b2, b3⟩ := boundary_fold F hn F.ntheta s0 (by rw [hs0]) s1 hs1
  obtain ⟨-, p2, p3, p4⟩ := periodic_fold F (F.nz - 2) (s1.setCount 0) rfl s2 hs2
  have hz : ∀ k, s0.M k = fun _ => 0 := fun k => by rw [hs0]
  have hzf : ∀ k, s0.f k = 0 := fun k => by rw [hs0]
  rw [hin] at hs3 hs4 hs5
  rw [List.range_eq_range'] at hs5
  have e3 := fold_rows (g := fun i k row => five (F.ntotal - 2 * F.nz + k) (k - 1) k (k + 1)
      (k + F.nz) ((1 / F.dtheta ^ 2) * c1 i (F.ntheta - 1)) ((1 / F.dz ^ 2) * c2 (i - 1) 0)
      (-((1 / F.dtheta ^ 2) * (c1 i 0 + c1 i (F.ntheta - 1)) + (1 / F.dz ^ 2) * (c2 i 0 + c2 (i - 1) 0)))
      ((1 / F.dz ^ 2) * c2 i 0) ((1 / F.dtheta ^ 2) * c1 i 0) row) (u := fun _ _ x => x)
    (seam_step_eq F c1 c2) 1 n (s2.setCount 1)
  rw [← hs3] at e3
  obtain ⟨-, q2, q3⟩ := e3
  obtain ⟨-, r2, r3⟩ := fold_blocks (g := fun j i k row => five (k - F.nz) (k - 1) k (k + 1)
      (k + F.nz) ((1 / F.dtheta ^ 2) * c1 i (j - 1)) ((1 / F.dz ^ 2) * c2 (i - 1) j)
      (-((1 / F.dtheta ^ 2) * (c1 i j + c1 i (j - 1)) + (1 / F.dz ^ 2) * (c2 i j + c2 (i - 1) j)))
      ((1 / F.dz ^ 2) * c2 i j) ((1 / F.dtheta ^ 2) * c1 i j) row) (u := fun _ _ _ x => x)
    (interior_step_eq F c1 c2) 1 n 1 (F.ntheta - 2) (s3.setCount (F.nz + 1)) s4 hs4
  obtain ⟨-, t2, t3⟩ := fold_blocks (g := fun _ _ _ row => row) (u := fun j i _ _ =>
      if j = 0 then (c0w i j - c0w i (F.ntheta - 1)) / F.dtheta else (c0w i j - c0w i (j - 1)) / F.dtheta)
    (source_step_eq F c0w) 1 n 0 (F.ntheta - 1) (s4.setCount 1) s5 hs5
  simp only [Loop.setCount] at p2 p3 p4 q2 q3 r2 r3 t2 t3
  simp only [hn', hm'] at b2 b3 p3 p4 q2 q3 r2 r3 t2 t3 ⊢
  rw [htot] at p3 p4
  simp only [Nat.add_sub_cancel, show m + 2 - 1 = m + 1 by omega, show n + 2 - 1 = n + 1 by omega,
    Nat.zero_add] at b2 b3 p3 p4 q2 q3 r2 r3 t2 t3 ⊢
  have hexp : (m + 2) * (n + 2) = m * (n + 2) + (n + 2) + (n + 2) := by ring
  have hexp1 : (m + 1) * (n + 2) = m * (n + 2) + (n + 2) := by ring
  -- rows of the grid do not meet
  have hne : ∀ {x y i i' : ℕ}, i < n + 2 → i' < n + 2 → x * (n + 2) + i = y * (n + 2) + i' → x = y ∧ i = i' := by
    intro x y i i' hi hi' h
    have h1 : (x * (n + 2) + i) / (n + 2) = x := by
      rw [mul_comm, Nat.mul_add_div (by omega), Nat.div_eq_of_lt hi]; rfl
    have h2 : (y * (n + 2) + i') / (n + 2) = y := by
      rw [mul_comm, Nat.mul_add_div (by omega), Nat.div_eq_of_lt hi']; rfl
    have hxy : x = y := by rw [← h1, h, h2]
    subst hxy
    exact ⟨rfl, by omega⟩
  -- what each loop leaves alone
  have keepT : ∀ j i, i < n + 2 → (i = 0 ∨ i = n + 1 ∨ m + 1 ≤ j) →
      s5.M (j * (n + 2) + i) = s4.M (j * (n + 2) + i) ∧ s5.f (j * (n + 2) + i) = s4.f (j * (n + 2) + i) := by
    intro j i hi h
    apply t3
    intro x hx t ht heq
    have := hne (x := j) (y := x) (i := i) (i' := t + 1) hi (by omega) (by omega)
    omega
  have keepR : ∀ j i, i < n + 2 → (i = 0 ∨ i = n + 1 ∨ j = 0 ∨ m + 1 ≤ j) →
      s4.M (j * (n + 2) + i) = s3.M (j * (n + 2) + i) ∧ s4.f (j * (n + 2) + i) = s3.f (j * (n + 2) + i) := by
    intro j i hi h
    apply r3
    intro x hx t ht heq
    have hx1 : (x + 1) * (n + 2) = x * (n + 2) + (n + 2) := by ring
    have := hne (x := j) (y := x + 1) (i := i) (i' := t + 1) hi (by omega) (by omega)
    omega
  have keepQ : ∀ j i, i < n + 2 → (i = 0 ∨ i = n + 1 ∨ 0 < j) →
      s3.M (j * (n + 2) + i) = s2.M (j * (n + 2) + i) ∧ s3.f (j * (n + 2) + i) = s2.f (j * (n + 2) + i) := by
    intro j i hi h
    apply q3
    by_cases hj : j = 0
    · subst hj
      omega
    · have : 1 * (n + 2) ≤ j * (n + 2) := Nat.mul_le_mul_right _ (by omega)
      omega
  have keepP : ∀ j i, i < n + 2 → (i = 0 ∨ i = n + 1 ∨ j < m + 1) → j < m + 2 →
      s2.M (j * (n + 2) + i) = s1.M (j * (n + 2) + i) := by
    intro j i hi h hj
    apply p4
    by_cases hjm : j < m + 1
    · have : j * (n + 2) ≤ m * (n + 2) := Nat.mul_le_mul_right _ (by omega)
      omega
    · have : j = m + 1 := by omega
      subst this
      omega
  have keepB : ∀ j i, 0 < i → i < n + 1 → s1.M (j * (n + 2) + i) = fun _ => 0 := by
    intro j i h0 hi
    rw [(b3 _ ?_).1, hz]
    intro x hx
    constructor
    · intro heq
      have := hne (x := j) (y := x) (i := i) (i' := 0) (by omega) (by omega) (by omega)
      omega
    · intro heq
      have := hne (x := j) (y := x) (i := i) (i' := n + 1) (by omega) (by omega) (by omega)
      omega
  have keepBf : ∀ j i, 0 < i → i < n + 1 → s1.f (j * (n + 2) + i) = 0 := by
    intro j i h0 hi
    rw [(b3 _ ?_).2, hzf]
    intro x hx
    constructor
    · intro heq
      have := hne (x := j) (y := x) (i := i) (i' := 0) (by omega) (by omega) (by omega)
      omega
    · intro heq
      have := hne (x := j) (y := x) (i := i) (i' := n + 1) (by omega) (by omega) (by omega)
      omega
  refine ⟨fun j hj => ?_, fun i h0 hi => ?_, fun i h0 hi => ?_, fun i h0 hi j h0j hj => ?_⟩
  · obtain ⟨u1, u2, u3, u4⟩ := b2 j hj
    have a1 := keepT j 0 (by omega) (.inl rfl)
    have a2 := keepR j 0 (by omega) (.inl rfl)
    have a3 := keepQ j 0 (by omega) (.inl rfl)
    have a4 := keepP j 0 (by omega) (.inl rfl) hj
    have z1 := keepT j (n + 1) (by omega) (.inr (.inl rfl))
    have z2 := keepR j (n + 1) (by omega) (.inr (.inl rfl))
    have z3 := keepQ j (n + 1) (by omega) (.inr (.inl rfl))
    have z4 := keepP j (n + 1) (by omega) (.inr (.inl rfl)) hj
    have hidx : j * (n + 2) + (n + 2) - 1 = j * (n + 2) + (n + 1) := by omega
    rw [hidx] at u3 u4 ⊢
    rw [Nat.add_zero] at a1 a2 a3 a4
    refine ⟨?_, ?_, ?_, ?_⟩
    · rw [a1.1, a2.1, a3.1, a4, u1, hz]
    · rw [a1.2, a2.2, a3.2, p2, u2]
    · rw [z1.1, z2.1, z3.1, z4, u3, hz]
    · rw [z1.2, z2.2, z3.2, p2, u4]
  · have a1 := keepT (m + 1) i (by omega) (.inr (.inr le_rfl))
    have a2 := keepR (m + 1) i (by omega) (.inr (.inr (.inr le_rfl)))
    have a3 := keepQ (m + 1) i (by omega) (.inr (.inr (by omega)))
    have a4 := p3 (i - 1) (by omega)
    rw [show (m + 2) * (n + 2) - (n + 2) + 1 + (i - 1) = (m + 1) * (n + 2) + i by omega,
      show 1 + (i - 1) = i by omega] at a4
    refine ⟨?_, ?_⟩
    · rw [a1.1, a2.1, a3.1, a4, keepB _ _ h0 hi]
    · rw [a1.2, a2.2, a3.2, p2, keepBf _ _ h0 hi]
  · have a1 := t2 0 (by omega) (i - 1) (by omega)
    rw [show 1 + 0 * (n + 2) + (i - 1) = i by omega, show 1 + (i - 1) = i by omega] at a1
    have a2 := keepR 0 i (by omega) (.inr (.inr (.inl rfl)))
    have a3 := q2 (i - 1) (by omega)
    rw [show 1 + (i - 1) = i by omega] at a3
    have a4 := keepP 0 i (by omega) (.inr (.inr (by omega))) (by omega)
    have a5 := keepB 0 i h0 hi
    rw [Nat.zero_mul, Nat.zero_add] at a2 a4 a5
    refine ⟨?_, ?_⟩
    · rw [a1.1, a2.1, a3.1, a4, a5]
    · rw [a1.2, if_pos rfl]
  · have a1 := t2 j (by omega) (i - 1) (by omega)
    rw [show 1 + j * (n + 2) + (i - 1) = j * (n + 2) + i by omega, show 1 + (i - 1) = i by omega] at a1
    have hj1 : (j - 1) * (n + 2) + (n + 2) = j * (n + 2) := by
      obtain ⟨j', rfl⟩ : ∃ j', j = j' + 1 := ⟨j - 1, by omega⟩
      simp
      ring
    have a2 := r2 (j - 1) (by omega) (i - 1) (by omega)
    rw [show n + 2 + 1 + (j - 1) * (n + 2) + (i - 1) = j * (n + 2) + i by omega, show 1 + (i - 1) = i by omega,
      show 1 + (j - 1) = j by omega] at a2
    have a3 := keepQ j i (by omega) (.inr (.inr h0j))
    have a4 := keepP j i (by omega) (.inr (.inr (by omega))) (by omega)
    have a5 := keepB j i h0 hi
    refine ⟨?_, ?_⟩
    · rw [a1.1, a2.1, a3.1, a4, a5]
    · rw [a1.2, if_neg (by omega)]

end Ross.FluidLemmas
