import Mathlib.Analysis.Calculus.Deriv.Pow
import Mathlib.Analysis.Calculus.Deriv.Inv
import Mathlib.Analysis.Calculus.Deriv.MeanValue
import Mathlib.Topology.Order.IntermediateValue
import Mathlib.Algebra.Polynomial.Roots
import Mathlib.Algebra.Polynomial.FieldDivision
import Mathlib.Analysis.Real.Pi.Bounds
import Verif.Model.Cylindrical
import Verif.Spec.Cylindrical
import Verif.Lemmas.Bearing

/-! # Lemmas about the cylindrical bearing -/

namespace Ross.CylLemmas

open Real Spec ShortBearing

/-- `(1-q)^4 - s² q (16 q + π² (1-q))` -/
noncomputable def quart (s q : ℝ) : ℝ := (1 - q) ^ 4 - s ^ 2 * q * (16 * q + π ^ 2 * (1 - q))

theorem pi_sq_lt : π ^ 2 < 16 := by
  have := Real.pi_lt_d2; have := Real.pi_pos; nlinarith

theorem quart_strictAnti (s : ℝ) : StrictAntiOn (quart s) (Set.Icc 0 1) := by
  have hp := pi_sq_lt
  have hp0 : 0 < π ^ 2 := by positivity
  intro a ⟨ha0, ha1⟩ b ⟨hb0, hb1⟩ hab
  unfold quart
  have h1 : (1 - b) ^ 4 < (1 - a) ^ 4 := by
    apply pow_lt_pow_left₀ (by linarith) (by linarith) (by norm_num)
  have h2 : a * (16 * a + π ^ 2 * (1 - a)) ≤ b * (16 * b + π ^ 2 * (1 - b)) := by
    have : 0 ≤ (b - a) * ((16 - π ^ 2) * (a + b) + π ^ 2) := by
      apply mul_nonneg (by linarith)
      have : 0 ≤ (16 - π ^ 2) * (a + b) := mul_nonneg (by linarith) (by linarith)
      linarith
    linarith
  have h3 := mul_le_mul_of_nonneg_left h2 (sq_nonneg s)
  linarith

theorem quart_exists {s : ℝ} (hs : s ≠ 0) : ∃ q, 0 < q ∧ q < 1 ∧ quart s q = 0 := by
  have hc : ContinuousOn (quart s) (Set.Icc 0 1) := by unfold quart; fun_prop
  have h := intermediate_value_Icc' (zero_le_one' ℝ) hc
  have h0 : quart s 0 = 1 := by simp [quart]
  have h1 : quart s 1 = -(16 * s ^ 2) := by simp [quart]; ring
  have hs2 : 0 < s ^ 2 := by positivity
  obtain ⟨q, ⟨hq0, hq1⟩, hq⟩ := h (show (0 : ℝ) ∈ Set.Icc (quart s 1) (quart s 0) by
    rw [h0, h1]; constructor <;> linarith)
  refine ⟨q, lt_of_le_of_ne hq0 ?_, lt_of_le_of_ne hq1 ?_, hq⟩
  · rintro rfl; rw [h0] at hq; norm_num at hq
  · rintro rfl; rw [h1] at hq; linarith

theorem quart_unique {s a b : ℝ} (ha : 0 < a ∧ a < 1) (hb : 0 < b ∧ b < 1)
    (h1 : quart s a = 0) (h2 : quart s b = 0) : a = b :=
  (quart_strictAnti s).injOn ⟨ha.1.le, ha.2.le⟩ ⟨hb.1.le, hb.2.le⟩ (h1.trans h2.symm)

/-- The predicate of `keep`, simplified. -/
theorem keep_iff (z : ℂ) : ((CylindricalBearing.clt 0 z ∧ CylindricalBearing.clt z 1) ∧ z.im = 0) ↔
    0 < z.re ∧ z.re < 1 ∧ z.im = 0 := by
  unfold CylindricalBearing.clt
  constructor
  · rintro ⟨⟨h1, h2⟩, h3⟩
    simp [h3] at h1 h2
    exact ⟨h1, h2, h3⟩
  · rintro ⟨h1, h2, h3⟩
    exact ⟨⟨Or.inl h1, Or.inl h2⟩, h3⟩

open Polynomial in
theorem ofCoefs_eval (s : ℝ) (x : ℝ) :
    (ofCoefs (CylindricalBearing.polyCoefs s)).eval (x : ℂ) = (quart s x : ℂ) := by
  have h : ofCoefs (CylindricalBearing.polyCoefs s) = ∑ i : Fin 5,
      C (((CylindricalBearing.polyCoefs s)[i.val]'i.isLt : ℝ) : ℂ) * X ^ i.val := rfl
  rw [h]
  simp only [eval_finset_sum, Fin.sum_univ_five]
  simp [quart, CylindricalBearing.polyCoefs]
  ring

open Polynomial in
theorem ofCoefs_deriv (s : ℝ) (x : ℝ) :
    (derivative (ofCoefs (CylindricalBearing.polyCoefs s))).eval (x : ℂ) =
      ((-4 * (1 - x) ^ 3 - s ^ 2 * (32 * x + π ^ 2 * (1 - 2 * x)) : ℝ) : ℂ) := by
  have h : ofCoefs (CylindricalBearing.polyCoefs s) = ∑ i : Fin 5,
      C (((CylindricalBearing.polyCoefs s)[i.val]'i.isLt : ℝ) : ℂ) * X ^ i.val := rfl
  rw [h]
  simp only [Fin.sum_univ_five, derivative_add, derivative_C_mul, derivative_X_pow, eval_add,
    eval_mul, eval_C]
  simp [CylindricalBearing.polyCoefs]
  ring

open Polynomial in
theorem ofCoefs_ne (s : ℝ) : ofCoefs (CylindricalBearing.polyCoefs s) ≠ 0 := by
  intro h
  have := ofCoefs_eval s 0
  rw [h] at this
  simp [quart] at this

open Polynomial Classical in
/-- The kept roots are the one root in the open unit interval. -/
theorem keep_eq {pr : PolyRoots} (hpr : FindsRoots pr) {s q : ℝ} (hq0 : 0 < q) (hq1 : q < 1)
    (hq : quart s q = 0) :
    CylindricalBearing.keep (pr (CylindricalBearing.polyCoefs s)) = [q] := by
  set p := ofCoefs (CylindricalBearing.polyCoefs s) with hp
  have hroots : (pr (CylindricalBearing.polyCoefs s) : Multiset ℂ) = p.roots :=
    hpr _ (by simp [CylindricalBearing.polyCoefs]) 
  have hp0 : p ≠ 0 := ofCoefs_ne s
  have hcount : p.roots.count (q : ℂ) = 1 := by
    rw [count_roots]
    have hroot : p.IsRoot (q : ℂ) := by rw [IsRoot, ofCoefs_eval, hq]; simp
    have h1 : 0 < p.rootMultiplicity (q : ℂ) := (rootMultiplicity_pos hp0).2 hroot
    have h2 : ¬ 1 < p.rootMultiplicity (q : ℂ) := by
      rw [one_lt_rootMultiplicity_iff_isRoot hp0]
      rintro ⟨-, hd⟩
      rw [IsRoot, ofCoefs_deriv] at hd
      have hd' := Complex.ofReal_eq_zero.1 hd
      have hpi := pi_sq_lt
      have hpi0 : 0 < π ^ 2 := by positivity
      have a1 : 0 < (1 - q) ^ 3 := by have : 0 < 1 - q := by linarith
                                      positivity
      have a2 : 0 ≤ s ^ 2 * (32 * q + π ^ 2 * (1 - 2 * q)) := by
        apply mul_nonneg (sq_nonneg s)
        nlinarith
      linarith
    omega
  have hfil : (((pr (CylindricalBearing.polyCoefs s)).filter fun z =>
      (CylindricalBearing.clt 0 z ∧ CylindricalBearing.clt z 1) ∧ z.im = 0 : List ℂ) :
      Multiset ℂ) = {(q : ℂ)} := by
    rw [← Multiset.filter_coe, hroots]
    ext z
    rw [Multiset.count_filter]
    by_cases hz : z = q
    · subst hz
      rw [hcount, if_pos ((keep_iff _).2 (by simp [hq0, hq1]))]
      simp
    · rw [Multiset.count_singleton, if_neg hz]
      split_ifs with hk
      · obtain ⟨k1, k2, k3⟩ := (keep_iff z).1 (by simpa using hk)
        rw [Multiset.count_eq_zero, mem_roots hp0]
        intro hr
        have hzre : z = (z.re : ℂ) := by apply Complex.ext <;> simp [k3]
        rw [hzre, IsRoot, ofCoefs_eval] at hr
        have := quart_unique ⟨k1, k2⟩ ⟨hq0, hq1⟩ (Complex.ofReal_eq_zero.1 hr) hq
        exact hz (by rw [hzre, this])
      · rfl
  have := Multiset.coe_eq_singleton.1 hfil
  unfold CylindricalBearing.keep
  rw [this]
  simp

open Classical in
/-- No root is kept at speed zero. -/
theorem keep_zero {pr : PolyRoots} (hpr : FindsRoots pr) :
    CylindricalBearing.keep (pr (CylindricalBearing.polyCoefs 0)) = [] := by
  have hroots : (pr (CylindricalBearing.polyCoefs 0) : Multiset ℂ) = _ :=
    hpr _ (by simp [CylindricalBearing.polyCoefs])
  unfold CylindricalBearing.keep
  rw [List.map_eq_nil_iff, List.filter_eq_nil_iff]
  intro z hz hk
  obtain ⟨k1, k2, k3⟩ := (keep_iff z).1 (by simpa using hk)
  have hmem : z ∈ (pr (CylindricalBearing.polyCoefs 0) : Multiset ℂ) := by simpa using hz
  rw [hroots, Polynomial.mem_roots (ofCoefs_ne 0)] at hmem
  have hzre : z = (z.re : ℂ) := by apply Complex.ext <;> simp [k3]
  rw [hzre, Polynomial.IsRoot, ofCoefs_eval] at hmem
  have := Complex.ofReal_eq_zero.1 hmem
  unfold quart at this
  have h4 : 0 < (1 - z.re) ^ 4 := by have : 0 < 1 - z.re := by linarith
                                     positivity
  simp at this
  linarith

/-! ### The film force at rest -/

/-- The radial part of the force at rest, divided by the distance. -/
noncomputable def g1 (K q : ℝ) : ℝ := -K * √q / (1 - q) ^ 2

/-- The tangential part of the force at rest, divided by the distance. -/
noncomputable def g2 (K q : ℝ) : ℝ := K * π / (4 * √(1 - q) ^ 3)

theorem offset_sq (x y : ℝ) : offset x y ^ 2 = x ^ 2 + y ^ 2 := sq_sqrt (by positivity)

theorem film_rest (B : ShortBearing) (hc : 0 < B.c) (ω x y : ℝ) :
    B.film ω x y 0 0 =
      (g1 (B.scale * ω / B.c) ((x ^ 2 + y ^ 2) / B.c ^ 2) * x -
          g2 (B.scale * ω / B.c) ((x ^ 2 + y ^ 2) / B.c ^ 2) * y,
        g1 (B.scale * ω / B.c) ((x ^ 2 + y ^ 2) / B.c ^ 2) * y +
          g2 (B.scale * ω / B.c) ((x ^ 2 + y ^ 2) / B.c ^ 2) * x) := by
  have hr2 := offset_sq x y
  have hq : (offset x y / B.c) ^ 2 = (x ^ 2 + y ^ 2) / B.c ^ 2 := by rw [div_pow, hr2]
  have hsq : √((x ^ 2 + y ^ 2) / B.c ^ 2) = offset x y / B.c := by
    rw [← hq]; exact sqrt_sq (div_nonneg (sqrt_nonneg _) hc.le)
  rcases eq_or_ne (offset x y) 0 with h0 | h0
  · have hx : x = 0 := by nlinarith [sq_nonneg x, sq_nonneg y]
    have hy : y = 0 := by nlinarith [sq_nonneg x, sq_nonneg y]
    subst hx hy
    simp [film]
  · simp only [film, radial, tangential, g1, g2, hsq, hq, mul_zero, zero_mul, add_zero, zero_div,
      sub_zero]
    have hq' := hq
    set q := (x ^ 2 + y ^ 2) / B.c ^ 2
    set r := offset x y
    generalize (1 - q) ^ 2 = d2
    generalize √(1 - q) = d
    have hc' := hc.ne'
    ext
    · dsimp only
      rw [← hq']
      rcases eq_or_ne d2 0 with h2 | h2 <;> rcases eq_or_ne d 0 with h3 | h3 <;>
        (try subst h2) <;> (try subst h3) <;> field_simp <;> try ring
    · dsimp only
      rw [← hq']
      rcases eq_or_ne d2 0 with h2 | h2 <;> rcases eq_or_ne d 0 with h3 | h3 <;>
        (try subst h2) <;> (try subst h3) <;> field_simp <;> try ring

theorem hasDeriv_g1 (K : ℝ) {q : ℝ} (h0 : 0 < q) (h1 : q < 1) :
    HasDerivAt (g1 K) (-K * (1 / (2 * √q * (1 - q) ^ 2) + 2 * √q / (1 - q) ^ 3)) q := by
  have hq : (1 - q) ≠ 0 := by linarith
  have hs : √q ≠ 0 := (sqrt_pos.2 h0).ne'
  have a := ((hasDerivAt_sqrt h0.ne').const_mul (-K)).div
    (((hasDerivAt_id q).const_sub 1).pow 2) (pow_ne_zero 2 hq)
  refine a.congr_deriv ?_
  simp only [id, Pi.pow_apply]
  field_simp
  ring

theorem hasDeriv_g2 (K : ℝ) {q : ℝ} (h1 : q < 1) :
    HasDerivAt (g2 K) (3 * K * π / (8 * √(1 - q) ^ 5)) q := by
  have hq : 0 < 1 - q := by linarith
  have hs : √(1 - q) ≠ 0 := (sqrt_pos.2 hq).ne'
  have a := (((((hasDerivAt_id q).const_sub 1).sqrt hq.ne').pow 3).const_mul 4).inv
    (mul_ne_zero four_ne_zero (pow_ne_zero 3 hs))
  have b := a.const_mul (K * π)
  refine (b.congr_of_eventuallyEq (Filter.Eventually.of_forall fun t => ?_)).congr_deriv ?_
  · simp [g2, div_eq_mul_inv]
  · simp only [id, Pi.pow_apply]
    field_simp
    ring

/-- `√(π² (1 - e²) + 16 e²)` -/
noncomputable def hyp (e : ℝ) : ℝ := √(π ^ 2 * (1 - e ^ 2) + 16 * e ^ 2)

theorem hyp_sq {e : ℝ} (h1 : e ^ 2 < 1) : hyp e ^ 2 = π ^ 2 * (1 - e ^ 2) + 16 * e ^ 2 := by
  apply sq_sqrt
  have : 0 ≤ 1 - e ^ 2 := by linarith
  positivity

theorem hyp_pos {e : ℝ} (h1 : e ^ 2 < 1) : 0 < hyp e := by
  apply sqrt_pos.2
  have : 0 < 1 - e ^ 2 := by linarith
  positivity

/-- Where the film carries the load, in terms of the eccentricity. -/
theorem rests_iff (B : ShortBearing) (hc : 0 < B.c) {ω W : ℝ} (hK : 0 < B.scale * ω / B.c)
    (hW : 0 < W) (x y : ℝ) :
    B.Rests ω W x y ↔ ∃ e, 0 < e ∧ e < 1 ∧ W = B.c * e * (B.scale * ω / B.c) * hyp e /
      (4 * √(1 - e ^ 2) ^ 4) ∧ x = B.c * e * π * √(1 - e ^ 2) / hyp e ∧
      y = -4 * B.c * e ^ 2 / hyp e := by
  set K := B.scale * ω / B.c with hKdef
  unfold Rests
  rw [film_rest B hc, ← hKdef]
  clear_value K
  have hpi := pi_pos
  constructor
  · rintro ⟨h0, h1, hF⟩
    refine ⟨offset x y / B.c, ?_⟩
    have he0 : 0 < offset x y / B.c := by positivity
    have he1 : offset x y / B.c < 1 := by rwa [div_lt_one hc]
    have hq : (x ^ 2 + y ^ 2) / B.c ^ 2 = (offset x y / B.c) ^ 2 := by rw [div_pow, offset_sq]
    have hxy : x ^ 2 + y ^ 2 = B.c ^ 2 * (offset x y / B.c) ^ 2 := by
      rw [← hq]; field_simp
    rw [hq] at hF
    generalize offset x y / B.c = e at *
    have he2 : e ^ 2 < 1 := by nlinarith
    have hs0 : 0 < √(1 - e ^ 2) := sqrt_pos.2 (by linarith)
    have hs2 : √(1 - e ^ 2) ^ 2 = 1 - e ^ 2 := sq_sqrt (by linarith)
    have hh2 := hyp_sq he2
    have hh0 := hyp_pos he2
    rw [Prod.mk.injEq] at hF
    unfold g1 g2 at hF
    rw [sqrt_sq he0.le] at hF
    generalize √(1 - e ^ 2) = s at *
    rw [← hs2] at hF hh2
    generalize hyp e = h at *
    obtain ⟨f1, f2⟩ := hF
    have hy : y = -4 * e * x / (π * s) := by
      field_simp at f1
      have h0 : K * (π * s * y + 4 * e * x) = 0 := by linear_combination -f1
      have h1 := (mul_eq_zero.1 h0).resolve_left hK.ne'
      field_simp
      linear_combination h1
    have hxW : (4 * K * e ^ 2 / (π * s ^ 5) + K * π / (4 * s ^ 3)) * x = W := by
      rw [← f2, hy]; field_simp
    have hx0 : 0 < x := by
      have hpos : 0 < 4 * K * e ^ 2 / (π * s ^ 5) + K * π / (4 * s ^ 3) := by positivity
      by_contra hneg
      push Not at hneg
      have := mul_nonpos_of_nonneg_of_nonpos hpos.le hneg
      linarith
    have hxh : x * h = B.c * e * π * s := by
      have hsq : (x * h) ^ 2 = (B.c * e * π * s) ^ 2 := by
        rw [hy] at hxy
        field_simp at hxy
        rw [mul_pow, hh2]
        linear_combination hxy
      exact (pow_left_inj₀ (by positivity) (by positivity) two_ne_zero).1 hsq
    have hx : x = B.c * e * π * s / h := by field_simp; linarith
    refine ⟨he0, he1, ?_, hx, ?_⟩
    · rw [← hxW, hx]
      field_simp
      rw [hh2]; ring
    · rw [hy, hx]; field_simp
  · rintro ⟨e, he0, he1, hWe, rfl, rfl⟩
    have he2 : e ^ 2 < 1 := by nlinarith
    have hs0 : 0 < √(1 - e ^ 2) := sqrt_pos.2 (by linarith)
    have hs2 : √(1 - e ^ 2) ^ 2 = 1 - e ^ 2 := sq_sqrt (by linarith)
    have hh2 := hyp_sq he2
    have hh0 := hyp_pos he2
    generalize hse : √(1 - e ^ 2) = s at *
    rw [← hs2] at hh2
    have hxy : (B.c * e * π * s / hyp e) ^ 2 + (-4 * B.c * e ^ 2 / hyp e) ^ 2 =
        (B.c * e) ^ 2 := by
      field_simp
      rw [hh2]; ring
    have hoff : offset (B.c * e * π * s / hyp e) (-4 * B.c * e ^ 2 / hyp e) =
        B.c * e := by
      unfold offset; rw [hxy]; exact sqrt_sq (by positivity)
    refine ⟨by rw [hoff]; positivity, by rw [hoff]; nlinarith, ?_⟩
    rw [hxy]
    have : (B.c * e) ^ 2 / B.c ^ 2 = e ^ 2 := by field_simp
    rw [this]
    unfold g1 g2
    rw [sqrt_sq he0.le, hWe, hse, ← hs2]
    generalize hyp e = h at *
    ext
    · dsimp only; field_simp; ring
    · dsimp only; field_simp; rw [hh2]; ring

/-- The equilibrium condition is the polynomial of the code. -/
theorem balance_iff {c K W e : ℝ} (hc : 0 < c) (hK : 0 < K) (hW : 0 < W) (h0 : 0 < e) (h1 : e < 1) :
    W = c * e * K * hyp e / (4 * √(1 - e ^ 2) ^ 4) ↔ quart (c * K / (4 * W)) (e ^ 2) = 0 := by
  have he2 : e ^ 2 < 1 := by nlinarith
  have hs0 : 0 < √(1 - e ^ 2) := sqrt_pos.2 (by linarith)
  have hs2 : √(1 - e ^ 2) ^ 2 = 1 - e ^ 2 := sq_sqrt (by linarith)
  have hh2 := hyp_sq he2
  have hh0 := hyp_pos he2
  unfold quart
  generalize √(1 - e ^ 2) = s at *
  rw [← hs2] at hh2 ⊢
  generalize hyp e = h at *
  have key : (s ^ 2) ^ 4 - (c * K / (4 * W)) ^ 2 * e ^ 2 * (16 * e ^ 2 + π ^ 2 * s ^ 2) =
      ((4 * s ^ 4 * W) ^ 2 - (c * e * K * h) ^ 2) / (4 * W) ^ 2 := by
    field_simp
    rw [hh2]; ring
  rw [key, div_eq_zero_iff, or_iff_left (by positivity), sub_eq_zero,
    pow_left_inj₀ (by positivity) (by positivity) two_ne_zero, eq_div_iff (by positivity)]
  constructor <;> intro h' <;> linarith

/-! ### The derivatives of the film force -/

theorem deriv_x {c x y : ℝ} {f g : ℝ → ℝ} {f' g' : ℝ}
    (hf : HasDerivAt f f' ((x ^ 2 + y ^ 2) / c ^ 2))
    (hg : HasDerivAt g g' ((x ^ 2 + y ^ 2) / c ^ 2)) :
    HasDerivAt (fun t => f (((x + t) ^ 2 + y ^ 2) / c ^ 2) * (x + t) +
      g (((x + t) ^ 2 + y ^ 2) / c ^ 2) * y)
      (f ((x ^ 2 + y ^ 2) / c ^ 2) + (f' * x + g' * y) * (2 * x / c ^ 2)) 0 := by
  have hq : HasDerivAt (fun t : ℝ => ((x + t) ^ 2 + y ^ 2) / c ^ 2) (2 * x / c ^ 2) 0 := by
    have h := ((((hasDerivAt_id (0 : ℝ)).const_add x).pow 2).add_const (y ^ 2)).div_const (c ^ 2)
    refine (h.congr_deriv ?_)
    simp
  have e0 : ((x + 0) ^ 2 + y ^ 2) / c ^ 2 = (x ^ 2 + y ^ 2) / c ^ 2 := by rw [add_zero]
  have hf' := HasDerivAt.comp (0 : ℝ) (by rw [e0]; exact hf) hq
  have hg' := HasDerivAt.comp (0 : ℝ) (by rw [e0]; exact hg) hq
  have h := (hf'.mul ((hasDerivAt_id (0 : ℝ)).const_add x)).add (hg'.mul_const y)
  refine h.congr_deriv ?_
  simp only [Function.comp, id, add_zero, mul_one]
  ring

theorem deriv_y {c x y : ℝ} {f g : ℝ → ℝ} {f' g' : ℝ}
    (hf : HasDerivAt f f' ((x ^ 2 + y ^ 2) / c ^ 2))
    (hg : HasDerivAt g g' ((x ^ 2 + y ^ 2) / c ^ 2)) :
    HasDerivAt (fun t => f ((x ^ 2 + (y + t) ^ 2) / c ^ 2) * x +
      g ((x ^ 2 + (y + t) ^ 2) / c ^ 2) * (y + t))
      (g ((x ^ 2 + y ^ 2) / c ^ 2) + (f' * x + g' * y) * (2 * y / c ^ 2)) 0 := by
  have h := deriv_x (x := y) (y := x) (c := c) (f := g) (g := f)
    (by rw [add_comm]; exact hg) (by rw [add_comm]; exact hf)
  refine (h.congr_of_eventuallyEq (Filter.Eventually.of_forall fun t => ?_)).congr_deriv ?_
  · simp only [add_comm (x ^ 2)]; ring
  · simp only [add_comm (x ^ 2)]; ring

/-- The film force of a journal at a fixed place is affine in the velocity. -/
theorem film_velocity (B : ShortBearing) (hc : 0 < B.c) {ω x y : ℝ} (hr : offset x y ≠ 0)
    (u v : ℝ) :
    B.film ω x y u v = B.film ω x y 0 0 +
      (((B.scale * x / offset x y * (2 * (offset x y / B.c) ^ 2 /
            (1 - (offset x y / B.c) ^ 2) ^ 2) * ((x * v - y * u) / offset x y ^ 2) -
          B.scale * x / offset x y * (π / 2 * (1 + 2 * (offset x y / B.c) ^ 2) /
            √(1 - (offset x y / B.c) ^ 2) ^ 5) * ((x * u + y * v) / (offset x y * B.c))) +
        (B.scale * y / offset x y * (2 * π * (offset x y / B.c) /
            (4 * √(1 - (offset x y / B.c) ^ 2) ^ 3)) * ((x * v - y * u) / offset x y ^ 2) -
          B.scale * y / offset x y * (2 * (offset x y / B.c) /
            (1 - (offset x y / B.c) ^ 2) ^ 2) * ((x * u + y * v) / (offset x y * B.c)))),
       ((B.scale * y / offset x y * (2 * (offset x y / B.c) ^ 2 /
            (1 - (offset x y / B.c) ^ 2) ^ 2) * ((x * v - y * u) / offset x y ^ 2) -
          B.scale * y / offset x y * (π / 2 * (1 + 2 * (offset x y / B.c) ^ 2) /
            √(1 - (offset x y / B.c) ^ 2) ^ 5) * ((x * u + y * v) / (offset x y * B.c))) -
        (B.scale * x / offset x y * (2 * π * (offset x y / B.c) /
            (4 * √(1 - (offset x y / B.c) ^ 2) ^ 3)) * ((x * v - y * u) / offset x y ^ 2) -
          B.scale * x / offset x y * (2 * (offset x y / B.c) /
            (1 - (offset x y / B.c) ^ 2) ^ 2) * ((x * u + y * v) / (offset x y * B.c))))) := by
  simp only [film, radial, tangential, mul_zero, zero_mul, add_zero, zero_div, sub_zero]
  ext <;> simp only [Prod.fst_add, Prod.snd_add] <;> ring

theorem affine_deriv {f : ℝ → ℝ} {a b : ℝ} (h : ∀ t, f t = a + b * t) : HasDerivAt f b 0 := by
  have : f = fun t => a + b * t := funext h
  rw [this]
  simpa using ((hasDerivAt_id (0 : ℝ)).const_mul b).const_add a

theorem h0_eq {e : ℝ} (h1 : e ^ 2 < 1) : CylindricalBearing.h0 e = 1 / hyp e ^ 3 := by
  unfold CylindricalBearing.h0 hyp
  have h : 0 ≤ π ^ 2 * (1 - e ^ 2) + 16 * e ^ 2 := by
    have : 0 ≤ 1 - e ^ 2 := by linarith
    positivity
  rw [rpow_div_two_eq_sqrt _ h]
  norm_cast

open CylindricalBearing in
/-- The coefficients of the code are the partial derivatives of the film force. -/
theorem linearised (B : ShortBearing) (hc : 0 < B.c) {ω W e : ℝ} (hω : 0 < ω)
    (hK : 0 < B.scale * ω / B.c) (he0 : 0 < e) (he1 : e < 1)
    (hW : W = B.c * e * (B.scale * ω / B.c) * hyp e / (4 * √(1 - e ^ 2) ^ 4)) :
    Linearised (B.film ω) (B.c * e * π * √(1 - e ^ 2) / hyp e) (-4 * B.c * e ^ 2 / hyp e)
      (W / B.c * auu e) (W / B.c * auv e) (W / B.c * avu e) (W / B.c * avv e)
      (W / (B.c * ω) * buu e) (W / (B.c * ω) * buv e) (W / (B.c * ω) * buv e)
      (W / (B.c * ω) * bvv e) := by
  have he2 : e ^ 2 < 1 := by nlinarith
  have hh2 := hyp_sq he2
  have hh0 := hyp_pos he2
  have hs0 : 0 < √(1 - e ^ 2) := sqrt_pos.2 (by linarith)
  have hs2 : √(1 - e ^ 2) ^ 2 = 1 - e ^ 2 := sq_sqrt (by linarith)
  have hpi := pi_pos
  have h0e := h0_eq he2
  have hxy : (B.c * e * π * √(1 - e ^ 2) / hyp e) ^ 2 + (-4 * B.c * e ^ 2 / hyp e) ^ 2 =
      (B.c * e) ^ 2 := by
    field_simp
    rw [hh2, hs2]; ring
  have hoff : offset (B.c * e * π * √(1 - e ^ 2) / hyp e) (-4 * B.c * e ^ 2 / hyp e) =
      B.c * e := by
    unfold offset; rw [hxy]; exact sqrt_sq (by positivity)
  have hq : ((B.c * e * π * √(1 - e ^ 2) / hyp e) ^ 2 + (-4 * B.c * e ^ 2 / hyp e) ^ 2) / B.c ^ 2 =
      e ^ 2 := by rw [hxy]; field_simp
  set K := B.scale * ω / B.c with hKdef
  set x := B.c * e * π * √(1 - e ^ 2) / hyp e with hx
  set y := -4 * B.c * e ^ 2 / hyp e with hy
  have d1 : HasDerivAt (g1 K)
      (-K * (1 / (2 * e * (√(1 - e ^ 2) ^ 2) ^ 2) + 2 * e / (√(1 - e ^ 2) ^ 2) ^ 3))
      ((x ^ 2 + y ^ 2) / B.c ^ 2) := by
    have h := hasDeriv_g1 K (q := e ^ 2) (by positivity) he2
    rw [sqrt_sq he0.le] at h
    rw [hq, hs2]; exact h
  have d2 : HasDerivAt (g2 K) (3 * K * π / (8 * √(1 - e ^ 2) ^ 5)) ((x ^ 2 + y ^ 2) / B.c ^ 2) := by
    rw [hq]; exact hasDeriv_g2 K he2
  have v1 : g1 K (e ^ 2) = -K * e / (√(1 - e ^ 2) ^ 2) ^ 2 := by
    unfold g1; rw [sqrt_sq he0.le, hs2]
  have v2 : g2 K (e ^ 2) = K * π / (4 * √(1 - e ^ 2) ^ 3) := rfl
  have hsc : B.scale = K * B.c / ω := by rw [hKdef]; field_simp
  have hfilm := film_velocity B hc (ω := ω) (x := x) (y := y) (by rw [hoff]; positivity)
  rw [hoff, show B.c * e / B.c = e by field_simp, hsc] at hfilm
  have hrest := fun a b => film_rest B hc ω a b
  unfold auu auv avu avv buu buv bvv
  rw [h0e]
  rw [← hKdef] at hrest
  clear_value K x y
  generalize √(1 - e ^ 2) = s at *
  rw [← hs2] at hh2 hfilm ⊢
  generalize hyp e = h at *
  have e2 : e ^ 2 = 1 - s ^ 2 := by linarith
  constructor
  · refine ((deriv_x d1 d2.neg).congr_of_eventuallyEq
      (Filter.Eventually.of_forall fun t => ?_)).congr_deriv ?_
    · simp only [hrest, Pi.neg_apply]; ring
    · rw [hq, v1, hx, hy, hW]
      field_simp
      grind
  · refine ((deriv_y d1 d2.neg).congr_of_eventuallyEq
      (Filter.Eventually.of_forall fun t => ?_)).congr_deriv ?_
    · simp only [hrest, Pi.neg_apply]; ring
    · rw [hq, Pi.neg_apply, v2, hx, hy, hW]
      field_simp
      grind
  · refine ((deriv_x d2 d1).congr_of_eventuallyEq
      (Filter.Eventually.of_forall fun t => ?_)).congr_deriv ?_
    · simp only [hrest]; ring
    · rw [hq, v2, hx, hy, hW]
      field_simp
      grind
  · refine ((deriv_y d2 d1).congr_of_eventuallyEq
      (Filter.Eventually.of_forall fun t => ?_)).congr_deriv ?_
    · simp only [hrest]; ring
    · rw [hq, v1, hx, hy, hW]
      field_simp
      grind
  all_goals generalize B.film ω x y 0 0 = F0 at hfilm
  · refine affine_deriv (a := F0.1) fun t => ?_
    rw [hfilm]
    simp only [Prod.fst_add, Prod.snd_add, mul_zero, add_zero, zero_sub, sub_zero, zero_add]
    rw [hx, hy, hW]
    field_simp
    grind
  · refine affine_deriv (a := F0.1) fun t => ?_
    rw [hfilm]
    simp only [Prod.fst_add, Prod.snd_add, mul_zero, add_zero, zero_sub, sub_zero, zero_add]
    rw [hx, hy, hW]
    field_simp
    grind
  · refine affine_deriv (a := F0.2) fun t => ?_
    rw [hfilm]
    simp only [Prod.fst_add, Prod.snd_add, mul_zero, add_zero, zero_sub, sub_zero, zero_add]
    rw [hx, hy, hW]
    field_simp
    grind
  · refine affine_deriv (a := F0.2) fun t => ?_
    rw [hfilm]
    simp only [Prod.fst_add, Prod.snd_add, mul_zero, add_zero, zero_sub, sub_zero, zero_add]
    rw [hx, hy, hW]
    field_simp
    grind

/-! ### The constructor for positive speeds -/

open Classical in
/-- The root of the polynomial in the open unit interval. -/
noncomputable def qOf (s : ℝ) : ℝ := if h : s ≠ 0 then (quart_exists h).choose else 0

theorem qOf_spec {s : ℝ} (h : s ≠ 0) : 0 < qOf s ∧ qOf s < 1 ∧ quart s (qOf s) = 0 := by
  unfold qOf
  rw [dif_pos h]
  exact (quart_exists h).choose_spec

theorem rootList_eq {pr : PolyRoots} (hpr : FindsRoots pr) {Ss : List ℝ} (h : ∀ s ∈ Ss, s ≠ 0) :
    CylindricalBearing.rootList pr Ss = Ss.map qOf := by
  unfold CylindricalBearing.rootList
  induction Ss with
  | nil => rfl
  | cons s t ih =>
    obtain ⟨h1, h2, h3⟩ := qOf_spec (h s (by simp))
    simp only [List.map_cons, List.flatten_cons, keep_eq hpr h1 h2 h3, List.singleton_append]
    rw [ih fun x hx => h x (by simp [hx])]

/-- Modified Sommerfeld number. -/
noncomputable def som (a : CylindricalArgs) (ω : ℝ) : ℝ :=
  a.journal_diameter * ω * a.oil_viscosity * a.bearing_length ^ 3 /
    (8 * a.radial_clearance ^ 2 * a.weight)

/-- The eccentricity that the code finds. -/
noncomputable def ecc (a : CylindricalArgs) (ω : ℝ) : ℝ := √(qOf (som a ω))

open CylindricalBearing in
/-- The arguments given to the parent class. -/
noncomputable def baseArgs (a : CylindricalArgs) : BearingArgs where
  n := a.n
  kxx := .list (a.speed.map fun ω => a.weight / a.radial_clearance * auu (ecc a ω))
  kxy := .list (a.speed.map fun ω => a.weight / a.radial_clearance * auv (ecc a ω))
  kyx := .list (a.speed.map fun ω => a.weight / a.radial_clearance * avu (ecc a ω))
  kyy := some (.list (a.speed.map fun ω => a.weight / a.radial_clearance * avv (ecc a ω)))
  cxx := .list (a.speed.map fun ω => a.weight / (a.radial_clearance * ω) * buu (ecc a ω))
  cxy := .list (a.speed.map fun ω => a.weight / (a.radial_clearance * ω) * buv (ecc a ω))
  cyx := .list (a.speed.map fun ω => a.weight / (a.radial_clearance * ω) * buv (ecc a ω))
  cyy := some (.list (a.speed.map fun ω => a.weight / (a.radial_clearance * ω) * bvv (ecc a ω)))
  frequency := some a.speed
  tag := a.tag
  n_link := a.n_link
  scale_factor := a.scale_factor
  color := a.color

theorem init_eq {sp : Scipy} {pr : PolyRoots} (hpr : FindsRoots pr) {a : CylindricalArgs}
    (h0 : ∀ ω ∈ a.speed, ω ≠ 0) (hs : ∀ ω ∈ a.speed, som a ω ≠ 0) :
    CylindricalBearing.init sp pr a = (BearingElement.init sp (baseArgs a) >>= fun base =>
      .ok ⟨base, a.speed, a.speed.map (som a),
        a.speed.map fun ω => som a ω / π * (a.journal_diameter / a.bearing_length) ^ 2,
        a.speed.map fun ω => qOf (som a ω), a.speed.map (ecc a),
        a.speed.map fun ω => CylindricalBearing.attitude (ecc a ω)⟩) := by
  have e1 : CylindricalBearing.speeds a = a.speed := by
    unfold CylindricalBearing.speeds
    conv_rhs => rw [← List.map_id a.speed]
    exact List.map_congr_left fun ω hω => by simp [h0 ω hω]
  have e2 : CylindricalBearing.modifiedSommerfeld a = a.speed.map (som a) := rfl
  have e3 : CylindricalBearing.rootList pr (a.speed.map (som a)) =
      a.speed.map fun ω => qOf (som a ω) := by
    rw [rootList_eq hpr (by simpa using hs), List.map_map]; rfl
  have e4 : (a.speed.map (ecc a)).zip a.speed = a.speed.map fun ω => (ecc a ω, ω) := by
    induction a.speed with
    | nil => rfl
    | cons x t ih => simp [ih]
  have e5 : (a.speed.map fun ω => qOf (som a ω)).map (fun x => √x) = a.speed.map (ecc a) := by
    rw [List.map_map]; rfl
  unfold CylindricalBearing.init
  simp only [e1, e2, e3, e5, e4, CylindricalBearing.stiff, CylindricalBearing.damp, List.map_map]
  rfl

end Ross.CylLemmas
