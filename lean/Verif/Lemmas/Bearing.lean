import Mathlib.LinearAlgebra.Lagrange
import Mathlib.Tactic.Ring
import Mathlib.Data.List.OfFn
import Verif.Spec.Bearing

/-! # Lemmas about bearings -/

namespace Ross.BearingLemmas

open Matrix Spec Polynomial

theorem bind_ok {α β : Type} {x : Res α} {f : α → Res β} {b : β} :
    (x >>= f) = .ok b ↔ ∃ a, x = .ok a ∧ f a = .ok b := by
  cases x <;> simp [bind, Except.bind]

theorem bind_error {α β : Type} {x : Res α} {f : α → Res β} {e : PyErr} :
    (x >>= f) = .error e ↔ x = .error e ∨ ∃ a, x = .ok a ∧ f a = .error e := by
  cases x <;> simp [bind, Except.bind]

theorem ite_error {α : Type} {P : Prop} [Decidable P] {x : α} {e e' : PyErr}
    (h : (if P then (.ok x : Res α) else .error e') = .error e) : e = e' := by
  split at h
  · cases h
  · cases h; rfl

variable {sp : Scipy} {freq : Option (List ℝ)} {c : Coef} {r : Coeff}

/-- The list length the constructor requires. -/
def reqLen : Option (List ℝ) → ℕ
  | none => 1
  | some f => f.length

theorem eq_const_of_poly {f : List ℝ} {p : Polynomial ℝ} {x : ℝ} {k : ℕ} (hp : p.natDegree ≤ k)
    (hf : f.length = k + 1) (hn : f.Nodup) (h : ∀ y ∈ f, p.eval y = x) :
    ∀ y, p.eval y = x := by
  have h1 : p - C x = 0 := by
    apply Polynomial.eq_zero_of_natDegree_lt_card_of_eval_eq_zero' _ f.toFinset
    · intro y hy; simp [h y (List.mem_toFinset.1 hy)]
    · rw [List.toFinset_card_of_nodup hn, hf]
      exact Nat.lt_succ_of_le (by rw [natDegree_sub_C]; exact hp)
  intro y
  rw [sub_eq_zero.1 h1, eval_C]

theorem interpolate_values {l : List ℝ} (h : Coeff.interpolate sp freq l = .ok r) :
    r.values = l := by
  unfold Coeff.interpolate at h
  split at h
  · split at h
    · cases h
    · split at h
      · cases h; rfl
      · split at h
        · split at h
          · cases h; rfl
          · cases h
        · cases h; rfl
  · split at h
    · cases h
    · cases h; rfl

theorem interpolate_singleton (x : ℝ) :
    Coeff.interpolate sp freq [x] = .ok ⟨[x], some fun _ => x⟩ := by
  simp [Coeff.interpolate]

theorem interpolate_spec (hc : ScipyContract sp) {f l : List ℝ} (hd : f.Nodup)
    (h : Coeff.interpolate sp (some f) l = .ok r) (hlen : l.length = f.length) :
    f ≠ [] ∧ (Increasing (some f) → ∃ g, r.interp = some g) ∧
      (∀ g, r.interp = some g → (∃ x, l = [x] ∧ g = fun _ => x) ∨
        (1 < l.length ∧ if l.length ≤ 3 then
          ∃ p : Polynomial ℝ, p.natDegree ≤ l.length - 1 ∧ (g = fun x => p.eval x) ∧
            l = f.map (fun x => p.eval x)
        else sp.univariateSpline f l = some g)) := by
  by_cases h1 : 1 < l.length
  · have hf : f ≠ [] := by
      rintro rfl
      rw [hlen] at h1; simp at h1
    refine ⟨hf, ?_⟩
    unfold Coeff.interpolate at h
    rw [if_pos h1] at h
    simp only at h
    cases hs : sp.univariateSpline f l with
    | some g =>
      rw [hs] at h
      cases h
      have h3 : ¬ l.length ≤ 3 := by
        intro h3
        rw [hc.spline_short f l (by omega)] at hs
        cases hs
      refine ⟨fun _ => ⟨g, rfl⟩, ?_⟩
      intro g' hg'
      cases hg'
      exact Or.inr ⟨h1, by rw [if_neg h3]⟩
    | none =>
      rw [hs] at h
      simp only at h
      by_cases h2 : f.length = 2 ∨ f.length = 3
      · rw [if_pos h2] at h
        obtain ⟨p, hp1, hp2, hp3⟩ := hc.interp_poly (f.length - 1) f l (by omega) (by omega)
          (by omega) hd
        rw [hp2] at h
        cases h
        refine ⟨fun _ => ⟨_, rfl⟩, ?_⟩
        intro g' hg'
        cases hg'
        refine Or.inr ⟨h1, ?_⟩
        rw [if_pos (by omega)]
        exact ⟨p, by omega, rfl, hp3⟩
      · rw [if_neg h2] at h
        cases h
        refine ⟨?_, ?_⟩
        · intro hi
          exfalso
          rcases hi with hi | hi
          · omega
          · have := hc.spline_defined f l hlen.symm (by omega) hi
            rw [hs] at this; simp at this
        · intro g hg; cases hg
  · unfold Coeff.interpolate at h
    rw [if_neg h1] at h
    match l, h, hlen, h1 with
    | [], h, _, _ => cases h
    | [a], h, hlen, _ =>
      cases h
      refine ⟨?_, fun _ => ⟨_, rfl⟩, ?_⟩
      · rintro rfl; simp at hlen
      · intro g hg
        simp at hg
        subst hg
        exact Or.inl ⟨a, rfl, rfl⟩
    | _ :: _ :: _, _, _, h1 => simp at h1

/-- A processed coefficient of the right length denotes the right function, and can be evaluated
when the frequencies are usable. -/
theorem process_spec (hc : ScipyContract sp) (hd : Distinct freq)
    (h : Coeff.process sp freq c = .ok r) (hl : r.values.length = reqLen freq) :
    Consistent freq c ∧ (Increasing freq → ∃ g, r.interp = some g) ∧
    (∀ g, r.interp = some g → Denotes sp freq c g) ∧
    r.values = (match c with
      | .scalar x => List.replicate (reqLen freq) x
      | .list l => l) := by
  unfold Coeff.process at h
  cases freq with
  | none =>
    cases c with
    | scalar x =>
      simp only [interpolate_singleton] at h
      cases h
      exact ⟨trivial, fun _ => ⟨_, rfl⟩, fun g hg => by cases hg; rfl, rfl⟩
    | list l =>
      simp only at h
      have hv := interpolate_values h
      rw [hv] at hl
      obtain ⟨x, rfl⟩ := List.length_eq_one_iff.1 hl
      rw [interpolate_singleton] at h
      cases h
      exact ⟨rfl, fun _ => ⟨_, rfl⟩, fun g hg => by cases hg; rfl, rfl⟩
  | some f =>
    cases c with
    | scalar x =>
      simp only at h
      have hv := interpolate_values h
      obtain ⟨h2, h3, h4⟩ := interpolate_spec hc hd h (by simp)
      refine ⟨h2, h3, ?_, hv⟩
      intro g hg
      show g = fun _ => x
      rcases h4 g hg with ⟨y, hy, rfl⟩ | ⟨h5, h6⟩
      · have := congrArg (fun l : List ℝ => l[0]?) hy
        simp [List.getElem?_replicate] at this
        rw [this.2]
      · simp only [List.length_replicate] at h5 h6
        split_ifs at h6 with h7
        · obtain ⟨p, hp1, rfl, hp3⟩ := h6
          funext y
          refine eq_const_of_poly (k := f.length - 1) hp1 (by omega) hd ?_ y
          intro z hz
          have : p.eval z ∈ List.replicate f.length x := by
            rw [hp3]; exact List.mem_map_of_mem hz
          exact (List.mem_replicate.1 this).2
        · exact hc.spline_const f x g h6
    | list l =>
      simp only at h
      have hv := interpolate_values h
      rw [hv] at hl
      obtain ⟨h2, h3, h4⟩ := interpolate_spec hc hd h hl
      refine ⟨⟨h2, hl⟩, h3, ?_, hv⟩
      intro g hg
      rcases h4 g hg with ⟨y, rfl, rfl⟩ | ⟨h5, h6⟩
      · rfl
      · match l, h5, h6, hl with
        | [], h5, _, _ => simp at h5
        | [_], h5, _, _ => simp at h5
        | _ :: _ :: _, _, h6, hl => exact ⟨f, rfl, hl, h6⟩

theorem interpolate_accepts (hc : ScipyContract sp) {f l : List ℝ} (hd : f.Nodup) (hf : f ≠ [])
    (hlen : l.length = f.length) : ∃ r, Coeff.interpolate sp (some f) l = .ok r := by
  unfold Coeff.interpolate
  by_cases h1 : 1 < l.length
  · rw [if_pos h1]
    simp only
    cases hs : sp.univariateSpline f l with
    | some g => exact ⟨_, rfl⟩
    | none =>
      by_cases h2 : f.length = 2 ∨ f.length = 3
      · obtain ⟨p, hp1, hp2, hp3⟩ := hc.interp_poly (f.length - 1) f l (by omega) (by omega)
          (by omega) hd
        simp only [if_pos h2, hp2]
        exact ⟨_, rfl⟩
      · simp only [if_neg h2]
        exact ⟨_, rfl⟩
  · rw [if_neg h1]
    cases l with
    | nil =>
      exact absurd (List.length_eq_zero_iff.1 hlen.symm) hf
    | cons a t => exact ⟨_, rfl⟩

/-- A consistent coefficient is processed, with the required length. -/
theorem process_accepts (hc : ScipyContract sp) (hd : Distinct freq) (h : Consistent freq c) :
    ∃ r, Coeff.process sp freq c = .ok r ∧ r.values.length = reqLen freq := by
  unfold Coeff.process
  cases freq with
  | none =>
    cases c with
    | scalar x => exact ⟨_, interpolate_singleton x, rfl⟩
    | list l =>
      simp only [Consistent] at h
      obtain ⟨a, rfl⟩ := List.length_eq_one_iff.1 h
      exact ⟨_, interpolate_singleton a, rfl⟩
  | some f =>
    cases c with
    | scalar x =>
      obtain ⟨r, hr⟩ := interpolate_accepts (l := List.replicate f.length x) hc hd h (by simp)
      exact ⟨r, hr, by rw [interpolate_values hr]; simp [reqLen]⟩
    | list l =>
      obtain ⟨r, hr⟩ := interpolate_accepts (l := l) hc hd h.1 h.2
      exact ⟨r, hr, by rw [interpolate_values hr]; exact h.2⟩

theorem interpolate_error {e : PyErr} {l : List ℝ}
    (h : Coeff.interpolate sp freq l = .error e) :
    e = .valueError ∨ (e = .indexError ∧ l = []) := by
  unfold Coeff.interpolate at h
  split at h
  · split at h
    · cases h; exact Or.inl rfl
    · split at h
      · cases h
      · split at h
        · split at h
          · cases h
          · cases h; exact Or.inl rfl
        · cases h
  · split at h
    · cases h; exact Or.inr ⟨rfl, rfl⟩
    · cases h

/-- Errors of `_process_coefficient`. -/
theorem process_error {e : PyErr} (h : Coeff.process sp freq c = .error e) :
    e = .valueError ∨ (e = .indexError ∧ (freq = some [] ∨ c = .list [])) := by
  unfold Coeff.process at h
  cases c with
  | scalar x =>
    cases freq with
    | none =>
      simp only [interpolate_singleton] at h; cases h
    | some f =>
      simp only at h
      rcases interpolate_error h with h1 | ⟨h1, h2⟩
      · exact Or.inl h1
      · right
        refine ⟨h1, Or.inl ?_⟩
        have := congrArg List.length h2
        simp only [List.length_replicate, List.length_nil] at this
        rw [List.length_eq_zero_iff.1 this]
  | list l =>
    simp only at h
    rcases interpolate_error h with h1 | ⟨h1, h2⟩
    · exact Or.inl h1
    · exact Or.inr ⟨h1, Or.inr (by rw [h2])⟩

theorem linkMat_isSupport {k : ℕ} (n_link : Option ℕ) (A : Matrix (Fin k) (Fin k) ℝ) :
    IsSupport n_link A (linkMat n_link A) := by
  cases n_link with
  | none => rfl
  | some m =>
    refine ⟨_, rfl, fun u₁ u₂ => ?_⟩
    funext i
    have h : ∀ (P Q R S : Matrix (Fin k) (Fin k) ℝ) (i : Fin k ⊕ Fin k),
        ((fromBlocks P Q R S).reindex finSumFinEquiv finSumFinEquiv *ᵥ Fin.append u₁ u₂)
          (finSumFinEquiv i)
        = (fromBlocks P Q R S *ᵥ Sum.elim u₁ u₂) i := by
      intro P Q R S i
      simp only [mulVec, dotProduct]
      rw [← Equiv.sum_comp finSumFinEquiv]
      refine Finset.sum_congr rfl fun j _ => ?_
      simp only [reindex_apply, submatrix_apply, Equiv.symm_apply_apply]
      cases j with
      | inl j => simp
      | inr j =>
        simp only [finSumFinEquiv_apply_right, Sum.elim_inr]
        rw [Fin.append_right]
    obtain ⟨i, rfl⟩ := finSumFinEquiv.surjective i
    rw [h, fromBlocks_mulVec]
    cases i with
    | inl j => simp [mulVec_sub, neg_mulVec]; ring
    | inr j =>
      simp only [finSumFinEquiv_apply_right, Sum.elim_inr]
      rw [Fin.append_right]
      simp [mulVec_sub, neg_mulVec]; ring

/-- The result of a successful construction. -/
theorem init_ok {a : BearingArgs} {b : BearingElement} (h : BearingElement.init sp a = .ok b) :
    b.n = a.n ∧ b.n_link = a.n_link ∧ b.frequency = a.frequency ∧ b.tag = a.tag ∧
    b.scale_factor = a.scale_factor ∧ b.color = a.color ∧
    ∀ p ∈ [(b.kxx, (defaults a).kxx), (b.kyy, (defaults a).kyy), (b.kxy, (defaults a).kxy),
      (b.kyx, (defaults a).kyx), (b.cxx, (defaults a).cxx), (b.cyy, (defaults a).cyy),
      (b.cxy, (defaults a).cxy), (b.cyx, (defaults a).cyx), (b.mxx, (defaults a).mxx),
      (b.myy, (defaults a).myy), (b.mxy, (defaults a).mxy), (b.myx, (defaults a).myx)],
      Coeff.process sp a.frequency p.2 = .ok p.1 ∧ p.1.values.length = reqLen a.frequency := by
  obtain ⟨n, kxx, cxx, mxx, kyy, kxy, kyx, cyy, cxy, cyx, myy, mxy, myx, frequency, tag, n_link,
    sf, color⟩ := a
  unfold BearingElement.init at h
  simp only [bind_ok] at h
  obtain ⟨x1, h1, x2, h2, x3, h3, x4, h4, x5, h5, x6, h6, x7, h7, x8, h8, x9, h9, x10, h10, x11,
    h11, x12, h12, h⟩ := h
  have h9' : Coeff.process sp frequency (mxx.getD (.scalar 0)) = .ok x9 := by
    cases mxx <;> cases myy <;> exact h9
  have h10' : Coeff.process sp frequency (myy.getD (mxx.getD (.scalar 0))) = .ok x10 := by
    cases mxx <;> cases myy <;> exact h10
  split_ifs at h with hok
  simp only [pure, Except.pure, Except.ok.injEq] at h
  subst h
  refine ⟨rfl, rfl, rfl, rfl, rfl, rfl, ?_⟩
  have hall : ∀ x ∈ [x1, x2, x3, x4, x5, x6, x7, x8, x9, x10, x11, x12],
      x.values.length = reqLen frequency := by
    cases frequency <;> simpa [reqLen] using hok
  simp only [List.mem_cons, List.not_mem_nil, or_false, forall_eq_or_imp, forall_eq] at hall ⊢
  obtain ⟨g1, g2, g3, g4, g5, g6, g7, g8, g9, g10, g11, g12⟩ := hall
  exact ⟨⟨h1, g1⟩, ⟨h2, g2⟩, ⟨h3, g3⟩, ⟨h4, g4⟩, ⟨h5, g5⟩, ⟨h6, g6⟩, ⟨h7, g7⟩, ⟨h8, g8⟩,
    ⟨h9', g9⟩, ⟨h10', g10⟩, ⟨h11, g11⟩, ⟨h12, g12⟩⟩

theorem init_accepts {a : BearingArgs} (hc : ScipyContract sp) (hd : Distinct a.frequency)
    (h : ∀ c ∈ (defaults a).toList, Consistent a.frequency c) :
    ∃ b, BearingElement.init sp a = .ok b := by
  obtain ⟨n, kxx, cxx, mxx, kyy, kxy, kyx, cyy, cxy, cyx, myy, mxy, myx, frequency, tag, n_link,
    sf, color⟩ := a
  simp only [Coefs12.toList, List.mem_cons, List.not_mem_nil, or_false, forall_eq_or_imp,
    forall_eq] at h
  obtain ⟨g1, g2, g3, g4, g5, g6, g7, g8, g9, g10, g11, g12⟩ := h
  obtain ⟨x1, h1, l1⟩ := process_accepts hc hd g1
  obtain ⟨x2, h2, l2⟩ := process_accepts hc hd g2
  obtain ⟨x3, h3, l3⟩ := process_accepts hc hd g3
  obtain ⟨x4, h4, l4⟩ := process_accepts hc hd g4
  obtain ⟨x5, h5, l5⟩ := process_accepts hc hd g5
  obtain ⟨x6, h6, l6⟩ := process_accepts hc hd g6
  obtain ⟨x7, h7, l7⟩ := process_accepts hc hd g7
  obtain ⟨x8, h8, l8⟩ := process_accepts hc hd g8
  obtain ⟨x9, h9, l9⟩ := process_accepts hc hd g9
  obtain ⟨x10, h10, l10⟩ := process_accepts hc hd g10
  obtain ⟨x11, h11, l11⟩ := process_accepts hc hd g11
  obtain ⟨x12, h12, l12⟩ := process_accepts hc hd g12
  refine ⟨⟨n, n_link, frequency, x1, x2, x3, x4, x5, x6, x7, x8, x9, x10, x11, x12, tag, sf,
    color⟩, ?_⟩
  unfold BearingElement.init
  simp only [bind_ok]
  refine ⟨x1, h1, x2, h2, x3, h3, x4, h4, x5, h5, x6, h6, x7, h7, x8, h8, x9, ?_, x10, ?_, x11,
    h11, x12, h12, ?_⟩
  · cases mxx <;> cases myy <;> exact h9
  · cases mxx <;> cases myy <;> exact h10
  · rw [if_pos]
    · rfl
    · cases frequency <;> simpa [reqLen] using ⟨l1, l2, l3, l4, l5, l6, l7, l8, l9, l10, l11, l12⟩

theorem init_error {a : BearingArgs} {e : PyErr} (h : BearingElement.init sp a = .error e) :
    e = .valueError ∨ (e = .indexError ∧
      (a.frequency = some [] ∨ .list [] ∈ (defaults a).toList)) := by
  obtain ⟨n, kxx, cxx, mxx, kyy, kxy, kyx, cyy, cxy, cyx, myy, mxy, myx, frequency, tag, n_link,
    sf, color⟩ := a
  have key : ∀ c, Coeff.process sp frequency c = .error e → c ∈ (defaults
      ⟨n, kxx, cxx, mxx, kyy, kxy, kyx, cyy, cxy, cyx, myy, mxy, myx, frequency, tag, n_link,
    sf, color⟩).toList → e = .valueError ∨ (e = .indexError ∧
      (frequency = some [] ∨ .list [] ∈ (defaults ⟨n, kxx, cxx, mxx, kyy, kxy, kyx, cyy, cxy, cyx,
        myy, mxy, myx, frequency, tag, n_link, sf, color⟩).toList)) := by
    intro c hc hm
    rcases process_error hc with h | ⟨h, h' | h'⟩
    · exact Or.inl h
    · exact Or.inr ⟨h, Or.inl h'⟩
    · subst h'; exact Or.inr ⟨h, Or.inr hm⟩
  unfold BearingElement.init at h
  rw [bind_error] at h
  rcases h with h | ⟨x1, h1, h⟩
  · exact key _ h (by simp [Coefs12.toList, defaults])
  rw [bind_error] at h
  rcases h with h | ⟨x1, h1, h⟩
  · exact key _ h (by simp [Coefs12.toList, defaults])
  rw [bind_error] at h
  rcases h with h | ⟨x1, h1, h⟩
  · exact key _ h (by simp [Coefs12.toList, defaults])
  rw [bind_error] at h
  rcases h with h | ⟨x1, h1, h⟩
  · exact key _ h (by simp [Coefs12.toList, defaults])
  rw [bind_error] at h
  rcases h with h | ⟨x1, h1, h⟩
  · exact key _ h (by simp [Coefs12.toList, defaults])
  rw [bind_error] at h
  rcases h with h | ⟨x1, h1, h⟩
  · exact key _ h (by simp [Coefs12.toList, defaults])
  rw [bind_error] at h
  rcases h with h | ⟨x1, h1, h⟩
  · exact key _ h (by simp [Coefs12.toList, defaults])
  rw [bind_error] at h
  rcases h with h | ⟨x1, h1, h⟩
  · exact key _ h (by simp [Coefs12.toList, defaults])
  rw [bind_error] at h
  rcases h with h | ⟨x1, h1, h⟩
  · refine key (mxx.getD (.scalar 0)) ?_ (by simp [Coefs12.toList, defaults])
    cases mxx <;> cases myy <;> exact h
  rw [bind_error] at h
  rcases h with h | ⟨x1, h1, h⟩
  · refine key (myy.getD (mxx.getD (.scalar 0))) ?_ (by simp [Coefs12.toList, defaults])
    cases mxx <;> cases myy <;> exact h
  rw [bind_error] at h
  rcases h with h | ⟨x1, h1, h⟩
  · exact key _ h (by simp [Coefs12.toList, defaults])
  rw [bind_error] at h
  rcases h with h | ⟨x1, h1, h⟩
  · exact key _ h (by simp [Coefs12.toList, defaults])
  left
  exact ite_error h

/-- A scipy that satisfies the contract: interpolation polynomials everywhere. -/
noncomputable def lagrangeFn (f l : List ℝ) : Polynomial ℝ :=
  Lagrange.interpolate (Finset.univ : Finset (Fin f.length)) (fun i => f.get i)
    (fun i => l.getD i 0)

open Classical in
noncomputable def exScipy : Scipy where
  univariateSpline f l :=
    if f.length = l.length ∧ 3 < f.length ∧ f.Pairwise (· < ·) then
      some (fun x => (lagrangeFn f l).eval x) else none
  interp1d _ f l :=
    if f.length = l.length ∧ f.Nodup then some (fun x => (lagrangeFn f l).eval x) else none

theorem exScipy_contract : ScipyContract exScipy := by
  have hnode : ∀ f l : List ℝ, f.Nodup → f.length = l.length →
      l = f.map fun x => (lagrangeFn f l).eval x := by
    intro f l hf hl
    apply List.ext_getElem (by simp [hl])
    intro i h1 h2
    rw [List.getElem_map]
    have h3 : i < f.length := by omega
    have := Lagrange.eval_interpolate_at_node (s := (Finset.univ : Finset (Fin f.length)))
      (v := fun i => f.get i) (fun i => l.getD i 0)
      (Set.injOn_of_injective (List.nodup_iff_injective_get.1 hf)) (Finset.mem_univ ⟨i, h3⟩)
    simp only [List.get_eq_getElem] at this
    refine Eq.trans ?_ this.symm
    simp [h1]
  have hdeg : ∀ f l : List ℝ, f.Nodup → (lagrangeFn f l).natDegree ≤ f.length - 1 := by
    intro f l hf
    have := Lagrange.degree_interpolate_le (s := (Finset.univ : Finset (Fin f.length)))
      (v := fun i => f.get i) (fun i => l.getD i 0)
      (Set.injOn_of_injective (List.nodup_iff_injective_get.1 hf))
    simp only [Finset.card_univ, Fintype.card_fin] at this
    exact natDegree_le_of_degree_le this
  refine ⟨?_, ?_, ?_, ?_, ?_, ?_, ?_⟩
  · intro f l h; simp [exScipy, h]
  · intro f l h
    simp only [exScipy]
    rw [if_neg]; rintro ⟨-, h2, -⟩; omega
  · intro f l h
    simp only [exScipy]
    rw [if_neg]; rintro ⟨-, -, h2⟩
    exact h (h2.imp le_of_lt)
  · intro f l h1 h2 h3
    simp only [exScipy]
    rw [if_pos ⟨h1, h2, h3⟩]; rfl
  · intro f x g h
    simp only [exScipy] at h
    split_ifs at h with h1
    cases h
    have hn : f.Nodup := h1.2.2.imp ne_of_lt
    funext y
    refine eq_const_of_poly (f := f) (k := f.length - 1) (hdeg _ _ hn) (by omega) hn ?_ y
    intro z hz
    have h2 := hnode f (List.replicate f.length x) hn (by simp)
    have : (lagrangeFn f (List.replicate f.length x)).eval z ∈ List.replicate f.length x := by
      have h3 := List.mem_map_of_mem
        (f := fun x_1 => eval x_1 (lagrangeFn f (List.replicate f.length x))) hz
      rw [← h2] at h3
      exact h3
    exact (List.mem_replicate.1 this).2
  · intro k f l h; simp [exScipy, h]
  · intro k f l hk h1 h2 h3
    refine ⟨lagrangeFn f l, ?_, ?_, hnode f l h3 (by omega)⟩
    · have := hdeg f l h3; omega
    · simp only [exScipy]
      rw [if_pos ⟨by omega, h3⟩]

end Ross.BearingLemmas
