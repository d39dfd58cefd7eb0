import Verif.Lemmas.StaticLoads
import Verif.Spec.Static

/-! # Shear force and bending moment -/

namespace Ross.StaticLemmas

open Ross Ross.Spec Ross.BearingLemmas Ross.Rotor Ross.RotorLemmas Ross.ShaftLemmas Ross.Props
  Ross.Shaft6Lemmas Ross.AssemblyLemmas Matrix

variable {pd : Pandas} {a : RotorArgs} {r : Rotor} {fuel : ℕ}

theorem sum_cons2 (f : ℝ × ℝ) (t : List (ℝ × ℝ)) (j : ℕ) :
    ∑ i ∈ Finset.range (j + 1), (((f :: t).getD i (0, 0)).1 + ((f :: t).getD i (0, 0)).2) =
      f.1 + f.2 + ∑ i ∈ Finset.range j, ((t.getD i (0, 0)).1 + (t.getD i (0, 0)).2) := by
  rw [Finset.sum_range_succ']
  simp only [List.getD_cons_succ, List.getD_cons_zero]
  ring

theorem sum_cons1 (f : ℝ) (t : List ℝ) (j : ℕ) :
    ∑ i ∈ Finset.range (j + 1), (f :: t).getD i 0 = f + ∑ i ∈ Finset.range j, t.getD i 0 := by
  rw [Finset.sum_range_succ']
  simp only [List.getD_cons_succ, List.getD_cons_zero]
  ring

theorem shearTail_eq (t : List (ℝ × ℝ)) : ∀ (p : ℝ), (shearTail p t).length = t.length ∧
    ∀ j < t.length, (shearTail p t).getD j (0, 0) =
      (p + ∑ i ∈ Finset.range j, ((t.getD i (0, 0)).1 + (t.getD i (0, 0)).2) + (t.getD j (0, 0)).1,
        if j + 1 = t.length then (t.getD j (0, 0)).2 else
          p + ∑ i ∈ Finset.range (j + 1), ((t.getD i (0, 0)).1 + (t.getD i (0, 0)).2)) := by
  induction t with
  | nil => intro p; exact ⟨rfl, fun j hj => absurd hj (by simp)⟩
  | cons f t ih =>
    intro p
    cases t with
    | nil =>
      refine ⟨rfl, fun j hj => ?_⟩
      have : j = 0 := by simpa using hj
      subst this
      simp [shearTail]
    | cons f' t =>
      obtain ⟨h1, h2⟩ := ih (p + f.1 + f.2)
      have es : shearTail p (f :: f' :: t) = (p + f.1, p + f.1 + f.2) ::
        shearTail (p + f.1 + f.2) (f' :: t) := rfl
      refine ⟨by rw [es, List.length_cons, h1]; rfl, fun j hj => ?_⟩
      rw [es]
      cases j with
      | zero => simp; ring
      | succ j =>
        rw [List.getD_cons_succ, h2 j (by simpa using hj)]
        simp only [List.length_cons, List.getD_cons_succ]
        rw [sum_cons2 f (f' :: t) j, sum_cons2 f (f' :: t) (j + 1)]
        congr 1
        · ring
        · by_cases hj' : j + 1 = t.length + 1
          · rw [if_pos hj', if_pos (by omega)]
          · rw [if_neg hj', if_neg (by omega)]; ring

theorem shear_eq (t : List (ℝ × ℝ)) (ht : 2 ≤ t.length) : (shear t).length = t.length ∧
    ∀ j < t.length, (shear t).getD j (0, 0) =
      (∑ i ∈ Finset.range j, ((t.getD i (0, 0)).1 + (t.getD i (0, 0)).2) + (t.getD j (0, 0)).1,
        if j + 1 = t.length then (t.getD j (0, 0)).2 else
          ∑ i ∈ Finset.range (j + 1), ((t.getD i (0, 0)).1 + (t.getD i (0, 0)).2)) := by
  cases t with
  | nil => simp at ht
  | cons f t =>
    obtain ⟨h1, h2⟩ := shearTail_eq t (f.1 + f.2)
    refine ⟨by rw [shear, List.length_cons, h1]; rfl, fun j hj => ?_⟩
    rw [shear]
    cases j with
    | zero =>
      have : ¬ (0 + 1 = (f :: t).length) := by omega
      rw [if_neg this]
      simp
    | succ j =>
      rw [List.getD_cons_succ, h2 j (by simpa using hj)]
      simp only [List.length_cons, List.getD_cons_succ]
      rw [sum_cons2 f t j, sum_cons2 f t (j + 1)]
      congr 1
      by_cases hj' : j + 1 = t.length
      · rw [if_pos hj', if_pos (by omega)]
      · rw [if_neg hj', if_neg (by omega)]

theorem momentFrom_eq (t : List ℝ) : ∀ (p : ℝ), (momentFrom p t).length = t.length ∧
    ∀ j < t.length, (momentFrom p t).getD j (0, 0) =
      if j + 1 = t.length then (-t.getD j 0, 0) else
        (p + ∑ i ∈ Finset.range j, t.getD i 0, p + ∑ i ∈ Finset.range (j + 1), t.getD i 0) := by
  induction t with
  | nil => intro p; exact ⟨rfl, fun j hj => absurd hj (by simp)⟩
  | cons s t ih =>
    intro p
    cases t with
    | nil =>
      refine ⟨rfl, fun j hj => ?_⟩
      have : j = 0 := by simpa using hj
      subst this
      simp [momentFrom]
    | cons f' t =>
      obtain ⟨h1, h2⟩ := ih (p + s)
      have es : momentFrom p (s :: f' :: t) = (p, p + s) :: momentFrom (p + s) (f' :: t) := rfl
      refine ⟨by rw [es, List.length_cons, h1]; rfl, fun j hj => ?_⟩
      rw [es]
      cases j with
      | zero => simp
      | succ j =>
        rw [List.getD_cons_succ, h2 j (by simpa using hj)]
        simp only [List.length_cons, List.getD_cons_succ]
        by_cases hj' : j + 1 = t.length + 1
        · rw [if_pos hj', if_pos (by omega)]
        · rw [if_neg hj', if_neg (by omega)]
          rw [sum_cons1 s (f' :: t) j, sum_cons1 s (f' :: t) (j + 1)]
          congr 1 <;> ring

/-! ### The dictionary of bearing forces -/

theorem bn_fold {R : List ℝ} (bs : List BrgEl) :
    ∀ {d d' : Dict ℕ ℝ × Dict (Option String) ℝ},
      bs.foldlM (fun (d : Dict ℕ ℝ × Dict (Option String) ℝ) b =>
        match R[b.n]? with
        | some y => (.ok (Dict.set d.1 b.n y, Dict.set d.2 b.tag y) :
          Res (Dict ℕ ℝ × Dict (Option String) ℝ))
        | none => .error .indexError) d = .ok d' → d.1.keys.Nodup →
      d'.1.keys.Nodup ∧ (∀ b ∈ bs, b.n < R.length) ∧
      ∀ i, d'.1.get? i = if ∃ b ∈ bs, b.n = i then some (R.getD i 0) else d.1.get? i := by
  induction bs with
  | nil => intro d d' h hd; cases h; simp [hd]
  | cons b t ih =>
    intro d d' h hd
    rw [List.foldlM_cons] at h
    obtain ⟨x, hx, h⟩ := bind_ok.1 h
    by_cases hb : b.n < R.length
    · rw [List.getElem?_eq_getElem hb] at hx
      cases hx
      obtain ⟨k1, k2, k3⟩ := ih h (Dict.nodup_set _ _ _ hd)
      refine ⟨k1, fun c hc => ?_, fun i => ?_⟩
      · rcases List.mem_cons.1 hc with rfl | hc
        · exact hb
        · exact k2 c hc
      · rw [k3 i, Dict.get?_set]
        by_cases h1 : ∃ c ∈ t, c.n = i
        · obtain ⟨c, hc, hi⟩ := h1
          rw [if_pos ⟨c, hc, hi⟩, if_pos ⟨c, List.mem_cons_of_mem _ hc, hi⟩]
        · rw [if_neg h1]
          by_cases h2 : b.n = i
          · rw [if_pos h2, if_pos ⟨b, List.mem_cons_self, h2⟩]
            subst h2
            rw [List.getD_eq_getElem?_getD, List.getElem?_eq_getElem hb, Option.getD_some]
          · rw [if_neg h2, if_neg]
            rintro ⟨c, hc, hi⟩
            rcases List.mem_cons.1 hc with rfl | hc
            · exact h2 hi
            · exact h1 ⟨c, hc, hi⟩
    · rw [List.getElem?_eq_none (by omega)] at hx; cases hx

/-- Sums over a dictionary. -/
theorem dict_sum {d : Dict ℕ ℝ} (hd : d.keys.Nodup) {n : ℕ} (hk : ∀ k ∈ d.keys, k < n) (c : ℕ → ℝ) :
    (d.map fun p => c p.1 * p.2).sum = ∑ i ∈ Finset.range n, c i * (d.get? i).getD 0 := by
  induction d with
  | nil => simp [Dict.get?]
  | cons p t ih =>
    obtain ⟨k, v⟩ := p
    have hk' : k ∉ Dict.keys t := (List.nodup_cons.1 hd).1
    rw [List.map_cons, List.sum_cons, ih (List.nodup_cons.1 hd).2
      (fun k hk'' => hk k (List.mem_cons_of_mem _ hk''))]
    have e : ∀ i, c i * (Dict.get? ((k, v) :: t) i).getD 0 =
        (if i = k then c k * v else 0) + c i * (Dict.get? t i).getD 0 := by
      intro i
      by_cases h : i = k
      · subst h
        rw [Dict.get?_none_of_not_mem t hk']
        simp [Dict.get?]
      · have h' : ¬ k = i := fun e => h e.symm
        simp [Dict.get?, h, h']
    simp only [e, Finset.sum_add_distrib]
    congr 1
    rw [Finset.sum_ite_eq', if_pos (Finset.mem_range.2 (hk k List.mem_cons_self))]

end Ross.StaticLemmas
