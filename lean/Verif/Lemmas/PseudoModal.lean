import Verif.Spec.PseudoModal
import Verif.Lemmas.TimeResponse

/-! # Lemmas on the pseudo-modal reduction -/

namespace Ross.TimeLemmas

open Ross Ross.Spec Ross.Rotor Ross.Newmark Ross.BearingLemmas Ross.AssemblyLemmas Ross.RotorLemmas
  Matrix

variable {pd : Pandas} {fuel : ℕ} {a : RotorArgs} {r : Rotor}

/-- What is added for a bearing. -/
noncomputable def minusCross (nd : ℕ) (ω : ℝ) (e : Elm) : Res LMat := do
  let E ← e.K ω
  let X ← crossOnly nd E
  pure ⟨X.1, -X.2⟩

theorem uncoupled_fold {ω : ℝ} {B : Matrix (Fin r.ndof) (Fin r.ndof) ℝ} :
    r.uncoupledK ω = .ok B ↔ ∃ K, r.K ω = .ok K ∧
      r.placedBearings.foldlM (fun A x => minusCross r.number_dof ω x.1 >>= ixAdd A x.2.values) K
        = .ok B := by
  unfold Rotor.uncoupledK minusCross
  rw [bind_ok]
  simp only [bind_assoc, pure_bind]

theorem placedBearings_brg : ∀ x ∈ r.placedBearings, ∃ b, x.1 = .brg b := by
  intro x hx
  have := (List.mem_filter.1 hx).2
  cases hx1 : x.1 <;> simp [hx1] at this ⊢

theorem neg_ent (Y : LMat) (p q : ℕ) : LMat.ent ⟨Y.1, -Y.2⟩ p q = -Y.ent p q := by
  unfold LMat.ent
  dsimp only
  split_ifs
  · rfl
  · simp

/-- Removing the cross-coupling from the matrix of a bearing gives that of the bearing without
cross-coupling; linked bearings are refused. -/
theorem minusCross_brg {nd : ℕ} {ω : ℝ} {b : BrgEl} {E X : LMat} (hE : Elm.K ω (.brg b) = .ok E)
    (hX : minusCross nd ω (.brg b) = .ok X) :
    b.n_link = none ∧ ∃ D, Elm.K ω (decoupled (.brg b)) = .ok D ∧ D.1 = E.1 ∧ X.1 = E.1 ∧
      ∀ p q, D.ent p q = E.ent p q + X.ent p q := by
  unfold minusCross at hX
  obtain ⟨E', hE', hX⟩ := bind_ok.1 hX
  rw [hE] at hE'
  cases hE'
  obtain ⟨Y, hY, hX⟩ := bind_ok.1 hX
  cases hX
  unfold crossOnly at hY
  dsimp only at hY
  by_cases hk' : E.1 ≠ if nd = 6 then 3 else 2
  · rw [if_pos hk'] at hY; cases hY
  rw [if_neg hk'] at hY
  simp only [Except.ok.injEq] at hY
  subst hY
  by_cases hk : nd = 6
  all_goals
    simp only [hk, if_true, if_false] at hk'
    rcases b with ⟨s, b⟩ | b
    all_goals
      simp only [Elm.K, BearingElement.K, BearingElement6DoF.K] at hE
      simp only [bind_ok] at hE
  · obtain ⟨kxx, h1, kyy, h2, kxy, h3, kyx, h4, h5⟩ := hE
    cases hl : b.n_link with
    | none =>
      simp only [hl, linkMat] at h5
      cases h5
      simp at hk'
    | some m =>
      simp only [hl, linkMat] at h5
      cases h5
      simp at hk'
  · obtain ⟨kxx, h1, kyy, h2, kxy, h3, kyx, h4, kzz, hz, h5⟩ := hE
    cases hl : b.base.n_link with
    | none =>
      simp only [hl, linkMat] at h5
      cases h5
      refine ⟨hl, ⟨3, !![kxx, 0, 0; 0, kyy, 0; 0, 0, kzz]⟩, ?_, rfl, rfl, ?_⟩
      · change BearingElement6DoF.K _ ω = _
        exact bind_ok.2 ⟨_, h1, bind_ok.2 ⟨_, h2, bind_ok.2 ⟨_, rfl, bind_ok.2 ⟨_, rfl,
          bind_ok.2 ⟨_, hz, by rw [hl]; rfl⟩⟩⟩⟩⟩
      · intro p q
        rw [neg_ent]
        unfold LMat.ent
        by_cases hpq : p < 3 ∧ q < 3
        · obtain ⟨hp, hq⟩ := hpq
          simp only [hp, hq, and_self, dif_pos]
          interval_cases p <;> interval_cases q <;> simp
        · rw [dif_neg hpq, dif_neg hpq, dif_neg hpq]; ring
    | some m =>
      simp only [hl, linkMat] at h5
      cases h5
      simp at hk'
  · obtain ⟨kxx, h1, kyy, h2, kxy, h3, kyx, h4, h5⟩ := hE
    cases hl : b.n_link with
    | none =>
      simp only [hl, linkMat] at h5
      cases h5
      refine ⟨hl, ⟨2, !![kxx, 0; 0, kyy]⟩, ?_, rfl, rfl, ?_⟩
      · change BearingElement.K _ ω = _
        exact bind_ok.2 ⟨_, h1, bind_ok.2 ⟨_, h2, bind_ok.2 ⟨_, rfl, bind_ok.2 ⟨_, rfl,
          by rw [hl]; rfl⟩⟩⟩⟩
      · intro p q
        rw [neg_ent]
        unfold LMat.ent
        by_cases hpq : p < 2 ∧ q < 2
        · obtain ⟨hp, hq⟩ := hpq
          simp only [hp, hq, and_self, dif_pos]
          interval_cases p <;> interval_cases q <;> simp
        · rw [dif_neg hpq, dif_neg hpq, dif_neg hpq]; ring
    | some m =>
      simp only [hl, linkMat] at h5
      cases h5
      simp at hk'
  · obtain ⟨kxx, h1, kyy, h2, kxy, h3, kyx, h4, kzz, hz, h5⟩ := hE
    cases hl : b.base.n_link with
    | none =>
      simp only [hl, linkMat] at h5
      cases h5
      simp at hk'
    | some m =>
      simp only [hl, linkMat] at h5
      cases h5
      simp at hk'

/-- The stiffness used for the modes is that of the rotor without cross-coupling. -/
theorem uncoupled_ok {ω : ℝ} {B : Matrix (Fin r.ndof) (Fin r.ndof) ℝ} (h : r.uncoupledK ω = .ok B) :
    (∀ x ∈ r.placed, ∀ b, x.1 = .brg b → b.n_link = none) ∧
      assemble r.ndof (fun e => Elm.K ω (decoupled e)) r.placed = .ok B := by
  obtain ⟨K, hK, hB⟩ := uncoupled_fold.1 h
  obtain ⟨g, hB⟩ := fold_ok.1 hB
  unfold Rotor.K at hK
  rw [show r.keep [] = r.placed by simp [Rotor.keep]] at hK
  obtain ⟨g', hK⟩ := assemble_fold.1 hK
  have key : ∀ x ∈ r.placed, ∀ b, x.1 = .brg b → b.n_link = none ∧
      Good r.ndof (fun e => Elm.K ω (decoupled e)) x ∧ ∀ i j,
        sc (fun e => Elm.K ω (decoupled e)) x i j =
          sc (Elm.K ω) x i j + sc (minusCross r.number_dof ω) x i j := by
    intro x hx b hb
    have hxb : x ∈ r.placedBearings := List.mem_filter.2 ⟨hx, by simp [hb]⟩
    obtain ⟨X, hX, hX1, hX2⟩ := g x hxb
    obtain ⟨E, hE, hE1, -⟩ := g' x hx
    rw [hb] at hX hE
    obtain ⟨h1, D, hD, h2, h3, h4⟩ := minusCross_brg hE hX
    refine ⟨h1, ⟨D, by simp only [hb]; exact hD, by rw [h2, hE1], hX2⟩, fun i j => ?_⟩
    simp only [sc, hb, hD, hE, hX, scat]
    split
    · exact h4 _ _
    · simp
  have other : ∀ x : Elm × Dict DofKey ℕ, (∀ b, x.1 ≠ .brg b) → decoupled x.1 = x.1 := by
    intro x hx
    cases h1 : x.1 with
    | brg b => exact absurd h1 (hx b)
    | _ => rfl
  refine ⟨fun x hx b hb => (key x hx b hb).1, assemble_fold.2 ⟨fun x hx => ?_, fun i j => ?_⟩⟩
  · by_cases hb : ∃ b, x.1 = .brg b
    · obtain ⟨b, hb⟩ := hb
      exact (key x hx b hb).2.1
    · obtain ⟨E, hE, h1⟩ := g' x hx
      refine ⟨E, ?_, h1⟩
      dsimp only
      rw [other x fun b hb' => hb ⟨b, hb'⟩]
      exact hE
  · rw [hB, hK]
    set p : Elm × Dict DofKey ℕ → Bool := fun x => match x.1 with
      | .brg _ => true
      | _ => false with hp
    rw [show r.placedBearings = r.placed.filter p from rfl]
    have hpos : ∀ x ∈ r.placed.filter p, ∃ b, x.1 = .brg b := placedBearings_brg (r := r)
    have hneg : ∀ x ∈ r.placed.filter (fun x => !p x), ∀ b, x.1 ≠ .brg b := by
      intro x hx b hb
      have := (List.mem_filter.1 hx).2
      simp [hp, hb] at this
    rw [sum_split r.placed p (fun x => !p x) (fun _ _ => rfl),
      sum_split r.placed p (fun x => !p x) (fun _ _ => rfl) (fun x => sc (fun e => Elm.K ω (decoupled e)) x _ _)]
    have e1 : ((r.placed.filter p).map fun x => sc (fun e => Elm.K ω (decoupled e)) x i.val j.val).sum =
        ((r.placed.filter p).map fun x => sc (Elm.K ω) x i.val j.val).sum +
          ((r.placed.filter p).map fun x => sc (minusCross r.number_dof ω) x i.val j.val).sum := by
      rw [← List.sum_map_add]
      congr 1
      refine List.map_congr_left fun x hx => ?_
      obtain ⟨b, hb⟩ := hpos x hx
      exact (key x (List.mem_of_mem_filter hx) b hb).2.2 _ _
    have e2 : ((r.placed.filter fun x => !p x).map fun x =>
        sc (fun e => Elm.K ω (decoupled e)) x i.val j.val).sum =
        ((r.placed.filter fun x => !p x).map fun x => sc (Elm.K ω) x i.val j.val).sum := by
      congr 1
      refine List.map_congr_left fun x hx => ?_
      simp only [sc, other x (hneg x hx)]
    rw [e1, e2]
    ring

/-- Without linked bearings the reduction has a stiffness matrix whenever the rotor has one. -/
theorem uncoupled_exists {ω : ℝ} {K : Matrix (Fin r.ndof) (Fin r.ndof) ℝ} (hK : r.K ω = .ok K)
    (hf : ∀ x ∈ r.placed, ∀ b, x.1 = .brg b → b.n_link = none ∧
      ((r.number_dof = 6 ∧ ∃ c, b = .brg6 c) ∨ (r.number_dof ≠ 6 ∧ ∃ s c, b = .brg s c))) :
    ∃ B, r.uncoupledK ω = .ok B := by
  have hK0 := hK
  unfold Rotor.K at hK
  rw [show r.keep [] = r.placed by simp [Rotor.keep]] at hK
  obtain ⟨g', -⟩ := assemble_fold.1 hK
  refine ⟨Matrix.of fun i j => K i j +
    (r.placedBearings.map fun x => sc (minusCross r.number_dof ω) x i j).sum,
    uncoupled_fold.2 ⟨K, hK0, fold_ok.2 ⟨fun x hx => ?_, fun i j => rfl⟩⟩⟩
  obtain ⟨b, hb⟩ := placedBearings_brg x hx
  have hx := List.mem_of_mem_filter hx
  obtain ⟨E, hE, hE1, hE2⟩ := g' x hx
  obtain ⟨hl, hc⟩ := hf x hx b hb
  have hsz : E.1 = if r.number_dof = 6 then 3 else 2 := by
    rw [hb] at hE
    rcases hc with ⟨h6, c, rfl⟩ | ⟨h6, s, c, rfl⟩
    · rw [if_pos h6]
      simp only [Elm.K, BearingElement6DoF.K, bind_ok] at hE
      obtain ⟨kxx, h1, kyy, h2, kxy, h3, kyx, h4, kzz, hz, h5⟩ := hE
      have hl : c.base.n_link = none := hl
      rw [hl] at h5
      cases h5
      rfl
    · rw [if_neg h6]
      simp only [Elm.K, BearingElement.K, bind_ok] at hE
      obtain ⟨kxx, h1, kyy, h2, kxy, h3, kyx, h4, h5⟩ := hE
      have hl : c.n_link = none := hl
      rw [hl] at h5
      cases h5
      rfl
  unfold minusCross
  refine ⟨⟨E.1, -fun i j => if i.val = 0 ∧ j.val = 1 ∨ i.val = 1 ∧ j.val = 0 then E.2 i j else 0⟩,
    bind_ok.2 ⟨E, hE, bind_ok.2 ⟨⟨E.1, fun i j =>
      if i.val = 0 ∧ j.val = 1 ∨ i.val = 1 ∧ j.val = 0 then E.2 i j else 0⟩, ?_, rfl⟩⟩, hE1, hE2⟩
  unfold crossOnly
  dsimp only
  rw [if_neg (by rw [hsz]; simp)]

end Ross.TimeLemmas
