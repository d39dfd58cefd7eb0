import Verif.Spec.RotorHeights
import Verif.Lemmas.RotorHeights
import Verif.Props.RotorPlot

/-! # C122: how bearings and point masses are drawn -/

namespace Ross.Props

open Ross Ross.Spec Ross.RotorPlot Ross.Rotor Ross.RotorLemmas Ross.PlaceLemmas Ross.HeightLemmas

variable {pd : Pandas} {a : RotorArgs} {r : Rotor} {fuel : ℕ} {ns : NodeSort} {ul : ℝ}

/-- **C122** the icon of a bearing fills the space between two heights: a lower and an upper base, a spring and a damper
between their ends, all of it again below the axis, and the ground above it if there is no link. -/
theorem C122_icon (g : Bool) (x y₀ y₁ : ℝ) : bearingPatch g x y₀ y₁ = bearingIcon g x y₀ y₁ := by
  unfold bearingPatch bearingIcon
  cases g <;>
  · simp only [both, onGrid, lowerBase, upperBase, springLine, damperLines, groundLine, hatching, mirrored, insertAt,
      List.range_succ, List.range_zero]
    simp
    ring_nf
    simp [onGrid]
    ring_nf
    simp

theorem mean_of (h : init pd fuel a = some (.ok r)) (hg : NoGaps r) :
    ∃ m, MeanDiameter r m ∧ meanOf r.nodes_o_d = some m := by
  obtain ⟨g, hd, ho⟩ := diameters h hg
  refine ⟨_, ⟨g, hd, rfl⟩, ?_⟩
  have := mean_some 1 (shaftEnd r + 1) g
  rw [ho]
  have hid : ((List.range (shaftEnd r + 1)).map fun n => some (g n)).map (fun x => x.map ((1 : ℝ) * ·)) =
      (List.range (shaftEnd r + 1)).map fun n => some (g n) := by
    rw [List.map_map]
    apply List.map_congr_left
    intro n _
    simp
  rw [hid] at this
  have hs : ((List.range (shaftEnd r + 1)).map g).sum = ∑ n ∈ Finset.range (shaftEnd r + 1), g n := by
    exact (List.sum_toFinset _ List.nodup_range).symm.trans (by rw [List.toFinset_range])
  have hc : ((shaftEnd r + 1 : ℕ) : ℝ) = shaftEnd r + 1 := by push_cast; rfl
  rw [this, one_mul, hs, hc]

/-- **C122** the bearings at each node of the shaft are drawn one above the other, from the lowest node up, without gaps: the
first one stands on the shaft, and each is as high as the mean diameter of the shaft times its scale factor.  A point mass
is drawn at the lower end of a bearing on its node. -/
theorem C122_stacked (hpd : SortsRows pd) (hns : SortsNodes ns) (h : init pd fuel a = some (.ok r)) (hg : NoGaps r)
    (hL : PositiveLengths r) : ∃ m B P, MeanDiameter r m ∧ drawSupports ns r ul = .ok (B, P) ∧
      B.length = r.bearings.length ∧ P.length = r.pms.length ∧
      (∀ b ∈ r.bearings, ∃ k ≤ shaftEnd r, TableSays r b.tag (position r.shaft k)) ∧
      ∀ k ≤ shaftEnd r, (∃ b ∈ r.bearings, TableSays r b.tag (position r.shaft k)) →
        ∃ l R, BearingsAt r k l ∧ RadiusAt r.shaft k R ∧
          (∀ (i j : ℕ) b, l[i]? = some b → r.bearings[j]? = some b → B[j]? = some (some (bearingIcon b.n_link.isNone
            (ul * position r.shaft k) (ul * (R + m * scales (l.take i))) (ul * (R + m * scales (l.take (i + 1))))))) ∧
          ∀ (j : ℕ) p, r.pms[j]? = some p → TableSays r p.tag (position r.shaft k) →
            ∃ (i : ℕ) (b : BrgEl) (y : ℝ), l[i]? = some b ∧ p.n = some b.n ∧ y = ul * (R + m * scales (l.take i)) ∧
              P[j]? = some (some ([(ul * position r.shaft k, y), (ul * position r.shaft k, -y)],
                [circleAt (ul * position r.shaft k) y (y / 12), circleAt (ul * position r.shaft k) (-y) (y / 12)])) := by
  obtain ⟨m, hm, hm'⟩ := mean_of h hg
  obtain ⟨pos, hR⟩ := rows_of hpd h hg
  obtain ⟨H, hH, hk⟩ := heights_of hR hns h hg hL hm'
  -- each bearing
  have hbr : ∀ b ∈ r.bearings, ∃ k ≤ shaftEnd r, pos b.tag = some (position r.shaft k) ∧
      TableSays r b.tag (position r.shaft k) := by
    intro b hb
    obtain ⟨k, h1, h2⟩ := hR.stands b hb
    exact ⟨k, stands_le h1, h2, (hR.told b hb _).2 h2⟩
  have hbh : ∀ b ∈ r.bearings, ∃ y₀ y₁, heightOf H b.tag = .ok (some y₀, some y₁) := by
    intro b hb
    obtain ⟨k, h1, h2, h3⟩ := hbr b hb
    obtain ⟨l, R, l1, -, l3⟩ := hk k h1 ⟨b, hb, h2⟩
    obtain ⟨i, hi⟩ := List.mem_iff_getElem?.1 ((l1.mem b).2 ⟨hb, h3⟩)
    exact ⟨_, _, l3 i b hi⟩
  obtain ⟨B, hB⟩ : ∃ B, (r.bearings.mapM fun b => do
      let z ← tablePos ul r.df b.tag
      let y ← heightOf H b.tag
      pure (z.bind fun z => y.1.bind fun y₀ => y.2.map fun y₁ =>
        bearingPatch b.n_link.isNone z (ul * y₀) (ul * y₁)) : Res _) = .ok B := by
    refine RunLemmas.mapM_total fun b hb => ?_
    obtain ⟨k, -, -, h3⟩ := hbr b hb
    obtain ⟨y₀, y₁, hy⟩ := hbh b hb
    rw [table_pos h3, hy]
    exact ⟨_, rfl⟩
  have hpm : ∀ p ∈ r.pms, ∃ b ∈ r.bearings, p.n = some b.n ∧
      (∃ y₀ y₁, heightOf H b.tag = .ok (some y₀, some y₁) ∧ pmHeight r H p = .ok (some y₀)) ∧
      ∀ z, pos b.tag = some z → TableSays r p.tag z := by
    intro p hp
    obtain ⟨b, hb, h1, ⟨t, ht⟩, h2⟩ := pm_of hR hpd h hg hp
    obtain ⟨y₀, y₁, hy⟩ := hbh b hb
    refine ⟨b, hb, h1, ⟨y₀, y₁, hy, ?_⟩, h2⟩
    unfold pmHeight
    rw [ht]
    have : (rowOf pos b).tag = b.tag := rfl
    simp only [this, hy, ShapeLemmas.ok_bind]
    rfl
  obtain ⟨P, hP⟩ : ∃ P, (r.pms.mapM fun p => do
      let z ← tablePos ul r.df p.tag
      let y ← pmHeight r H p
      pure (z.bind fun z => y.map fun y => pmPatch z (ul * y)) : Res _) = .ok P := by
    refine RunLemmas.mapM_total fun p hp => ?_
    obtain ⟨b, hb, -, ⟨y₀, -, -, hy⟩, h2⟩ := hpm p hp
    obtain ⟨k, -, h3, -⟩ := hbr b hb
    rw [table_pos (h2 _ h3), hy]
    exact ⟨_, rfl⟩
  obtain ⟨B1, B2⟩ := RunLemmas.mapM_get hB
  obtain ⟨P1, P2⟩ := RunLemmas.mapM_get hP
  refine ⟨m, B, P, hm, ?_, B1, P1, ?_, ?_⟩
  · unfold drawSupports
    simp only [hH, hB, hP, ShapeLemmas.ok_bind]
    rfl
  · intro b hb
    obtain ⟨k, h1, -, h3⟩ := hbr b hb
    exact ⟨k, h1, h3⟩
  · rintro k hkN ⟨b, hb, hbk⟩
    obtain ⟨l, R, l1, l2, l3⟩ := hk k hkN ⟨b, hb, (hR.told b hb _).1 hbk⟩
    refine ⟨l, R, l1, l2, ?_, ?_⟩
    · intro i j b hi hj
      obtain ⟨q, hq⟩ := get_some B1 hj
      have h1 := B2 j b q hj hq
      rw [table_pos ((l1.mem b).1 (List.mem_of_getElem? hi)).2, l3 i b hi] at h1
      rw [hq, ← C122_icon]
      exact congrArg some (Except.ok.inj h1).symm
    · intro j p hj hpk
      obtain ⟨b, hb, h1, ⟨y₀, y₁, hy, hpy⟩, h2⟩ := hpm p (List.mem_of_getElem? hj)
      obtain ⟨k', -, h3, h4⟩ := hbr b hb
      have hsame : position r.shaft k' = position r.shaft k := by
        have h5 := h2 _ h3
        unfold TableSays at h5 hpk
        rw [h5] at hpk
        simpa using hpk
      rw [hsame] at h4
      obtain ⟨i, hi⟩ := List.mem_iff_getElem?.1 ((l1.mem b).2 ⟨hb, h4⟩)
      refine ⟨i, b, _, hi, h1, rfl, ?_⟩
      obtain ⟨q, hq⟩ := get_some P1 hj
      have h6 := P2 j p q hj hq
      rw [l3 i b hi] at hy
      have h7 : R + m * scales (l.take i) = y₀ := Option.some.inj (Prod.mk.inj (Except.ok.inj hy)).1
      rw [table_pos hpk, hpy, ← h7] at h6
      rw [hq, ← Except.ok.inj h6]
      rfl

theorem scales_take {l : List BrgEl} (hs : ∀ b ∈ l, 0 ≤ b.base.scale_factor) {i j : ℕ} (hij : i ≤ j) :
    scales (l.take i) ≤ scales (l.take j) := by
  obtain ⟨d, rfl⟩ := Nat.exists_eq_add_of_le hij
  rw [List.take_add]
  unfold scales
  rw [List.map_append, List.sum_append]
  have : 0 ≤ (((l.drop i).take d).map fun b => b.base.scale_factor).sum := by
    refine List.sum_nonneg fun x hx => ?_
    obtain ⟨b, hb, rfl⟩ := List.mem_map.1 hx
    exact hs b (List.mem_of_mem_drop (List.mem_of_mem_take hb))
  linarith

/-- **C122** two bearings at one place are not drawn over each other, and the one on the lower node is drawn below, if scale
factors and diameters are not negative. -/
theorem C122_apart (hpd : SortsRows pd) (hns : SortsNodes ns) (h : init pd fuel a = some (.ok r)) (hg : NoGaps r)
    (hL : PositiveLengths r) (hu : 0 ≤ ul) (hs : ∀ b ∈ r.bearings, 0 ≤ b.base.scale_factor)
    (hd : ∀ e ∈ r.shaft, 0 ≤ e.s.odl ∧ 0 ≤ e.s.odr) :
    ∃ B P, drawSupports ns r ul = .ok (B, P) ∧ ∀ (i j : ℕ) b c z, r.bearings[i]? = some b → r.bearings[j]? = some c → b ≠ c →
      TableSays r b.tag z → TableSays r c.tag z → ∃ x y₀ y₁ z₀ z₁,
        B[i]? = some (some (bearingIcon b.n_link.isNone x y₀ y₁)) ∧ B[j]? = some (some (bearingIcon c.n_link.isNone x z₀ z₁)) ∧
        0 ≤ y₀ ∧ y₀ ≤ y₁ ∧ 0 ≤ z₀ ∧ z₀ ≤ z₁ ∧ (y₁ ≤ z₀ ∨ z₁ ≤ y₀) ∧ (b.n < c.n → y₁ ≤ z₀) := by
  obtain ⟨m, B, P, hm, hD, -, -, hst, hk⟩ := C122_stacked (ul := ul) hpd hns h hg hL
  refine ⟨B, P, hD, ?_⟩
  intro i j b c z hi hj hne hbz hcz
  have hb := List.mem_of_getElem? hi
  have hc := List.mem_of_getElem? hj
  obtain ⟨k, hkN, hbk⟩ := hst b hb
  have hz : z = position r.shaft k := by
    unfold TableSays at hbz hbk
    rw [hbk] at hbz
    simpa using hbz.symm
  subst hz
  obtain ⟨l, R, l1, l2, l3, -⟩ := hk k hkN ⟨b, hb, hbk⟩
  obtain ⟨p, hp⟩ := List.mem_iff_getElem?.1 ((l1.mem b).2 ⟨hb, hbz⟩)
  obtain ⟨q, hq⟩ := List.mem_iff_getElem?.1 ((l1.mem c).2 ⟨hc, hcz⟩)
  have hm0 : 0 ≤ m := by
    obtain ⟨g, h1, rfl⟩ := hm
    refine div_nonneg (Finset.sum_nonneg fun n hn => ?_) (by positivity)
    obtain ⟨⟨e, he, -, hx⟩, -⟩ := h1 n (by simpa [Nat.lt_succ_iff] using hn)
    rw [hx]
    have := hd e he
    linarith [this.1, this.2]
  have hR0 : 0 ≤ R := by
    obtain ⟨⟨e, he, -, hx⟩ | ⟨e, he, -, hx⟩, -⟩ := l2 <;> rw [hx] <;> have := hd e he <;> linarith [this.1, this.2]
  have hsl : ∀ b ∈ l, 0 ≤ b.base.scale_factor := fun b hb => hs b ((l1.mem b).1 hb).1
  have mono : ∀ {i j : ℕ}, i ≤ j → ul * (R + m * scales (l.take i)) ≤ ul * (R + m * scales (l.take j)) := fun hij =>
    mul_le_mul_of_nonneg_left (add_le_add le_rfl (mul_le_mul_of_nonneg_left (scales_take hsl hij) hm0)) hu
  have base : ∀ i, 0 ≤ ul * (R + m * scales (l.take i)) := by
    intro i
    have h0 := scales_take hsl (Nat.zero_le i)
    have : scales (l.take 0) = 0 := by simp [scales]
    rw [this] at h0
    exact mul_nonneg hu (add_nonneg hR0 (mul_nonneg hm0 h0))
  have hpq : p ≠ q := by
    rintro rfl
    exact hne (Option.some.inj (hp.symm.trans hq))
  refine ⟨_, _, _, _, _, l3 p i b hp hi, l3 q j c hq hj, base _, mono (by omega), base _, mono (by omega), ?_, ?_⟩
  · rcases Nat.lt_or_gt_of_ne hpq with hlt | hlt
    · exact Or.inl (mono hlt)
    · exact Or.inr (mono hlt)
  · intro hn
    rcases Nat.lt_or_gt_of_ne hpq with hlt | hlt
    · exact mono hlt
    · exfalso
      obtain ⟨p', rfl⟩ := List.getElem?_eq_some_iff.1 hp
      obtain ⟨q', rfl⟩ := List.getElem?_eq_some_iff.1 hq
      have := List.pairwise_iff_getElem.1 l1.sorted q p q' p' hlt
      omega

/-- A sort as assumed exists. -/
def exNodes : NodeSort := ⟨fun l => l.mergeSort fun x y => decide (x.n_l.getD 0 ≤ y.n_l.getD 0)⟩

theorem exNodes_sorts : SortsNodes exNodes := by
  intro l
  refine ⟨List.mergeSort_perm _ _, ?_⟩
  have := List.pairwise_mergeSort (le := fun x y : Row => decide (x.n_l.getD 0 ≤ y.n_l.getD 0))
    (by simp only [decide_eq_true_eq]; intro a b c h1 h2; omega)
    (by simp only [Bool.or_eq_true, decide_eq_true_eq]; intro a b; omega) l
  simpa [exNodes] using this

/-- The example rotor, with two bearings at its first node, one of them on a point mass. -/
example : ∃ r, init exPandas 10 exArgs = some (.ok r) ∧ NoGaps r ∧ PositiveLengths r ∧ r.pms.length = 1 ∧
    (∀ b ∈ r.bearings, 0 ≤ b.base.scale_factor) ∧ (∀ e ∈ r.shaft, 0 ≤ e.s.odl ∧ 0 ≤ e.s.odr) ∧
    ∃ B P, drawSupports exNodes r 1000 = .ok (B, P) := by
  obtain ⟨r, f⟩ := exRotor_facts
  have hg : NoGaps r := by
    intro k hk
    rw [f.stop] at hk
    exact (f.full.nodes k).2 hk
  have hL : PositiveLengths r := by
    intro e he
    obtain ⟨k, -, t, rfl⟩ := f.shaft e he
    norm_num [exShaft]
  refine ⟨r, f.init, hg, hL, f.one, ?_, ?_, ?_⟩
  · intro b hb
    obtain ⟨t, rfl | rfl | rfl⟩ := f.brgs b hb <;> norm_num [BrgEl.base, exBrg]
  · intro e he
    obtain ⟨k, -, t, rfl⟩ := f.shaft e he
    norm_num [exShaft]
  · obtain ⟨m, B, P, -, hD, -⟩ := C122_stacked (ul := 1000) exPandas_sorts exNodes_sorts f.init hg hL
    exact ⟨B, P, hD⟩

end Ross.Props
