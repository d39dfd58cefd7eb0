import Verif.Lemmas.Summary
import Verif.Lemmas.Runs
import Verif.Lemmas.RunsOne
import Verif.Lemmas.Shape
import Verif.Lemmas.ExAssembly
import Verif.Spec.RotorPlot
import Verif.Props.Summary

/-! # C121: what the drawing of a rotor shows -/

namespace Ross.Props

open Ross Ross.Spec Ross.Rotor Ross.RotorLemmas Ross.PlaceLemmas Ross.RotorPlot

variable {pd : Pandas} {a : RotorArgs} {r : Rotor} {fuel : ℕ} {scales : List DiskScale} {nodes : ℕ} {sld : Bool} {ul : ℝ}
  {D : Drawing}

open Classical in
/-- The steps of a drawing. -/
structure Drawn (r : Rotor) (scales : List DiskScale) (nodes : ℕ) (sld : Bool) (ul : ℝ) (D : Drawing) where
  X : ℝ
  scaled : List (DiskEl × DiskScale)
  hX : (r.nodes_pos.map (ul * ·)).max? = some X
  warned : D.warned = if sld = true ∧ (r.shaft.map fun e => e.s.slenderness_ratio).filter (fun x => x < 1.6) ≠ [] then
    some ((r.shaft.map fun e => e.s.slenderness_ratio).filter fun x => x < 1.6) else none
  center : D.center = [-0.2 * X, 1.2 * X]
  labels : everyNth nodes (r.nodes_pos.map (ul * ·)) = .ok D.labels
  shaft : (r.shaft.mapM fun e => do
    let p ← atIndex r.nodes_pos (nodeOf e)
    pure (shaftPatch ul sld e p) : Res (List ShaftPatch)) = .ok D.shaft
  hscaled : calculated (r.disks.zip scales) = .ok scaled
  disks : (scaled.mapM fun x => do
    let f ← scaleOf x.2
    let z ← atIndex (r.nodes_pos.map (ul * ·)) x.1.d.n
    let y ← atIndex (r.nodes_o_d.map fun x => x.map (ul * ·)) x.1.d.n
    pure (diskPatch x.1.d z (y.map (· / 2)) ((meanOf (r.nodes_o_d.map fun x => x.map (ul * ·))).map (f * ·))) :
      Res (List DiskPatch)) = .ok D.disks
  bearings : (r.bearings.mapM fun b => do
    let z ← tablePos ul r.df b.tag
    pure (⟨z, b.n_link.isNone⟩ : BearingPatch) : Res (List BearingPatch)) = .ok D.bearings
  pms : (r.pms.mapM fun p => do
    let z ← tablePos ul r.df p.tag
    pure (⟨z, p.n, massText p⟩ : PmPatch) : Res (List PmPatch)) = .ok D.pms

theorem drawn_of (hF : plot_rotor r scales nodes sld ul = .ok D) : Nonempty (Drawn r scales nodes sld ul D) := by
  unfold plot_rotor at hF
  obtain ⟨X, hX, hF⟩ := RunLemmas.bindOk hF
  obtain ⟨l, hl, hF⟩ := RunLemmas.bindOk hF
  obtain ⟨s, hs, hF⟩ := RunLemmas.bindOk hF
  obtain ⟨c, hc, hF⟩ := RunLemmas.bindOk hF
  obtain ⟨d, hd, hF⟩ := RunLemmas.bindOk hF
  obtain ⟨b, hb, hF⟩ := RunLemmas.bindOk hF
  obtain ⟨p, hp, hF⟩ := RunLemmas.bindOk hF
  have hF := (Except.ok.inj hF).symm
  subst hF
  refine ⟨⟨X, c, ?_, rfl, rfl, hl, hs, hc, hd, hb, hp⟩⟩
  unfold maxPos at hX
  split at hX
  · rename_i x hx
    rw [hx]
    exact congrArg some (Except.ok.inj hX)
  · cases hX

theorem atIndex_ok {α : Type} {l : List α} {i : ℕ} {x : α} (h : atIndex l i = .ok x) : l[i]? = some x := by
  unfold atIndex at h
  split at h
  · rename_i y hy
    rw [hy, Except.ok.inj h]
  · cases h

theorem ends_of (h : init pd fuel a = some (.ok r)) (hg : NoGaps r) {k : ℕ} {z : ℝ} (hz : r.nodes_pos[k]? = some z) :
    k ≤ shaftEnd r ∧ z = position r.shaft k := by
  rw [nodes_of h hg, List.getElem?_map] at hz
  by_cases hk : k < shaftEnd r + 1
  · rw [List.getElem?_range hk] at hz
    exact ⟨by omega, (Option.some.inj hz).symm⟩
  · rw [List.getElem?_eq_none (by simpa using hk)] at hz
    cases hz

/-- **C121** the center line goes from a fifth of the length of the rotor before its start to a fifth after its end. -/
theorem C121_center (h : init pd fuel a = some (.ok r)) (hg : NoGaps r) (hF : plot_rotor r scales nodes sld ul = .ok D) :
    ∃ X, IsGreatest {x | ∃ k ≤ shaftEnd r, x = ul * position r.shaft k} X ∧ D.center = [-0.2 * X, 1.2 * X] := by
  obtain ⟨d⟩ := drawn_of hF
  refine ⟨d.X, ?_, d.center⟩
  have hX := d.hX
  rw [List.max?_eq_some_iff] at hX
  rw [nodes_of h hg] at hX
  constructor
  · obtain ⟨x, hx, e⟩ := List.mem_map.1 hX.1
    obtain ⟨k, hk, rfl⟩ := List.mem_map.1 hx
    exact ⟨k, by simpa [Nat.lt_succ_iff] using hk, e.symm⟩
  · rintro _ ⟨k, hk, rfl⟩
    exact hX.2 _ (List.mem_map.2 ⟨_, List.mem_map.2 ⟨k, by simpa [Nat.lt_succ_iff] using hk, rfl⟩, rfl⟩)

/-- **C121** the labels are the numbers of the nodes that the increment divides, each at the position of its node, from
left to right; an increment of zero is refused. -/
theorem C121_labels (h : init pd fuel a = some (.ok r)) (hg : NoGaps r) (hF : plot_rotor r scales nodes sld ul = .ok D) :
    nodes ≠ 0 ∧ D.labels = ((List.range (shaftEnd r + 1)).filter fun n => nodes ∣ n).map
      fun n => (toString n, ul * position r.shaft n) := by
  obtain ⟨d⟩ := drawn_of hF
  have hl := d.labels
  unfold everyNth at hl
  by_cases h0 : nodes = 0
  · rw [if_pos h0] at hl
    cases hl
  rw [if_neg h0] at hl
  refine ⟨h0, ?_⟩
  rw [← Except.ok.inj hl]
  have hlen : (r.nodes_pos.map (ul * ·)).length = shaftEnd r + 1 := by simp [nodes_of h hg]
  rw [hlen]
  have key : ∀ N, (List.range N).filter (fun n => decide (nodes ∣ n)) =
      (List.range ((N + nodes - 1) / nodes)).map (· * nodes) := by
    intro N
    induction N with
    | zero => 
      have : (0 + nodes - 1) / nodes = 0 := Nat.div_eq_of_lt (by omega)
      rw [this]
      rfl
    | succ N ih =>
      rw [List.range_succ, List.filter_append, ih]
      by_cases hd : nodes ∣ N
      · obtain ⟨q, rfl⟩ := hd
        have e1 : (nodes * q + nodes - 1) / nodes = q := by
          rw [show nodes * q + nodes - 1 = nodes - 1 + nodes * q by omega, Nat.add_mul_div_left _ _ (by omega),
            Nat.div_eq_of_lt (by omega), Nat.zero_add]
        have e2 : (nodes * q + 1 + nodes - 1) / nodes = q + 1 := by
          rw [show nodes * q + 1 + nodes - 1 = (q + 1) * nodes by ring_nf; omega, Nat.mul_div_cancel _ (by omega)]
        rw [e1, e2, List.range_succ]
        simp [Nat.mul_comm]
      · have e : (N + 1 + nodes - 1) / nodes = (N + nodes - 1) / nodes := by
          have h1 : N + 1 + nodes - 1 = (N + nodes - 1) + 1 := by omega
          rw [h1, Nat.succ_div, if_neg, Nat.add_zero]
          intro hc
          apply hd
          have : N + nodes - 1 + 1 = N + nodes := by omega
          rw [this] at hc
          simpa using hc
        rw [e]
        simp [hd]
  rw [key, List.map_map]
  apply List.map_congr_left
  intro k hk
  have hlt : k * nodes < shaftEnd r + 1 := by
    have := (List.mem_map.2 ⟨k, hk, rfl⟩ : k * nodes ∈ (List.range ((shaftEnd r + 1 + nodes - 1) / nodes)).map (· * nodes))
    rw [← key] at this
    exact List.mem_range.1 (List.mem_of_mem_filter this)
  simp only [Function.comp]
  congr 1
  rw [nodes_of h hg, List.map_map, List.getD_eq_getElem?_getD, List.getElem?_map, List.getElem?_range hlt]
  rfl

theorem get_some {α β : Type} {l : List α} {m : List β} (hl : m.length = l.length) {i : ℕ} {x : α} (hx : l[i]? = some x) :
    ∃ y, m[i]? = some y := by
  have hi : i < m.length := by rw [hl]; exact (List.getElem?_eq_some_iff.1 hx).1
  exact ⟨m[i], List.getElem?_eq_getElem hi⟩

/-- **C121** an increment of zero is refused. -/
theorem C121_labels_zero (h : init pd fuel a = some (.ok r)) (hg : NoGaps r) :
    plot_rotor r scales 0 sld ul = .error .valueError := by
  have hm : ∃ X, maxPos (r.nodes_pos.map (ul * ·)) = .ok X := by
    unfold maxPos
    cases hx : (r.nodes_pos.map (ul * ·)).max? with
    | some x => exact ⟨x, rfl⟩
    | none =>
      rw [List.max?_eq_none_iff, nodes_of h hg] at hx
      simp at hx
  obtain ⟨X, hX⟩ := hm
  unfold plot_rotor
  simp only [hX]
  rfl

/-- **C121** every shaft element is drawn as its section and the mirror image of it, from the position of its left node,
and in its material's color unless it is to be marked as thick; its text shows its dimensions in the units asked for. -/
theorem C121_shaft (h : init pd fuel a = some (.ok r)) (hg : NoGaps r) (hF : plot_rotor r scales nodes sld ul = .ok D) :
    D.shaft.length = r.shaft.length ∧ ∀ (i : ℕ) e, r.shaft[i]? = some e → ∃ p, D.shaft[i]? = some p ∧
      p.z.zip p.y = inUnits ul (section' e.s (position r.shaft (leftNode e)) ++
        mirrored (section' e.s (position r.shaft (leftNode e)))) ∧
      (p.color = if sld = true ∧ e.s.material.G_s * e.s.A * e.s.L ^ 2 / (e.s.material.E * e.s.Ie) < 1.6 then "yellow"
        else e.s.material.color) ∧
      (p.legend ≠ "Shaft" ↔ sld = true ∧ e.s.material.G_s * e.s.A * e.s.L ^ 2 / (e.s.material.E * e.s.Ie) < 1.6) ∧
      p.n = leftNode e ∧ (sld = false → p.numbers = dimensions ul e ∧ p.material = some e.s.material.name) ∧
      (sld = true → p.numbers = [e.s.material.G_s * e.s.A * e.s.L ^ 2 / (e.s.material.E * e.s.Ie)]) := by
  obtain ⟨d⟩ := drawn_of hF
  obtain ⟨h1, h2⟩ := RunLemmas.mapM_get d.shaft
  refine ⟨h1, fun i e he => ?_⟩
  obtain ⟨p, hp⟩ := get_some h1 he
  refine ⟨p, hp, ?_⟩
  obtain ⟨z, hz, h3⟩ := RunLemmas.bindOk (h2 i e p he hp)
  obtain ⟨-, rfl⟩ := ends_of h hg (atIndex_ok hz)
  have h3 := (Except.ok.inj h3).symm
  subst h3
  refine ⟨?_, ?_, ?_, rfl, ?_, ?_⟩
  · simp [shaftPatch, inUnits, section', mirrored, leftNode, nodeOf, neg_div]
  · simp only [shaftPatch, ShaftElement.slenderness_ratio]
    congr
  · change (shaftPatch ul sld e _).legend ≠ "Shaft" ↔ sld = true ∧ e.s.slenderness_ratio < 1.6
    by_cases hc : sld = true ∧ e.s.slenderness_ratio < 1.6
    · have : (shaftPatch ul sld e (position r.shaft (nodeOf e))).legend = "Shaft - Slenderness Ratio < 1.6" := if_pos hc
      rw [this]
      exact ⟨fun _ => hc, fun _ => by decide⟩
    · have : (shaftPatch ul sld e (position r.shaft (nodeOf e))).legend = "Shaft" := if_neg hc
      rw [this]
      exact ⟨fun h => absurd rfl h, fun h => absurd h hc⟩
  · rintro rfl
    refine ⟨?_, rfl⟩
    cases h6 : e.six <;> simp [shaftPatch, dimensions, h6]
  · rintro rfl
    rfl

/-- **C121** an element that is the first one on its node ends where the next node is. -/
theorem C121_ends {sh : List ShaftEl} {e : ShaftEl} (he : sh.find? (fun x => leftNode x = leftNode e) = some e) :
    position sh (leftNode e) + e.s.L = position sh (leftNode e + 1) := by
  unfold position
  have hmem : leftNode e ∈ leftNodes sh := by
    unfold leftNodes
    rw [List.mem_toFinset]
    exact List.mem_map.2 ⟨e, List.mem_of_find?_eq_some he, rfl⟩
  have : (leftNodes sh).filter (fun x => x < leftNode e + 1) =
      insert (leftNode e) ((leftNodes sh).filter fun x => x < leftNode e) := by
    ext x
    simp only [Finset.mem_filter, Finset.mem_insert]
    constructor
    · rintro ⟨h1, h2⟩
      rcases Nat.lt_succ_iff_lt_or_eq.1 h2 with h | h
      · exact Or.inr ⟨h1, h⟩
      · exact Or.inl h
    · rintro (rfl | ⟨h1, h2⟩)
      · exact ⟨hmem, by omega⟩
      · exact ⟨h1, by omega⟩
  rw [this, Finset.sum_insert (by simp), add_comm]
  congr 1
  unfold layerLength
  rw [he]
  rfl

/-- **C121** a warning about thick elements appears exactly when it is asked for and there are some, and lists their
slenderness ratios. -/
theorem C121_warning (hF : plot_rotor r scales nodes sld ul = .ok D) :
    (D.warned.isSome = true ↔ sld = true ∧ ∃ e ∈ r.shaft, e.s.slenderness_ratio < 1.6) ∧
    ∀ l, D.warned = some l → ∀ x, x ∈ l ↔ x < 1.6 ∧ ∃ e ∈ r.shaft, x = e.s.slenderness_ratio := by
  obtain ⟨d⟩ := drawn_of hF
  rw [d.warned]
  have hm : ∀ x : ℝ, x ∈ (r.shaft.map fun e => e.s.slenderness_ratio).filter (fun x => x < 1.6) ↔
      x < 1.6 ∧ ∃ e ∈ r.shaft, x = e.s.slenderness_ratio := by
    intro x
    rw [List.mem_filter, List.mem_map]
    constructor
    · rintro ⟨⟨e, he, rfl⟩, h⟩
      exact ⟨by simpa using h, e, he, rfl⟩
    · rintro ⟨h, e, he, rfl⟩
      exact ⟨⟨e, he, rfl⟩, by simpa using h⟩
  constructor
  · constructor
    · intro hs
      split_ifs at hs with hc
      · obtain ⟨x, hx⟩ := List.exists_mem_of_ne_nil _ hc.2
        obtain ⟨h1, e, he, rfl⟩ := (hm x).1 hx
        exact ⟨hc.1, e, he, h1⟩
      · cases hs
    · rintro ⟨h1, e, he, h2⟩
      rw [if_pos ⟨h1, List.ne_nil_of_mem ((hm _).2 ⟨h2, e, he, rfl⟩)⟩]
      rfl
  · intro l hl x
    split_ifs at hl with hc
    cases hl
    exact hm x

theorem zip_get {α β : Type} {l : List α} {m : List β} {i : ℕ} {x : α} {y : β} (hx : l[i]? = some x) (hy : m[i]? = some y) :
    (l.zip m)[i]? = some (x, y) := by
  rw [List.getElem?_zip_eq_some]
  exact ⟨hx, hy⟩

theorem diameters (h : init pd fuel a = some (.ok r)) (hg : NoGaps r) : ∃ g : ℕ → ℝ,
    (∀ n ≤ shaftEnd r, DiameterAt r.shaft n (g n)) ∧ r.nodes_o_d = (List.range (shaftEnd r + 1)).map fun n => some (g n) := by
  have hb := init_ok h
  have hlen : (nodesPos r.shaft).length = shaftEnd r + 1 := by
    rw [← hb.pos, nodes_of h hg]
    simp
  have key : ∀ n ≤ shaftEnd r, ∃ d, DiameterAt r.shaft n d ∧ ((touching r.shaft n).map fun e => e.s.o_d).max? = some d := by
    intro n hn
    have hne : touching r.shaft n ≠ [] := by
      have hc := ctx_of hb h hg
      have : ∃ e ∈ r.shaft, nodeOf e = n ∨ nodeOf e + 1 = n := by
        rcases Nat.lt_or_ge n (shaftEnd r) with hlt | hge
        · obtain ⟨e, he, h1⟩ := hg n hlt
          exact ⟨e, he, Or.inl h1⟩
        · have h0 : 0 < shaftEnd r := by
            rw [AssemblyLemmas.shaftEnd_last h]
            exact Nat.succ_pos _
          obtain ⟨e, he, h1⟩ := hg (shaftEnd r - 1) (by omega)
          exact ⟨e, he, Or.inr (by
            have h1 : nodeOf e = shaftEnd r - 1 := h1
            omega)⟩
      obtain ⟨e, he, h1⟩ := this
      exact List.ne_nil_of_mem (List.mem_filter.2 ⟨he, decide_eq_true h1⟩)
    cases hx : ((touching r.shaft n).map fun e => e.s.o_d).max? with
    | none =>
      rw [List.max?_eq_none_iff] at hx
      exact absurd (List.map_eq_nil_iff.1 hx) hne
    | some d =>
      refine ⟨d, ?_, rfl⟩
      rw [List.max?_eq_some_iff] at hx
      constructor
      · obtain ⟨e, he, rfl⟩ := List.mem_map.1 hx.1
        unfold touching at he
        obtain ⟨h1, h2⟩ := List.mem_filter.1 he
        exact ⟨e, h1, of_decide_eq_true h2, rfl⟩
      · rintro _ ⟨e, he, hc, rfl⟩
        exact hx.2 _ (List.mem_map.2 ⟨e, List.mem_filter.2 ⟨he, decide_eq_true hc⟩, rfl⟩)
  classical
  refine ⟨fun n => if hn : n ≤ shaftEnd r then (key n hn).choose else 0, ?_, ?_⟩
  · intro n hn
    simp only [dif_pos hn]
    exact (key n hn).choose_spec.1
  · rw [hb.odn]
    unfold nodesOd
    rw [hlen]
    apply List.map_congr_left
    intro n hn
    have hn : n ≤ shaftEnd r := by simpa [Nat.lt_succ_iff] using hn
    simp only [dif_pos hn]
    exact (key n hn).choose_spec.2

theorem mean_some (u : ℝ) (N : ℕ) (g : ℕ → ℝ) :
    meanOf (((List.range N).map fun n => some (g n)).map fun x => x.map (u * ·)) =
      some (u * (((List.range N).map g).sum / N)) := by
  unfold meanOf
  have : ((((List.range N).map fun n => some (g n)).map fun x => x.map (u * ·)).mapM id : Option (List ℝ)) =
      some ((List.range N).map fun n => u * g n) := by
    induction (List.range N) with
    | nil => rfl
    | cons x t ih =>
      simp only [List.map_cons, List.mapM_cons, ih]
      rfl
  rw [this]
  simp only [Option.map_some, List.length_map, List.length_range, List.sum_map_mul_left]
  rw [mul_div_assoc]

theorem disks_of (h : init pd fuel a = some (.ok r)) (hg : NoGaps r) : ∃ m, MeanDiameter r m ∧
    ∀ {D : Drawing} (d : Drawn r scales nodes sld ul D), D.disks.length = d.scaled.length ∧
      ∀ (i : ℕ) x, d.scaled[i]? = some x →
        ∃ p f, D.disks[i]? = some p ∧ scaleOf x.2 = .ok f ∧ DiskDrawn ul r.shaft x.1 (f * (ul * m)) p := by
  obtain ⟨g, hd, ho⟩ := diameters h hg
  refine ⟨_, ⟨g, hd, rfl⟩, fun {D} d => ?_⟩
  obtain ⟨h1, h2⟩ := RunLemmas.mapM_get d.disks
  refine ⟨h1, fun i x hx => ?_⟩
  obtain ⟨p, hp⟩ := get_some h1 hx
  obtain ⟨f, hf, h3⟩ := RunLemmas.bindOk (h2 i x p hx hp)
  obtain ⟨z, hz, h3⟩ := RunLemmas.bindOk h3
  obtain ⟨y, hy, h3⟩ := RunLemmas.bindOk h3
  refine ⟨p, f, hp, hf, ?_⟩
  have hz := atIndex_ok hz
  rw [List.getElem?_map, Option.map_eq_some_iff] at hz
  obtain ⟨z, hz', rfl⟩ := hz
  obtain ⟨hn, rfl⟩ := ends_of h hg hz'
  have hy := atIndex_ok hy
  rw [ho, List.getElem?_map, List.getElem?_map, List.getElem?_range (by omega)] at hy
  have hy := (Option.some.inj hy).symm
  subst hy
  rw [ho, mean_some] at h3
  have h3 := (Except.ok.inj h3).symm
  subst h3
  have hs : ((List.range (shaftEnd r + 1)).map g).sum = ∑ n ∈ Finset.range (shaftEnd r + 1), g n := by
    exact (List.sum_toFinset _ List.nodup_range).symm.trans (by rw [List.toFinset_range])
  have hc : ((shaftEnd r + 1 : ℕ) : ℝ) = shaftEnd r + 1 := by push_cast; rfl
  rw [hs, hc]
  refine ⟨⟨_, hd _ hn, ?_, ?_⟩, rfl, rfl⟩
  · simp [diskPatch, outlineOf, wedge, mirrored, List.intercalate, List.intersperse, sub_eq_add_neg, add_comm]
  · simp [diskPatch, circleAt, sub_eq_add_neg, add_comm]

theorem calculated_some {l l' : List (DiskEl × DiskScale)} (h : calculated l = .ok l') :
    l'.length = l.length ∧ ∀ (i : ℕ) e s f, l[i]? = some (e, s) → (∃ s', l'[i]? = some (e, s') ∧ (scaleOf s' = .ok f → 
      ((∀ x ∈ l, ∃ c, x.2 = .mass c) → ∃ M, GreatestMass (l.map Prod.fst) M ∧ f = 1 / 2 + e.d.m / M / 2) ∧
      (¬ (∀ x ∈ l, ∃ c, x.2 = .mass c) → s = .num f ∨ s = .mass (some f)))) := by
  have hall : l.all (fun x => x.2.isMass) = true ↔
      ∀ x ∈ l, ∃ c, x.2 = .mass c := by
    rw [List.all_eq_true]
    constructor
    · intro H x hx
      have := H x hx
      cases hc : x.2 with
      | num y => simp [hc, DiskScale.isMass] at this
      | mass c => exact ⟨c, rfl⟩
    · intro H x hx
      obtain ⟨c, hc⟩ := H x hx
      simp [hc, DiskScale.isMass]
  unfold calculated at h
  by_cases ha : ∀ x ∈ l, ∃ c, x.2 = .mass c
  · rw [if_pos (hall.2 ha)] at h
    split at h
    · rename_i hm
      cases h
      rw [List.max?_eq_none_iff, List.map_eq_nil_iff] at hm
      subst hm
      exact ⟨rfl, by simp⟩
    · rename_i M hM
      split_ifs at h with h0
      cases h
      refine ⟨by simp, fun i e s f hi => ⟨_, by rw [List.getElem?_map, hi]; rfl, fun hf => ⟨fun _ => ?_, fun hc => absurd ha hc⟩⟩⟩
      rw [List.max?_eq_some_iff] at hM
      refine ⟨M, ⟨?_, ?_⟩, ?_⟩
      · obtain ⟨x, hx, e⟩ := List.mem_map.1 hM.1
        exact ⟨x.1, List.mem_map.2 ⟨x, hx, rfl⟩, e.symm⟩
      · rintro _ ⟨e, he, rfl⟩
        obtain ⟨x, hx, rfl⟩ := List.mem_map.1 he
        exact hM.2 _ (List.mem_map.2 ⟨x, hx, rfl⟩)
      · have := Except.ok.inj hf
        rw [← this]
        norm_num
        ring
  · rw [if_neg (fun hc => ha (hall.1 hc))] at h
    cases h
    refine ⟨rfl, fun i e s f hi => ⟨s, hi, fun hf => ⟨fun hc => absurd hc ha, fun _ => ?_⟩⟩⟩
    cases s with
    | num x => exact Or.inl (by rw [Except.ok.inj hf])
    | mass c =>
      cases c with
      | none => cases hf
      | some x => exact Or.inr (by rw [Except.ok.inj hf])

/-- **C121** every disk is drawn on the shaft at the position of its node, as a wedge and its mirror image whose size is
the disk's scale times the mean diameter of the shaft: the scale given, or one by the masses. -/
theorem C121_disks (h : init pd fuel a = some (.ok r)) (hg : NoGaps r) (hs : scales.length = r.disks.length)
    (hF : plot_rotor r scales nodes sld ul = .ok D) :
    D.disks.length = r.disks.length ∧ ∃ m, MeanDiameter r m ∧ ∀ (i : ℕ) e, r.disks[i]? = some e →
      ∃ p f, D.disks[i]? = some p ∧ ScaleOf r.disks scales i e f ∧ DiskDrawn ul r.shaft e (f * (ul * m)) p := by
  obtain ⟨d⟩ := drawn_of hF
  obtain ⟨m, hm, H⟩ := disks_of (scales := scales) (nodes := nodes) (sld := sld) (ul := ul) h hg
  obtain ⟨h1, h2⟩ := H d
  obtain ⟨h3, h4⟩ := calculated_some d.hscaled
  have hz : (r.disks.zip scales).length = r.disks.length := by simp [hs]
  have h5 : (r.disks.zip scales).map Prod.fst = r.disks := List.map_fst_zip (by omega)
  have h6 : (∀ x ∈ r.disks.zip scales, ∃ c, x.2 = DiskScale.mass c) ↔ ByMass scales := by
    have : (r.disks.zip scales).map Prod.snd = scales := List.map_snd_zip (by omega)
    unfold ByMass
    conv_rhs => rw [← this]
    constructor
    · intro H x hx
      obtain ⟨y, hy, rfl⟩ := List.mem_map.1 hx
      exact H y hy
    · intro H x hx
      exact H _ (List.mem_map.2 ⟨x, hx, rfl⟩)
  refine ⟨by omega, m, hm, fun i e he => ?_⟩
  obtain ⟨s, hs'⟩ := get_some hs he
  obtain ⟨s', hs2, -⟩ := h4 i e s 0 (zip_get he hs')
  obtain ⟨p, f, hp, hf, hd⟩ := h2 i _ hs2
  refine ⟨p, f, hp, ?_, hd⟩
  obtain ⟨s'', hs3, hc⟩ := h4 i e s f (zip_get he hs')
  have : s' = s'' := by
    rw [hs2] at hs3
    exact (Prod.mk.inj (Option.some.inj hs3)).2
  subst this
  obtain ⟨c1, c2⟩ := hc hf
  rw [h5] at c1
  refine ⟨fun hb => c1 (h6.2 hb), fun hb => ?_⟩
  rcases c2 (fun hc => hb (h6.1 hc)) with rfl | rfl
  · exact Or.inl hs'
  · exact Or.inr hs'

/-- **C121** of disks drawn by their masses, the heaviest one has the scale one, the others a smaller one of at least one
half, and a heavier one no smaller scale than a lighter one. -/
theorem C121_masses {disks : List DiskEl} (hb : ByMass scales) (hm : ∀ e ∈ disks, 0 ≤ e.d.m)
    (hp : ∃ e ∈ disks, 0 < e.d.m) {i j : ℕ} {e e' : DiskEl} {f f' : ℝ} (he : e ∈ disks)
    (h : ScaleOf disks scales i e f) (h' : ScaleOf disks scales j e' f') :
    1 / 2 ≤ f ∧ f ≤ 1 ∧ (GreatestMass disks e.d.m → f = 1) ∧ (e.d.m ≤ e'.d.m ↔ f ≤ f') := by
  obtain ⟨M, hM, rfl⟩ := h.1 hb
  obtain ⟨M', hM', rfl⟩ := h'.1 hb
  have : M' = M := hM'.unique hM
  subst this
  obtain ⟨e0, he0, h0⟩ := hp
  have hpos : 0 < M' := lt_of_lt_of_le h0 (hM.2 ⟨e0, he0, rfl⟩)
  have h1 : e.d.m / M' ≤ 1 := (div_le_one hpos).2 (hM.2 ⟨e, he, rfl⟩)
  have h2 : 0 ≤ e.d.m / M' := div_nonneg (hm e he) hpos.le
  refine ⟨by linarith, by linarith, fun hg => ?_, ?_⟩
  · have : e.d.m = M' := hg.unique hM
    rw [this, div_self hpos.ne']
    norm_num
  · rw [← div_le_div_iff_of_pos_right hpos]
    constructor <;> intro <;> linarith

/-- **C121** is false where some disks but not all are to be drawn by their masses: the rotor cannot be drawn. -/
theorem C121_mixed_false (hs : scales.length = r.disks.length) (hb : ¬ ByMass scales)
    (hn : .mass none ∈ scales) : ∀ D, plot_rotor r scales nodes sld ul ≠ .ok D := by
  intro D hF
  obtain ⟨d⟩ := drawn_of hF
  obtain ⟨i, hi⟩ := List.mem_iff_getElem?.1 hn
  obtain ⟨e, he⟩ := get_some hs.symm hi
  obtain ⟨h3, h4⟩ := calculated_some d.hscaled
  obtain ⟨h1, h2⟩ := RunLemmas.mapM_get d.disks
  obtain ⟨s', hs1, -⟩ := h4 i e _ 0 (zip_get he hi)
  obtain ⟨p, hp⟩ := get_some h1 hs1
  obtain ⟨f, hf, -⟩ := RunLemmas.bindOk (h2 i _ p hs1 hp)
  obtain ⟨s'', hs2, hc⟩ := h4 i e _ f (zip_get he hi)
  rw [hs1] at hs2
  cases hs2
  have hsnd : (r.disks.zip scales).map Prod.snd = scales := List.map_snd_zip (by omega)
  rcases (hc hf).2 (fun H => hb fun x hx => by
    rw [← hsnd] at hx
    obtain ⟨y, hy, rfl⟩ := List.mem_map.1 hx
    exact H y hy) with h | h <;> cases h

theorem table_pos {t : Option String} {z : ℝ} (ht : TableSays r t z) : tablePos ul r.df t = .ok (some (ul * z)) := by
  have := congrArg (List.map Prod.fst) ht
  rw [List.map_map] at this
  unfold tablePos
  have h2 : (r.df.filter fun x => x.tag = t).map (·.nodes_pos_l) = [some z] := this
  rw [h2]
  rfl

/-- **C121** every bearing and seal is drawn at a position where it stands, and on the ground unless it is linked. -/
theorem C121_bearings (hpd : SortsRows pd) (h : init pd fuel a = some (.ok r)) (hg : NoGaps r)
    (hF : plot_rotor r scales nodes sld ul = .ok D) :
    D.bearings.length = r.bearings.length ∧ ∀ (i : ℕ) b, r.bearings[i]? = some b → ∃ k,
      StandsAt r.bearings (shaftEnd r) b k ∧
      D.bearings[i]? = some ⟨some (ul * position r.shaft k), decide (b.n_link = none)⟩ := by
  obtain ⟨d⟩ := drawn_of hF
  obtain ⟨h1, h2⟩ := RunLemmas.mapM_get d.bearings
  refine ⟨h1, fun i b hb => ?_⟩
  obtain ⟨p, hp⟩ := get_some h1 hb
  obtain ⟨k, hk, ht⟩ := (C110_positions hpd h hg).2.1 b (List.mem_of_getElem? hb)
  refine ⟨k, hk, ?_⟩
  obtain ⟨z, hz, h3⟩ := RunLemmas.bindOk (h2 i b p hb hp)
  rw [table_pos ht] at hz
  cases hz
  rw [hp, ← Except.ok.inj h3]
  cases b.n_link <;> rfl

/-- **C121** every point mass is drawn where a bearing on its node stands, and its text says what moves with it in the
directions `x` and `y`. -/
theorem C121_point_masses (hpd : SortsRows pd) (h : init pd fuel a = some (.ok r)) (hg : NoGaps r)
    (hF : plot_rotor r scales nodes sld ul = .ok D) :
    D.pms.length = r.pms.length ∧ ∀ (i : ℕ) p, r.pms[i]? = some p → ∃ b ∈ r.bearings, p.n = some b.n ∧ ∃ k q,
      StandsAt r.bearings (shaftEnd r) b k ∧ D.pms[i]? = some q ∧ q.z = some (ul * position r.shaft k) ∧ q.n = p.n ∧
      (∀ m, p = .pm m → q.masses = [("Mass (X)", m.mx), ("Mass (Y)", m.my)]) ∧
      ∀ m, p = .pm6 m → q.masses.take 2 = [("Mass (X)", m.mx), ("Mass (Y)", m.my)] := by
  obtain ⟨d⟩ := drawn_of hF
  obtain ⟨h1, h2⟩ := RunLemmas.mapM_get d.pms
  refine ⟨h1, fun i p hp => ?_⟩
  obtain ⟨q, hq⟩ := get_some h1 hp
  obtain ⟨b, hb, hn, k, hk, -, ht⟩ := (C110_positions hpd h hg).2.2 p (List.mem_of_getElem? hp)
  refine ⟨b, hb, hn, k, q, hk, hq, ?_⟩
  obtain ⟨z, hz, h3⟩ := RunLemmas.bindOk (h2 i p q hp hq)
  rw [table_pos ht] at hz
  cases hz
  rw [← Except.ok.inj h3]
  refine ⟨rfl, rfl, ?_, ?_⟩ <;> rintro m rfl <;> rfl

/-- **C121** is false of the axial mass: the text of a point mass of six degrees of freedom shows the mass in direction `y`
as the one in direction `z`. -/
theorem C121_axial_mass_false (hF : plot_rotor r scales nodes sld ul = .ok D) {i : ℕ} {m : PointMass6DoF}
    (hi : r.pms[i]? = some (.pm6 m)) : ∃ q, D.pms[i]? = some q ∧ q.masses[2]? = some ("Mass (Z)", m.my) ∧
      (m.mz ≠ m.my → q.masses[2]? ≠ some ("Mass (Z)", m.mz)) := by
  obtain ⟨d⟩ := drawn_of hF
  obtain ⟨h1, h2⟩ := RunLemmas.mapM_get d.pms
  obtain ⟨q, hq⟩ := get_some h1 hi
  refine ⟨q, hq, ?_⟩
  obtain ⟨z, hz, h3⟩ := RunLemmas.bindOk (h2 i _ q hi hq)
  rw [← Except.ok.inj h3]
  refine ⟨rfl, fun hne hc => hne ?_⟩
  exact (Prod.mk.inj (Option.some.inj hc)).2.symm

/-- **C121** a rotor whose shaft has no gaps is drawn, with any increment but zero, if the scale of every disk is known: all
of them by the masses, not all zero, or none without a number. -/
theorem C121_accepts (hpd : SortsRows pd) (h : init pd fuel a = some (.ok r)) (hg : NoGaps r) (hn : nodes ≠ 0)
    (hs : (ByMass scales ∧ ∀ M, GreatestMass r.disks M → M ≠ 0) ∨ (¬ ByMass scales ∧ .mass none ∉ scales))
    (hl : scales.length = r.disks.length) : ∃ D, plot_rotor r scales nodes sld ul = .ok D := by
  have hb := init_ok h
  have hctx := ctx_of hb h hg
  obtain ⟨g, hd, ho⟩ := diameters h hg
  obtain ⟨p1, p2, p3⟩ := C110_positions hpd h hg
  have hm : ∃ X, maxPos (r.nodes_pos.map (ul * ·)) = .ok X := by
    unfold maxPos
    cases hx : (r.nodes_pos.map (ul * ·)).max? with
    | some x => exact ⟨x, rfl⟩
    | none =>
      rw [List.max?_eq_none_iff, nodes_of h hg] at hx
      simp at hx
  obtain ⟨X, hX⟩ := hm
  have hpos : ∀ n ≤ shaftEnd r, atIndex r.nodes_pos n = .ok (position r.shaft n) := by
    intro n hn
    unfold atIndex
    rw [nodes_of h hg, List.getElem?_map, List.getElem?_range (by omega)]
    rfl
  have hpos' : ∀ n ≤ shaftEnd r, atIndex (r.nodes_pos.map (ul * ·)) n = .ok (ul * position r.shaft n) := by
    intro n hn
    unfold atIndex
    rw [nodes_of h hg, List.getElem?_map, List.getElem?_map, List.getElem?_range (by omega)]
    rfl
  have hod : ∀ n ≤ shaftEnd r, ∃ y, atIndex (r.nodes_o_d.map fun x => x.map (ul * ·)) n = .ok y := by
    intro n hn
    unfold atIndex
    rw [ho, List.getElem?_map, List.getElem?_map, List.getElem?_range (by omega)]
    exact ⟨_, rfl⟩
  have hlab : ∃ l, everyNth nodes (r.nodes_pos.map (ul * ·)) = .ok l := by
    unfold everyNth
    rw [if_neg hn]
    exact ⟨_, rfl⟩
  obtain ⟨l, hlab⟩ := hlab
  obtain ⟨sh, hsh⟩ : ∃ sh, (r.shaft.mapM fun e => do
      let p ← atIndex r.nodes_pos (nodeOf e)
      pure (shaftPatch ul sld e p) : Res (List ShaftPatch)) = .ok sh := by
    refine RunLemmas.mapM_total fun e he => ?_
    rw [hpos _ (hctx.upto e he).le]
    exact ⟨_, rfl⟩
  have hsnd : (r.disks.zip scales).map Prod.snd = scales := List.map_snd_zip (by omega)
  have hfst : (r.disks.zip scales).map Prod.fst = r.disks := List.map_fst_zip (by omega)
  obtain ⟨sc, hsc, hk⟩ : ∃ sc, calculated (r.disks.zip scales) = .ok sc ∧
      ∀ x ∈ sc, x.1 ∈ r.disks ∧ ∃ f, scaleOf x.2 = .ok f := by
    unfold calculated
    rcases hs with ⟨hb1, hM⟩ | ⟨hb1, hM⟩
    · rw [if_pos (by
        rw [List.all_eq_true]
        intro x hx
        obtain ⟨c, hc⟩ := hb1 x.2 (by rw [← hsnd]; exact List.mem_map.2 ⟨x, hx, rfl⟩)
        rw [hc]
        rfl)]
      cases hx : ((r.disks.zip scales).map fun x => x.1.d.m).max? with
      | none =>
        rw [List.max?_eq_none_iff, List.map_eq_nil_iff] at hx
        rw [hx]
        exact ⟨_, rfl, by simp⟩
      | some M =>
        have hM0 : M ≠ 0 := by
          apply hM
          rw [List.max?_eq_some_iff] at hx
          constructor
          · obtain ⟨x, hx, e⟩ := List.mem_map.1 hx.1
            exact ⟨x.1, by rw [← hfst]; exact List.mem_map.2 ⟨x, hx, rfl⟩, e.symm⟩
          · rintro _ ⟨e, he, rfl⟩
            rw [← hfst] at he
            obtain ⟨x, hx', rfl⟩ := List.mem_map.1 he
            exact hx.2 _ (List.mem_map.2 ⟨x, hx', rfl⟩)
        simp only [if_neg hM0]
        refine ⟨_, rfl, ?_⟩
        intro x hx
        obtain ⟨y, hy, rfl⟩ := List.mem_map.1 hx
        exact ⟨by rw [← hfst]; exact List.mem_map.2 ⟨y, hy, rfl⟩, _, rfl⟩
    · rw [if_neg (by
        intro hc
        apply hb1
        intro x hx
        rw [← hsnd] at hx
        obtain ⟨y, hy, rfl⟩ := List.mem_map.1 hx
        have := List.all_eq_true.1 hc y hy
        cases hy2 : y.2 with
        | num z => rw [hy2] at this; cases this
        | mass c => exact ⟨c, rfl⟩)]
      refine ⟨_, rfl, ?_⟩
      intro x hx
      refine ⟨by rw [← hfst]; exact List.mem_map.2 ⟨x, hx, rfl⟩, ?_⟩
      have h2 : x.2 ∈ scales := by rw [← hsnd]; exact List.mem_map.2 ⟨x, hx, rfl⟩
      cases hx2 : x.2 with
      | num z => exact ⟨z, rfl⟩
      | mass c =>
        cases c with
        | none => rw [hx2] at h2; exact absurd h2 hM
        | some z => exact ⟨z, rfl⟩
  obtain ⟨dk, hdk⟩ : ∃ dk, (sc.mapM fun x => do
      let f ← scaleOf x.2
      let z ← atIndex (r.nodes_pos.map (ul * ·)) x.1.d.n
      let y ← atIndex (r.nodes_o_d.map fun x => x.map (ul * ·)) x.1.d.n
      pure (diskPatch x.1.d z (y.map (· / 2)) ((meanOf (r.nodes_o_d.map fun x => x.map (ul * ·))).map (f * ·))) :
        Res (List DiskPatch)) = .ok dk := by
    refine RunLemmas.mapM_total fun x hx => ?_
    obtain ⟨hx1, f, hf⟩ := hk x hx
    have hle := disks_on h hg _ hx1
    obtain ⟨y, hy⟩ := hod _ hle
    rw [hf, hpos' _ hle, hy]
    exact ⟨_, rfl⟩
  obtain ⟨br, hbr⟩ : ∃ br, (r.bearings.mapM fun b => do
      let z ← tablePos ul r.df b.tag
      pure (⟨z, b.n_link.isNone⟩ : BearingPatch) : Res (List BearingPatch)) = .ok br := by
    refine RunLemmas.mapM_total fun b hb => ?_
    obtain ⟨k, -, ht⟩ := p2 b hb
    rw [table_pos ht]
    exact ⟨_, rfl⟩
  obtain ⟨pm, hpm⟩ : ∃ pm, (r.pms.mapM fun p => do
      let z ← tablePos ul r.df p.tag
      pure (⟨z, p.n, massText p⟩ : PmPatch) : Res (List PmPatch)) = .ok pm := by
    refine RunLemmas.mapM_total fun p hp => ?_
    obtain ⟨b, -, -, k, -, -, ht⟩ := p3 p hp
    rw [table_pos ht]
    exact ⟨_, rfl⟩
  unfold plot_rotor
  simp only [hX, hlab, hsh, hsc, hdk, hbr, hpm, ShapeLemmas.ok_bind]
  exact ⟨_, rfl⟩

/-- **C121** a rotor whose heaviest disk has no mass is not drawn if all scales are by the masses. -/
theorem C121_massless (hl : scales.length = r.disks.length) (hb : ByMass scales) (hM : GreatestMass r.disks 0) :
    plot_rotor r scales nodes sld ul ≠ .ok D := by
  intro hF
  obtain ⟨d⟩ := drawn_of hF
  have hsnd : (r.disks.zip scales).map Prod.snd = scales := List.map_snd_zip (by omega)
  have hfst : (r.disks.zip scales).map Prod.fst = r.disks := List.map_fst_zip (by omega)
  have h1 := d.hscaled
  unfold calculated at h1
  rw [if_pos (by
    rw [List.all_eq_true]
    intro x hx
    obtain ⟨c, hc⟩ := hb x.2 (by rw [← hsnd]; exact List.mem_map.2 ⟨x, hx, rfl⟩)
    rw [hc]
    rfl)] at h1
  have hx : ((r.disks.zip scales).map fun x => x.1.d.m).max? = some 0 := by
    rw [List.max?_eq_some_iff]
    constructor
    · obtain ⟨⟨e, he, h0⟩, -⟩ := hM
      rw [← hfst] at he
      obtain ⟨x, hx, rfl⟩ := List.mem_map.1 he
      exact List.mem_map.2 ⟨x, hx, h0.symm⟩
    · intro y hy
      obtain ⟨x, hx, rfl⟩ := List.mem_map.1 hy
      exact hM.2 ⟨x.1, by rw [← hfst]; exact List.mem_map.2 ⟨x, hx, rfl⟩, rfl⟩
  rw [hx] at h1
  simp at h1

/-- The example rotor is drawn, with its disk by number or by mass. -/
example : ∃ r, init exPandas 10 exArgs = some (.ok r) ∧ NoGaps r ∧ r.disks.length = 1 ∧
    (∃ D, plot_rotor r [.num 2] 1 true 1000 = .ok D) ∧ (∃ D, plot_rotor r [.mass none] 2 false 1 = .ok D) := by
  obtain ⟨r, f⟩ := exRotor_facts
  have hg : NoGaps r := by
    intro k hk
    rw [f.stop] at hk
    exact (f.full.nodes k).2 hk
  refine ⟨r, f.init, hg, by rw [f.disks]; rfl, ?_, ?_⟩
  · refine C121_accepts exPandas_sorts f.init hg (by norm_num) (Or.inr ⟨?_, by simp⟩) (by rw [f.disks]; rfl)
    intro hc
    obtain ⟨c, hc⟩ := hc (.num 2) (by simp)
    cases hc
  · refine C121_accepts exPandas_sorts f.init hg (by norm_num) (Or.inl ⟨by simp [ByMass], ?_⟩) (by rw [f.disks]; rfl)
    rintro M ⟨⟨e, he, rfl⟩, -⟩
    rw [f.disks, List.mem_singleton] at he
    subst he
    norm_num

end Ross.Props
